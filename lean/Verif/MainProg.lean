import Verif.Lib

/-!
# `/repo/src/main.c` and `/repo/src/polycap-aux.c`
-/
namespace Polycap

namespace Str
/-! ## C strings (polycap-aux.c)

A buffer is a list of bytes; the string in it ends before its first 0.  Functions that run past the end of the buffer have undefined
behaviour (`none`). -/

/-- `strlen` -/
def strlen : List UInt8 → Option Nat
  | [] => none
  | b :: bs => if b = 0 then some 0 else (strlen bs).map (· + 1)

/-- `strcpy(dup, str)` into a buffer of `n` bytes: the bytes written; `none` when the source is not terminated or does not fit -/
def strcpy (n : Nat) (str : List UInt8) : Option (List UInt8) :=
  match strlen str with
  | none => none
  | some l => if l + 1 ≤ n then some (str.take (l + 1)) else none

/-- `strncpy(dup, str, len)`: `len` bytes are written, the string (never more than `len` bytes of it) and then zeros -/
def strncpy : Nat → List UInt8 → Option (List UInt8)
  | 0, _ => some []
  | _ + 1, [] => none
  | n + 1, b :: bs => if b = 0 then some (List.replicate (n + 1) 0) else (strncpy n bs).map (b :: ·)

/-- `polycap_strdup`, polycap-aux.c:20-30 (the branch without a library `strdup`); `ok`: the `malloc` succeeds.  Result `some none`:
NULL. -/
def strdup (ok : Bool) (str : List UInt8) : Option (Option (List UInt8)) :=
  match strlen str with
  | none => none
  | some l => if ok then (strcpy (l + 1) str).map some else some none

/-- `polycap_strndup`, polycap-aux.c:32-43 (the branch without a library `strndup`) -/
def strndup (ok : Bool) (str : List UInt8) (len : Nat) : Option (Option (List UInt8)) :=
  if ok then (strncpy len str).map fun bs => some (bs ++ [0]) else some none
end Str

namespace Prog
/-- The three library calls of the program.  `S`: sources, `R`: results; NULL is `none`. -/
structure Api (S R : Type) where
  newFromFile : String → EArg → Option S × EArg
  simulate : S → Int → Int → Bool → EArg → Option R × EArg
  writeHdf5 : R → Option String → EArg → Bool × EArg

/-- what the program does, in order -/
inductive Ev (S R : Type) where
  | usage
  | newFromFile (file : String)
  | simulate (s : S) (nthreads nphotons : Int) (leak : Bool)
  | write (r : R) (file : Option String)
  | message (c : Code)
  | freeName
  | freeResult (r : R)
  | freeSource (s : S)

/-- `fprintf(stderr, "%s\n", error->message); return 1;`: a NULL `error` is dereferenced (`none`). -/
def failWith {S R : Type} (e : EArg) (done : List (Ev S R)) : Option (Int × List (Ev S R)) :=
  match e with
  | some (some c) => some (1, done ++ [.message c])
  | _ => none

/-- number of threads passed on, main.c:27,49-54; `args` are the arguments behind the program name -/
def nthreads (atoi : String → Int) (maxThreads : Int) (args : List String) : Int :=
  match args with
  | _ :: _ :: t :: _ => if atoi t < 1 ∨ atoi t > maxThreads then maxThreads else atoi t
  | _ => -1

/-- leak calculation, main.c:30,55-58 -/
def leakCalc (atoi : String → Int) (args : List String) : Bool :=
  match args with
  | _ :: _ :: _ :: l :: _ => decide (atoi l = 1)
  | _ => false

/-- output file name, main.c:44-48; `ok`: `polycap_strdup` succeeds -/
def outName (ok : Bool) (args : List String) : Option String :=
  if ok then match args with
    | _ :: o :: _ => some o
    | _ => some "polycap_out.h5"
  else none

/-- `main`, main.c:22-87: exit status and events, `none` for undefined behaviour.  `argc <= 1` is an empty argument list. -/
def main {S R : Type} (api : Api S R) (atoi : String → Int) (maxThreads : Int) (ok : Bool) (args : List String) :
    Option (Int × List (Ev S R)) :=
  match args with
  | [] => some (0, [.usage])
  | file :: _ =>
    match api.newFromFile file (some none) with
    | (none, e) => failWith e [.newFromFile file]
    | (some s, e) =>
      match api.simulate s (nthreads atoi maxThreads args) 30000 (leakCalc atoi args) e with
      | (none, e) => failWith e [.newFromFile file, .simulate s (nthreads atoi maxThreads args) 30000 (leakCalc atoi args)]
      | (some r, e) =>
        match api.writeHdf5 r (outName ok args) e with
        | (false, e) => failWith e [.newFromFile file, .simulate s (nthreads atoi maxThreads args) 30000 (leakCalc atoi args),
            .write r (outName ok args)]
        | (true, _) => some (0, [.newFromFile file, .simulate s (nthreads atoi maxThreads args) 30000 (leakCalc atoi args),
            .write r (outName ok args), .freeName, .freeResult r, .freeSource s])
end Prog
end Polycap
