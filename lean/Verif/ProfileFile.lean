import Verif.Lib

/-!
# `polycap_profile_new_from_file`, `/repo/src/polycap-profile.c:209-317`

The three input files are seen through `fscanf`: the outcome of the first `%d` conversion and the words behind it, each either a
number or not.  Simplification: a word that is no number stays in the input (in C a prefix of it may be consumed).  `FILE` objects
are heap blocks: `fopen` allocates one (and fails if the file is not readable or the allocation fails), `fclose` frees it.
-/
namespace Polycap
namespace PFile
open CM

variable {α : Type}

/-- An input file: result of `fscanf("%d")` at its start (`none`: no conversion) and the following words (`none`: not a number). -/
structure Content (α : Type) where
  count : Option Int
  words : List (Option α)

/-- Memory blocks: the profile struct (polycap-private.h:88-94), arrays of doubles with possibly unset elements, `FILE` objects,
and a struct that is not initialised yet. -/
inductive Blk (α : Type) where
  | raw
  | prof (nmax : Nat) (z cap ext : Ptr)
  | arr (xs : List (Option α))
  | file

/-- `fscanf(fptr,"%lf",&v)`: success, the value of `v` afterwards (unchanged unless converted), the rest of the input. -/
def scan1 (ws : List (Option α)) (v : Option α) : Bool × Option α × List (Option α) :=
  match ws with
  | some x :: r => (true, some x, r)
  | ws => (false, v, ws)

/-- `fscanf(fptr,"%lf %lf",&v,&w)`, polycap-profile.c:276,312: values afterwards and rest of the input -/
def scan2 (ws : List (Option α)) (v w : Option α) : Option α × Option α × List (Option α) :=
  let a := scan1 ws v
  if a.1 then
    let b := scan1 a.2.2 w
    (a.2.1, b.2.1, b.2.2)
  else (a.2.1, w, a.2.2)

/-- `fscanf(fptr,"%lf %lf %lf",&v,&sx,&sy)`, polycap-profile.c:294 (`sx`, `sy` are never used) -/
def scan3 (ws : List (Option α)) (v : Option α) : Option α × List (Option α) :=
  let a := scan1 ws v
  if a.1 then (a.2.1, (scan2 a.2.2 none none).2.2) else (a.2.1, a.2.2)

/-- the loops polycap-profile.c:275-277,311-313 over two arrays of the same length -/
def readPairs : List (Option α) → List (Option α) → List (Option α) → List (Option α) × List (Option α)
  | ws, z :: zs, c :: cs =>
    let r := scan2 ws z c
    let q := readPairs r.2.2 zs cs
    (r.1 :: q.1, r.2.1 :: q.2)
  | _, zs, cs => (zs, cs)

/-- the loop polycap-profile.c:293-295 -/
def readTriples : List (Option α) → List (Option α) → List (Option α)
  | ws, z :: zs => let r := scan3 ws z; r.1 :: readTriples r.2 zs
  | _, [] => []

/-- `fopen`, polycap-profile.c:233,281,299 -/
def fopen (fs : String → Option (Content α)) (name : String) : CM (Blk α) (Option (Ptr × Content α)) :=
  match fs name with
  | none => pure none
  | some c => do
    match ← malloc Blk.file with
    | none => pure none
    | some a => pure (some (some a, c))

def loadArr (p : Ptr) : CM (Blk α) (List (Option α)) := do
  match ← load p with
  | .arr xs => pure xs
  | _ => ub

/-- `polycap_profile_free`, polycap-profile.c:522-534 -/
def profFree (p : Ptr) : CM (Blk α) Unit := do
  match p with
  | none => pure ()
  | some _ =>
    match ← load p with
    | .prof _ z cap ext => do free z; free cap; free ext; free p
    | _ => ub

/-- `n` uninitialised doubles -/
def unset (n : Nat) : List (Option α) := List.replicate n none

/-- external shape file, polycap-profile.c:298-316.  `n_tmp` still holds the value read before when the file does not start with an
integer. -/
def readShape (fs : String → Option (Content α)) (name : String) (p z ext : Ptr) (nmax n_tmp : Nat) (e : EArg) :
    CM (Blk α) (Ptr × EArg) := do
  match ← fopen fs name with
  | none => do profFree p; pure (none, e.set .io)
  | some (f, c) =>
    if c.count.getD n_tmp ≠ nmax then do profFree p; pure (none, e.set .io)
    else do
      let zs ← loadArr z
      let es ← loadArr ext
      let r := readPairs c.words zs es
      store z (.arr r.1)
      store ext (.arr r.2)
      free f
      pure (p, e)

/-- central axis file, polycap-profile.c:280-296 -/
def readAxis (fs : String → Option (Content α)) (name shape : String) (p z ext : Ptr) (nmax n_tmp : Nat) (e : EArg) :
    CM (Blk α) (Ptr × EArg) := do
  match ← fopen fs name with
  | none => do profFree p; pure (none, e.set .io)
  | some (f, c) =>
    if c.count.getD n_tmp ≠ nmax then do profFree p; pure (none, e.set .io)
    else do
      let zs ← loadArr z
      store z (.arr (readTriples c.words zs))
      free f
      readShape fs shape p z ext nmax nmax e

/-- polycap-profile.c:245-278: the profile and the single capillary data; `nmax+1` is a 32-bit addition. -/
def readCap (fs : String → Option (Content α)) (axis shape : String) (f : Ptr) (c : Content α) (n : Nat) (e : EArg) :
    CM (Blk α) (Ptr × EArg) := do
  match ← malloc Blk.raw with
  | none => pure (none, e.set .memory)
  | some p =>
    if n = 2147483647 then ub else
    match ← malloc (Blk.arr (unset (n + 1))) with
    | none => do free (some p); pure (none, e.set .memory)
    | some z =>
      match ← malloc (Blk.arr (unset (n + 1))) with
      | none => do free (some z); free (some p); pure (none, e.set .memory)
      | some cap =>
        match ← malloc (Blk.arr (unset (n + 1))) with
        | none => do free (some cap); free (some z); free (some p); pure (none, e.set .memory)
        | some ext => do
          store (some p) (.prof n (some z) (some cap) (some ext))
          let zs ← loadArr (some z)
          let cs ← loadArr (some cap)
          let r := readPairs c.words zs cs
          store (some z) (.arr r.1)
          store (some cap) (.arr r.2)
          free f
          readAxis fs axis shape (some p) (some z) (some ext) n n e

/-- `polycap_profile_new_from_file`, polycap-profile.c:211-317; the uninitialised `n_tmp` is read when the first file does not start
with an integer. -/
def profileFromFile (fs : String → Option (Content α)) (single axis shape : Option String) (e : EArg) : CM (Blk α) (Ptr × EArg) :=
  match single, axis, shape with
  | some f1, some f2, some f3 => do
    match ← fopen fs f1 with
    | none => pure (none, e.set .io)
    | some (f, c) =>
      match c.count with
      | none => ub
      | some n =>
        if n ≤ 100 then pure (none, e.set .invalidArgument)
        else readCap fs f2 f3 f c n.toNat e
  | _, _, _ => pure (none, e.set .invalidArgument)

end PFile
end Polycap
