import Verif.Session
import Verif.Err
import Verif.Getters

/-!
# The Python bindings (`/repo/python/polycap.pyx`)

The extension module is a thin layer over the C API.  Modelled: the translation of errors into exceptions, what is done with numpy arrays,
the classes `Profile`, `Description`, `Source`, `Photon`, `TransmissionEfficiencies` with their construction, use and deallocation by the
garbage collector, the cached leak and result arrays.  The C library underneath is any machine `f` that performs the calls of
`Verif/Session.lean`.  Not modelled: conversion of Python numbers to C types (arguments are given as C values), arrays of more than
one dimension, threads of the interpreter.
-/
namespace Polycap.Py
open CNum CM Mem Sess

/-! ## Exceptions -/

/-- Python exception classes -/
inductive Exc where
  | memoryError | valueError | ioError | typeError | notImplementedError | runtimeError | nameError | overflowError
  deriving DecidableEq, Repr

/-- `polycap_error_map`, polycap.pyx:91-99 -/
def excOf : Code → Exc
  | .memory => .memoryError
  | .invalidArgument => .valueError
  | .io => .ioError
  | .openmp => .ioError
  | .type => .typeError
  | .unsupported => .notImplementedError
  | .runtime => .runtimeError

/-- `polycap_set_exception`, polycap.pyx:102-107: the exception raised, if any.  `PyErr_SetString` reads the message. -/
def setException (p : Ptr) : CM EBlock (Option (Exc × String)) :=
  match p with
  | none => pure none
  | some a => do
    let (c, m) ← ErrApi.loadErr (some a)
    match ← load m with
    | .str t => do
      ErrApi.errorFree (some a)
      pure (some (excOf c, t))
    | .err _ _ => ub

/-! ## Bytes -/

/-- the bytes of a `double`, in the order of their addresses -/
abbrev Word := Fin 8 → UInt8

/-- the bytes of an array of `double` -/
def bytesOf (ws : List Word) : List UInt8 := ws.flatMap fun w => List.ofFn w

/-- `memcpy(dst, src, n)`: contents of `dst` afterwards; `none`: undefined (past the end of a block) -/
def memcpy (dst src : List UInt8) (n : Nat) : Option (List UInt8) :=
  if n ≤ src.length ∧ n ≤ dst.length then some (src.take n ++ dst.drop n) else none

/-- `Profile.get_ext`, `get_cap`, `get_z`, polycap.pyx:204-256, after the C getter: `src` is the array of `nid+1` doubles it returned, `fresh` the
content of the new numpy array of `nid+1` doubles.  The number of bytes is `sizeof(double) * nid+1`. -/
def copyProfileArray (nid : Nat) (src fresh : List Word) : Option (List UInt8) :=
  memcpy (bytesOf fresh) (bytesOf src) (8 * nid + 1)

/-! ## numpy arrays -/

/-- A one-dimensional array of `double` as `np.asarray(x, dtype=np.double)` gives it: the memory it lives in, the position of its first
element, the distance between neighbouring elements (both in elements), the number of elements.  `np.asarray` does not copy an array that
has the right type. -/
structure NdArr (α : Type) where
  buf : List α
  first : Nat
  step : Int
  size : Nat

/-- `x[i]` in Python -/
def NdArr.elem {α : Type} (a : NdArr α) (i : Nat) : Option α :=
  if 0 ≤ (a.first : Int) + i * a.step then a.buf[((a.first : Int) + i * a.step).toNat]? else none

/-- numpy guarantees that every element lies in the array's memory -/
def NdArr.Valid {α : Type} (a : NdArr α) : Prop := ∀ i < a.size, (a.elem i).isSome

/-- the elements, as Python sees them -/
def NdArr.values {α : Type} (a : NdArr α) : List α := (List.range a.size).filterMap a.elem

/-- the memory from `PyArray_DATA(x)` on, as the C library sees it -/
def NdArr.tail {α : Type} (a : NdArr α) : List α := a.buf.drop a.first

/-- `n` doubles from `PyArray_DATA(x)` on; `none`: past the end of the memory -/
def NdArr.raw {α : Type} (a : NdArr α) (n : Nat) : Option (List α) :=
  if n ≤ a.tail.length then some (a.tail.take n) else none

/-! ## Composition of the glass -/

inductive Key where
  | symbol (s : String)
  | number (z : Int)

inductive Comp (α : Type) where
  | dict (items : List (Key × α))
  | formula (s : String)
  | other

/-- xraylib's `SymbolToAtomicNumber` and `CompoundParser`; an error has been turned into an exception (polycap.pyx:74-89) -/
structure Xrl (α : Type) where
  symbol : String → Except Exc Int
  parse : String → Except Exc (List (Int × α))

/-- `ensure_int`, polycap.pyx:281-288, followed by the conversion to `np.int32` -/
def ensureInt {α : Type} (x : Xrl α) : Key → Except Exc Int
  | .symbol s => x.symbol s
  | .number z => if -2147483648 ≤ z ∧ z ≤ 2147483647 then .ok z else .error .overflowError

/-- the keys and values of the dictionary, in order -/
def compItems {α : Type} (x : Xrl α) : List (Key × α) → Except Exc (List (Int × α))
  | [] => .ok []
  | (k, w) :: rest =>
    match ensureInt x k with
    | .error e => .error e
    | .ok z => match compItems x rest with
      | .error e => .error e
      | .ok l => .ok ((z, w) :: l)

/-- `Description.__cinit__`, polycap.pyx:319-342 -/
def composition {α : Type} (x : Xrl α) : Comp α → Except Exc (List (Int × α))
  | .dict [] => .error .valueError
  | .dict items => compItems x items
  | .formula s => x.parse s
  | .other => .error .typeError

/-! ## Programs -/

inductive Kind where
  | profile | description | source | photon | result
  deriving DecidableEq, Repr

/-- a Python object: deallocated (or its constructor raised), a `Profile` made with `ignore=True`, an object wrapping C object number `v` -/
inductive Obj where
  | dead
  | nullProfile
  | live (k : Kind) (v : Nat)
  deriving DecidableEq, Repr

/-- Statements of a Python program; `i` names the object made by the `i`-th constructing statement.  `late` (in `launch`): the error the tracing
code leaves behind, if any (the tracing model has no error variable).  `collect`: the last reference to the object disappears and it is
deallocated. -/
inductive Stmt (α : Type) where
  | profile (a : ProfArgs α)
  | profileIgnore
  | profileFromArrays (ext cap z : NdArr α)
  | getProfile (i : Nat) (fld : ProfField)
  | description (i : Nat) (sig_rough : α) (n_cap : Int) (comp : Comp α) (density : α)
  | source (i : Nat) (p : SrcPars α) (energies : NdArr α)
  | photon (i : Nat) (c d E : NdArr α)
  | getPhoton (i : Nat) (u : Nat → α) (fuel n : Nat)
  | launch (i : Nat) (energies : NdArr α) (leak : Bool) (fuel k : Nat) (late : Option Code)
  | simulate (i : Nat) (maxThreads nPhotons : Int) (leak : Bool)
  | results (i : Nat)
  | write (i : Nat)
  | collect (i : Nat)

/-- what a statement evaluates to -/
inductive Val (α : Type) where
  | obj
  | none
  /-- an array of which the last element only got its first byte (see `copyProfileArray`) -/
  | profArr (exact : List α) (last : α)
  | weights (ws : List α)
  /-- an array of `n` doubles nobody has written -/
  | junk (n : Nat)
  | result (te : TE α)
  | wrote (te : TE α) (S : Src α) (D : Descr α) (open_area : α)

/-- state of the interpreter: the C library, the objects, the number of C objects so far, the number of weight arrays that were
handed to the bindings and not freed -/
structure PSt (σ : Type) where
  c : σ
  objs : List Obj
  nvars : Nat
  lost : Nat

inductive PRes (σ α : Type) where
  | ok (s : PSt σ) (v : Val α)
  | raised (s : PSt σ) (e : Exc)
  /-- undefined behaviour in C -/
  | crash
  /-- see `Sess.Res.inner` -/
  | inner

variable {α : Type} [CNum α] {σ : Type}

def PSt.push (s : PSt σ) (o : Obj) : PSt σ := { s with objs := s.objs ++ [o] }

/-- perform a C call -/
def call (f : Op α → σ → Sess.Res σ α) (op : Op α) (s : PSt σ) (k : PSt σ → Obs α → PRes σ α) : PRes σ α :=
  match f op s.c with
  | .next c o => k { s with c := c } o
  | .stale => .crash
  | .inner => .inner

/-- A constructor: the C call, `polycap_set_exception`, the new object.  `cinit`: the call is made in `__cinit__`, so that `__dealloc__` runs and
releases a C object that came together with an error. -/
def construct (f : Op α → σ → Sess.Res σ α) (op : Op α) (kind : Kind) (cinit : Bool) (s : PSt σ) : PRes σ α :=
  call f op s fun s1 o =>
    match o with
    | .made ok (some (some code)) =>
      if ok && cinit then
        call f (.free s.nvars) { s1 with nvars := s.nvars + 1 } fun s2 _ => .raised (s2.push .dead) (excOf code)
      else .raised ({ s1 with nvars := s.nvars + 1 }.push .dead) (excOf code)
    | .made _ _ => .ok ({ s1 with nvars := s.nvars + 1 }.push (.live kind s.nvars)) .obj
    | _ => .crash

/-- an object of the expected class, or an exception -/
def expect (s : PSt σ) (i : Nat) (kind : Kind) (k : Nat → PRes σ α) : PRes σ α :=
  match s.objs[i]? with
  | some (.live kd v) => if kd = kind then k v else .raised s .typeError
  | some .nullProfile => .raised s .typeError
  | _ => .raised s .nameError

/-- as `expect`, in a statement that would make an object: if it raises, its name stays without object -/
def expectNew (s : PSt σ) (i : Nat) (kind : Kind) (k : Nat → PRes σ α) : PRes σ α :=
  match s.objs[i]? with
  | some (.live kd v) => if kd = kind then k v else .raised (s.push .dead) .typeError
  | some .nullProfile => .raised (s.push .dead) .typeError
  | _ => .raised (s.push .dead) .nameError

/-- `np2vector`, polycap.pyx:732-741, after the length check (polycap.pyx:869-879) -/
def vec3 (a : NdArr α) : Option (V3 α) :=
  match a.values with
  | [x, y, z] => some ⟨x, y, z⟩
  | _ => none

/-- `Photon.launch`, polycap.pyx:929-941, after the C call -/
def afterLaunch (n : Nat) (rv : Int) (w : WOut α) (late : Option Code) (s : PSt σ) : PRes σ α :=
  match w with
  | .untouched => .raised s .valueError
  | _ =>
    let lose : PSt σ := { s with lost := s.lost + 1 }
    match late with
    | some c => .raised lose (excOf c)
    | none =>
      if rv = -2 then .raised lose .valueError
      else if rv = 2 then .ok lose .none
      else match w with
        | .filled ws => .ok s (.weights ws)
        | _ => .ok s (.junk n)

/-- One statement.  polycap.pyx:155-175 (`Profile`), 177-202 (`new_from_arrays`), 204-256 (profile getters), 296-362 (`Description`), 833-941 (`Photon`),
1045-1105 (`Source`), 1107-1152 (`get_photon`, `get_transmission_efficiencies`), 410-413 and 699-730 (`TransmissionEfficiencies`), 454-462 (`write_hdf5`).
The conversions of integer arguments (`int64_t n_cap`, 297; `int max_threads, int n_photons`, 1130) raise `OverflowError`; an object of the wrong
class given together with an integer out of range is reported as `TypeError` here. -/
def pyStep (x : Xrl α) (f : Op α → σ → Sess.Res σ α) (st : Stmt α) (s : PSt σ) : PRes σ α :=
  match st with
  | .profile a => construct f (.newProfile a) .profile true s
  | .profileIgnore => .ok (s.push .nullProfile) .obj
  | .profileFromArrays ext cap z =>
    if ext.size ≠ z.size ∨ ext.size ≠ cap.size then .raised (s.push .dead) .valueError
    else construct f (.newProfileFromArrays ((z.size : Int) - 1) ext.tail cap.tail z.tail) .profile false s
  | .getProfile i fld =>
    match s.objs[i]? with
    | some .nullProfile => .crash
    | _ => expect s i .profile fun v => call f (.getArray v fld) s fun s o =>
      match o with
      | .array n xs => match xs[n]? with
        | some l => .ok s (.profArr (xs.take n) l)
        | none => .crash
      | _ => .crash
  | .description i sig n_cap comp rho =>
    match s.objs[i]? with
    | some .nullProfile =>
      if n_cap < -9223372036854775808 ∨ 9223372036854775807 < n_cap then .raised (s.push .dead) .overflowError
      else match composition x comp with
      | .error e => .raised (s.push .dead) e
      | .ok l => if descRejects (⟨none, sig, n_cap, l.length, some 0, some 0, rho⟩ : DescArgs α) || (l.map (·.1)).any badZ then
          .raised (s.push .dead) .valueError else .crash
    | _ => expectNew s i .profile fun v =>
      if n_cap < -9223372036854775808 ∨ 9223372036854775807 < n_cap then .raised (s.push .dead) .overflowError
      else match composition x comp with
      | .error e => .raised (s.push .dead) e
      | .ok l => construct f (.newDescription v sig n_cap l rho) .description true s
  | .source i p energies =>
    expectNew s i .description fun v =>
      match energies.raw energies.size with
      | none => .crash
      | some es => construct f (.newSource v { p with energies := es }) .source true s
  | .photon i c d E =>
    expectNew s i .description fun v =>
      match vec3 c, vec3 d, vec3 E with
      | some c, some d, some E => construct f (.newPhoton v c d E) .photon true s
      | _, _, _ => .raised (s.push .dead) .valueError
  | .getPhoton i u fuel n => expectNew s i .source fun v => construct f (.getPhoton v u fuel n) .photon false s
  | .launch i energies leak fuel k late =>
    expect s i .photon fun v =>
      match energies.raw energies.size with
      | none => .crash
      | some es => call f (.launch v es leak fuel k) s fun s o =>
        match o with
        | .launched rv w _ => afterLaunch energies.size rv w late s
        | _ => .crash
  | .simulate i mt np leak =>
    expectNew s i .source fun v =>
      if mt < -2147483648 ∨ 2147483647 < mt ∨ np < -2147483648 ∨ 2147483647 < np then .raised (s.push .dead) .overflowError
      else construct f (.simulate v mt np leak) .result false s
  | .results i => expect s i .result fun v => call f (.readResult v) s fun s o =>
      match o with
      | .got te => .ok s (.result te)
      | .failed (some (some c)) => .raised s (excOf c)
      | _ => .crash
  | .write i => expect s i .result fun v => call f (.write v) s fun s o =>
      match o with
      | .wrote te S D oa => .ok s (.wrote te S D oa)
      | .failed (some (some c)) => .raised s (excOf c)
      | _ => .crash
  | .collect i =>
    match s.objs[i]? with
    | some (.live _ v) => call f (.free v) s fun s _ => .ok { s with objs := s.objs.set i .dead } .none
    | some .nullProfile => .ok { s with objs := s.objs.set i .dead } .none
    | _ => .ok s .none

/-- what the program sees of a statement -/
inductive Seen (α : Type) where
  | val (v : Val α)
  | exc (e : Exc)

inductive PEnd (σ : Type) where
  | fine (s : PSt σ)
  | crash
  | inner

/-- a whole program; exceptions are caught and the program goes on -/
def pyRun (x : Xrl α) (f : Op α → σ → Sess.Res σ α) : List (Stmt α) → PSt σ → List (Seen α) × PEnd σ
  | [], s => ([], .fine s)
  | st :: rest, s =>
    match pyStep x f st s with
    | .ok s v => let r := pyRun x f rest s; (.val v :: r.1, r.2)
    | .raised s e => let r := pyRun x f rest s; (.exc e :: r.1, r.2)
    | .crash => ([], .crash)
    | .inner => ([], .inner)

/-- a fresh interpreter -/
def pyStart (c : σ) : PSt σ := ⟨c, [], 0, 0⟩

end Polycap.Py
