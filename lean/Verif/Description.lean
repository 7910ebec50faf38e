import Verif.Profile

/-!
# `/repo/src/polycap-description.c`: composition weights, `polycap_description_new`, getters, free
-/
namespace Polycap
open CNum
variable {α : Type} [CNum α]

/-- `for(i..) sum += wi[i]`, polycap-description.c:63-65. -/
def sumFrom (s : α) : List α → α
  | [] => s
  | w :: ws => sumFrom (s +. w) ws

/-- The percentage loop, polycap-description.c:69-76: divide each weight by 100, stop at the first
negative one.  Returns the array contents after the loop and, if it was not stopped, the new sum. -/
def percentLoop (s : α) : List α → List α × Option α
  | [] => ([], some s)
  | w :: ws =>
    let w' := w /. lit 100
    if w' <. lit 0 then (w' :: ws, none)
    else
      let r := percentLoop (s +. w') ws
      (w' :: r.1, r.2)

/-- `polycap_description_check_weight`, polycap-description.c:58-85: array contents afterwards and the
error slot. -/
def checkWeight (wi : List α) (e : EArg) : List α × EArg :=
  let sum := sumFrom (lit 0) wi
  if sum >. lit 1 then
    match percentLoop (lit 0) wi with
    | (wi', none) => (wi', e.set .invalidArgument)
    | (wi', some sum') => (wi', if sum' ==. lit 1 then e else e.set .invalidArgument)
  else (wi, if sum ==. lit 1 then e else e.set .invalidArgument)

/-- Number of capillaries used for the open area, polycap-description.c:214-215
(`n_cap_temp`; the result of `round` is taken as an integer). -/
def nCapFull (n_cap : Int) : α :=
  let t := (ofInt (nShells (α := α) n_cap) +. lit (1/2)) *. lit 6
  (t *. t +. lit 3) /. lit 12

/-- polycap-description.c:216. -/
def openArea (cap0 ext0 : α) (n_cap : Int) : α :=
  (cap0 *. cap0 *. mpi) *. nCapFull n_cap /. (lit 3 *. sin (mpi /. lit 3) *. ext0 *. ext0)

/-- A profile value from its three arrays (entries beyond the arrays are never used: every array has
`nmax+1` elements whenever this is applied). -/
def listProfile (n : Nat) (zs cs es : List α) : Profile α :=
  ⟨n, fun i => zs.getD i (lit 0), fun i => cs.getD i (lit 0), fun i => es.getD i (lit 0)⟩

structure DescArgs (α : Type) where
  profile : Ptr
  sig_rough : α
  n_cap : Int
  nelem : Nat
  iz : Ptr
  wi : Ptr
  density : α

/-- The guards of polycap-description.c:96-119 that do not read arrays. -/
def descRejects (a : DescArgs α) : Bool :=
  a.sig_rough <. lit 0 || decide (a.n_cap ≤ 1) || decide (a.nelem < 1) || decide (a.iz = none) ||
  decide (a.wi = none) || a.density <=. lit 0

/-- polycap-description.c:121: atomic number outside `1..111`. -/
def badZ (z : Int) : Bool := decide (z < 1) || decide (z > 111)

open CM Mem

/-- `polycap_description_new`, second half, polycap-description.c:163-231: allocate and copy the profile,
compute the open area, validate. `d`, `iz'`, `wi'` are the blocks of the first half.  The struct members
are written in one store at the end (nobody reads them earlier). -/
def descProfilePart (a : DescArgs α) (d iz' wi' : Ptr) (e : EArg) : CM (Block α) (Ptr × EArg) := do
  let pr ← malloc (.raw 0)
  if pr = none then do
    free iz'
    free wi'
    free d
    pure (none, e.set .memory)
  else do
  let (n, pz, pc, pe) ← loadProfile a.profile
  let z ← malloc (.raw (n + 1))
  if z = none then do
    free iz'
    free wi'
    free pr
    free d
    pure (none, e.set .memory)
  else do
  let cap ← malloc (.raw (n + 1))
  if cap = none then do
    free iz'
    free wi'
    free z
    free pr
    free d
    pure (none, e.set .memory)
  else do
  let ext ← malloc (.raw (n + 1))
  if ext = none then do
    free iz'
    free wi'
    free cap
    free z
    free pr
    free d
    pure (none, e.set .memory)
  else do
  let zs ← loadArr pz (n + 1)
  let cs ← loadArr pc (n + 1)
  let es ← loadArr pe (n + 1)
  storeArr z zs
  storeArr cap cs
  storeArr ext es
  store pr (.profile n z cap ext)
  let v := validateE (some (listProfile n zs cs es)) a.n_cap e
  if v.1 = 1 then do
    store d (.descr a.sig_rough a.n_cap (openArea (cs.getD 0 (lit 0)) (es.getD 0 (lit 0)) a.n_cap)
      a.nelem iz' wi' a.density pr)
    pure (d, v.2)
  else do
    free iz'
    free wi'
    free cap
    free z
    free pr
    free d
    pure (none, v.2.clear.set .invalidArgument)

/-- `polycap_description_new`, polycap-description.c:89-231.  Simplification: the guard loop over `iz`
reads the whole array before testing it. -/
def descriptionNew (a : DescArgs α) (e : EArg) : CM (Block α) (Ptr × EArg) :=
  if descRejects a then pure (none, e.set .invalidArgument) else do
  let izs ← loadInts a.iz a.nelem
  if izs.any badZ then pure (none, e.set .invalidArgument) else do
  let d ← malloc (.raw 0)
  if d = none then pure (none, e.set .memory) else do
  let iz' ← malloc (.raw a.nelem)
  if iz' = none then do
    free d
    pure (none, e.set .memory)
  else do
  let wi' ← malloc (.raw a.nelem)
  if wi' = none then do
    free iz'
    free d
    pure (none, e.set .memory)
  else do
  storeInts iz' izs
  let ws ← loadArr a.wi a.nelem
  let cw := checkWeight ws e
  storeArr wi' cw.1
  descProfilePart a d iz' wi' cw.2

/-- `polycap_description_get_profile`, polycap-description.c:235-238 (no NULL check). -/
def descriptionGetProfile (d : Ptr) : CM (Block α) Ptr := do
  match ← load d with
  | .descr _ _ _ _ _ _ _ p => pure p
  | _ => ub

/-- `polycap_description_free`, polycap-description.c:243-253. -/
def descriptionFree (d : Ptr) : CM (Block α) Unit :=
  if d = none then pure () else do
  match ← load d with
  | .descr _ _ _ _ iz wi _ p => do
    profileFree p
    free iz
    free wi
    free d
  | _ => ub

end Polycap
