import Verif.Profile

/-!
# Geometry helpers of `/repo/src/polycap-photon.c`

Vectors, segment search, interpolation, capillary selection and the exterior-intersection search.
-/
namespace Polycap
open CNum

/-- Outcome of a piece of C code: a value, undefined behaviour, or (only for loops without a syntactic
bound) "the given number of loop iterations was not enough". -/
inductive Out (A : Type) where
  | ok (a : A)
  | ub
  | fuel

namespace Out
variable {A B : Type}
protected def bind : Out A → (A → Out B) → Out B
  | ok a, f => f a
  | ub, _ => ub
  | fuel, _ => fuel
instance : Monad Out where
  pure := ok
  bind := Out.bind
@[simp] theorem pure_eq (a : A) : (Pure.pure a : Out A) = ok a := rfl
@[simp] theorem bind_ok (a : A) (f : A → Out B) : ((ok a : Out A) >>= f) = f a := rfl
@[simp] theorem bind_ub (f : A → Out B) : ((ub : Out A) >>= f) = ub := rfl
@[simp] theorem bind_fuel (f : A → Out B) : ((fuel : Out A) >>= f) = fuel := rfl

theorem bind_eq_ok {x : Out A} {f : A → Out B} {b : B} :
    (x >>= f) = ok b ↔ ∃ a, x = ok a ∧ f a = ok b := by
  cases x <;> simp
end Out

variable {α : Type} [CNum α]

/-- `polycap_norm`, polycap-photon.c:365-376. -/
def vnorm (v : V3 α) : V3 α :=
  let s := sqrt (v.x *. v.x +. v.y *. v.y +. v.z *. v.z)
  ⟨v.x /. s, v.y /. s, v.z /. s⟩

/-- `polycap_scalar`, polycap-photon.c:379-386. -/
def scalar (a b : V3 α) : α := a.x *. b.x +. a.y *. b.y +. a.z *. b.z

/-- The loop `for(i=0; i<nmax; i++) if(z[i] <= zz) z_id = i;` started with `z_id = init`:
polycap-photon.c:208-211, 507-510, polycap-capil.c:669-672, 923-926, 1024-1027, 1330-1333. -/
def segIdFrom (z : Nat → α) (init : Nat) (zz : α) : Nat → Nat
  | 0 => init
  | n + 1 => if z n <=. zz then n else segIdFrom z init zz n

/-- Linear interpolation `(v1-v0)/(z1-z0) * (zz-z0) + v0`: polycap-photon.c:212, 630-638,
polycap-capil.c:673-675, 929-931, 1028-1033, 1334-1336 (and, with the roles of the two points exchanged,
polycap-capil.c:1278-1280). -/
def interp (z0 z1 v0 v1 zz : α) : α := (v1 -. v0) /. (z1 -. z0) *. (zz -. z0) +. v0

/-- The variant of polycap-photon.c:512: `((v0-v1)/(z0-z1)) * (zz-z0) + v0`. -/
def interpL (z0 z1 v0 v1 zz : α) : α := (v0 -. v1) /. (z0 -. z1) *. (zz -. z0) +. v0

/-- Interpolated profile value at `zz` in segment `id`. -/
def interpAt (p : Profile α) (v : Nat → α) (id : Nat) (zz : α) : α :=
  interp (p.z id) (p.z (id + 1)) (v id) (v (id + 1)) zz

/-- Fractional hexagonal coordinates `(q, r)`, polycap-photon.c:540-542 (also polycap-capil.c:961-963,
1035-1037). -/
def hexFrac (cell x y : α) : α × α :=
  ((x /. (lit 2 *. cospi6) -. y /. lit 3) /. cell, y *. lit (2/3) /. cell)

/-- Cube rounding, polycap-photon.c:543-552 (also polycap-capil.c:964-973, 1038-1047).  In C the
result is held in doubles; the model uses the integers they represent. -/
def cubeRound (q r : α) : Int × Int :=
  let s := lit (-1) *. q -. r
  let rq := roundI q
  let rr := roundI r
  let rs := roundI s
  let eq := fabs (q -. ofInt rq)
  let er := fabs (r -. ofInt rr)
  let es := fabs (s -. ofInt rs)
  if eq >. er && eq >. es then (-rr - rs, rr)
  else if er >. es then (rq, -rq - rs)
  else (rq, rr)

/-- Index of the capillary cell a position is assigned to, polycap-photon.c:540-552. -/
def hexRound (n_shells : Int) (ext x y : α) : Int × Int :=
  let f := hexFrac (hexCell n_shells ext) x y
  cubeRound f.1 f.2

/-! ## `polycap_photon_pc_intersect`, polycap-photon.c:172-362 -/

/-- checked read of an array with indices `0..n` -/
def rd (f : Nat → α) (n : Nat) (i : Int) : Out α :=
  if 0 ≤ i ∧ i ≤ n then .ok (f i.toNat) else .ub

/-- point of the line through `c` with direction `d` at height `zz`, as written in the source:
`c + d * (zz - c.z)/d.z` (polycap-photon.c:227-229, 243-248, 352-354). -/
def projXY (c d : V3 α) (zz : α) : α × α :=
  (c.x +. d.x *. (zz -. c.z) /. d.z, c.y +. d.y *. (zz -. c.z) /. d.z)

/-- as `projXY`, with the z component computed the same way -/
def proj3 (c d : V3 α) (zz : α) : V3 α :=
  ⟨c.x +. d.x *. (zz -. c.z) /. d.z, c.y +. d.y *. (zz -. c.z) /. d.z, c.z +. d.z *. (zz -. c.z) /. d.z⟩

/-- The loop polycap-photon.c:225-235: `z_id += dir`, read `z[z_id]` and `ext[z_id]`, stop (`some z_id`)
when the in-optic status differs from `here`; `none` when the loop condition fails first. -/
def pcSearch (p : Profile α) (c d : V3 α) (here : Int) (dir : Int) : Nat → Int → Out (Option Int)
  | 0, _ => .fuel
  | k + 1, zid => do
    let j := zid + dir
    let zj ← rd p.z p.nmax j
    let ej ← rd p.ext p.nmax j
    let t := projXY c d zj
    if here != withinPcBoundary ej t.1 t.2 then .ok (some j)
    else if 0 ≤ j ∧ j ≤ p.nmax then pcSearch p c d here dir k j
    else .ok none

/-- `sqrt(ext*ext - (ext/2)*(ext/2))`, polycap-photon.c:251-252. -/
def hexApothem (ext : α) : α := sqrt (ext *. ext -. (ext /. lit 2) *. (ext /. lit 2))

/-- one of `z1, z2, z3`, polycap-photon.c:261-263 -/
def edgeZ (eb ee db de dpb dpe : α) : α :=
  (dpb -. db) /. (db -. de -. dpb +. dpe) *. (eb -. ee) +. eb

/-- The selection among `z1, z2, z3` (polycap-photon.c:266-307 with `ge`/`gt` = `>=`/`>`, and 308-350 with
`<=`/`<`), `ok1..3` = "within the found segment". `none`: the `return NULL` of the first branch;
`some none`: no viable solution. -/
def selectZ (ge gt : α → α → Bool) (ok1 ok2 ok3 : Bool) (z1 z2 z3 : α) : Option (Option α) :=
  if ok1 && ok2 && ok3 then
    if ge z1 z2 && ge z1 z3 then some (some z1)
    else if ge z2 z1 && ge z2 z3 then some (some z2)
    else if ge z3 z1 && ge z3 z2 then some (some z3)
    else none
  else if ok2 && ok3 then (if gt z3 z2 then some (some z3) else some (some z2))
  else if ok1 && ok3 then (if gt z1 z3 then some (some z1) else some (some z3))
  else if ok1 && ok2 then (if gt z1 z2 then some (some z1) else some (some z2))
  else if ok1 then some (some z1)
  else if ok2 then some (some z2)
  else if ok3 then some (some z3)
  else some none

/-- What is computed once segment `(j, j - dir)` is found, polycap-photon.c:243-360.  The final
`malloc` is not modelled (it is unchecked in C). -/
def pcFinish (p : Profile α) (c d : V3 α) (dir j : Int) : Out (Option (V3 α)) := do
  let zj ← rd p.z p.nmax j
  let zk ← rd p.z p.nmax (j - dir)
  let ej ← rd p.ext p.nmax j
  let ek ← rd p.ext p.nmax (j - dir)
  let b := proj3 c d zj
  let e := proj3 c d zk
  let db := hexApothem ej
  let de := hexApothem ek
  let z1 := edgeZ ej ek db de (fabs (lit 0 *. b.x +. lit 1 *. b.y)) (fabs (lit 0 *. e.x +. lit 1 *. e.y))
  let z2 := edgeZ ej ek db de (fabs (cospi6 *. b.x +. lit (1/2) *. b.y)) (fabs (cospi6 *. e.x +. lit (1/2) *. e.y))
  let z3 := edgeZ ej ek db de (fabs (cospi6 *. b.x +. lit (-1/2) *. b.y)) (fabs (cospi6 *. e.x +. lit (-1/2) *. e.y))
  let viable : α → Bool := fun z =>
    if dir < 0 then z >=. zj && z <=. zk else z <=. zj && z >=. zk
  let sel := if dir < 0 then selectZ (fun a b => a >=. b) (fun a b => a >. b) (viable z1) (viable z2) (viable z3) z1 z2 z3
    else selectZ (fun a b => a <=. b) (fun a b => a <. b) (viable z1) (viable z2) (viable z3) z1 z2 z3
  match sel with
  | none => .ok none
  | some none => .ok (some e)
  | some (some zf) => .ok (some (proj3 c d zf))

/-- the reversed, normalised direction, polycap-photon.c:202-205 -/
def revDir (d : V3 α) : V3 α := vnorm ⟨lit (-1) *. d.x, lit (-1) *. d.y, lit (-1) *. d.z⟩

/-- `polycap_photon_pc_intersect`, polycap-photon.c:174-362 on a non-NULL profile with `nmax ≥ 1`; the
result is the returned pointer's content (`none` = NULL) and the error slot. -/
def pcIntersect (p : Profile α) (c dirn : V3 α) (e : EArg) : Out (Option (V3 α) × EArg) :=
  if dirn.z ==. lit 0 then .ok (none, e.set .invalidArgument) else
  let d := revDir dirn
  let id := segIdFrom p.z 0 c.z p.nmax
  let cur := interpAt p p.ext id c.z
  if withinPcBoundary cur c.x c.y = 1 then .ok (none, e.set .invalidArgument) else
  let dir : Int := if d.z <. lit 0 then -1 else 1
  let start : Int := if d.z <. lit 0 then id + 1 else id
  do
  match ← pcSearch p c d (withinPcBoundary cur c.x c.y) dir (p.nmax + 3) start with
  | none => .ok (none, e)
  | some j => do
    let r ← pcFinish p c d dir j
    .ok (r, e)

end Polycap
