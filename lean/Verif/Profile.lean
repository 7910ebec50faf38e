import Verif.Lib

/-!
# `/repo/src/polycap-profile.c`
-/
namespace Polycap
open CNum

variable {α : Type} [CNum α]

/-- Arguments of `polycap_profile_new`. `type` is the C enum value (0 conical, 1 paraboloidal,
2 ellipsoidal; include/polycap-profile.h:43-47). -/
structure ProfArgs (α : Type) where
  type : Int
  length : α
  rad_ext_upstream : α
  rad_ext_downstream : α
  rad_int_upstream : α
  rad_int_downstream : α
  focal_dist_upstream : α
  focal_dist_downstream : α

/-- The guards of polycap-profile.c:74-109, in order: `true` if some guard rejects. -/
def profRejects (a : ProfArgs α) : Bool :=
  a.length <=. lit 0 || a.rad_ext_upstream <=. lit 0 || a.rad_ext_downstream <=. lit 0 ||
  a.rad_int_upstream <=. lit 0 || a.rad_int_downstream <=. lit 0 ||
  a.rad_int_upstream >=. a.rad_ext_upstream || a.rad_int_downstream >=. a.rad_ext_downstream ||
  a.focal_dist_upstream <=. lit 0 || a.focal_dist_downstream <=. lit 0

/-- `nmax` of polycap-profile.c:69. -/
def profNmax : Nat := 999

/-- `length/nmax*i`, polycap-profile.c:144,165,177,188. -/
def profZ (a : ProfArgs α) (i : Nat) : α :=
  a.length /. ofInt profNmax *. ofInt i

/-- single capillary radius, polycap-profile.c:145,166,178,189. -/
def profCap (a : ProfArgs α) (i : Nat) : α :=
  (a.rad_int_downstream -. a.rad_int_upstream) /. a.length *. profZ a i +. a.rad_int_upstream

/-- conical external radius, polycap-profile.c:146. -/
def profExtConical (a : ProfArgs α) (i : Nat) : α :=
  (a.rad_ext_downstream -. a.rad_ext_upstream) /. a.length *. profZ a i +. a.rad_ext_upstream

/-- The four points handed to the polynomial fit, polycap-profile.c:151-160. -/
def parabPoints (a : ProfArgs α) : List (α × α) :=
  let x1 := if a.focal_dist_upstream <=. a.length then a.focal_dist_upstream /. lit 10
            else a.length /. lit 10
  let y1 := (a.rad_ext_upstream -. lit 0) /. (lit 0 -. (lit (-1) *. a.focal_dist_upstream))
              *. (x1 -. lit 0) +. a.rad_ext_upstream
  let x2 := if a.focal_dist_downstream <=. a.length then a.length -. a.focal_dist_downstream /. lit 10
            else a.length -. a.length /. lit 10
  let y2 := (a.rad_ext_downstream -. lit 0) /. (a.length -. (a.length +. a.focal_dist_downstream))
              *. (x2 -. a.length) +. a.rad_ext_downstream
  [(lit 0, a.rad_ext_upstream), (x1, y1), (x2, y2), (a.length, a.rad_ext_downstream)]

/-- External code: `polynomialfit(4, 3, ..)` (polycap-profile.c:24-60, a call to
`gsl_multifit_linear`) as an unspecified function from the points to the three coefficients. -/
abbrev Fit (α : Type) := List (α × α) → α × α × α

/-- paraboloidal external radius, polycap-profile.c:167. -/
def profExtParab (fit : Fit α) (a : ProfArgs α) (i : Nat) : α :=
  let c := fit (parabPoints a)
  c.1 +. c.2.1 *. profZ a i +. c.2.2 *. profZ a i *. profZ a i

/-- `b` of polycap-profile.c:174 / 184 with `r0` the small-end, `r1` the large-end radius. -/
def ellB (slope length r0 r1 : α) : α :=
  (lit (-1) *. (r0 -. r1) *. (r0 -. r1) -. slope *. length *. (r0 -. r1)) /.
    (slope *. length +. lit 2 *. (r0 -. r1))

/-- ellipsoidal external radius, focusing branch, polycap-profile.c:173-179. -/
def profExtEllFoc (a : ProfArgs α) (i : Nat) : α :=
  let slope := a.rad_ext_downstream /. a.focal_dist_downstream
  let b := ellB slope a.length a.rad_ext_downstream a.rad_ext_upstream
  let k := a.rad_ext_upstream -. b
  let aa := sqrt ((b *. b *. a.length) /. (slope *. (a.rad_ext_downstream -. k)))
  sqrt (b *. b -. (b *. b *. profZ a i *. profZ a i) /. (aa *. aa)) +. k

/-- ellipsoidal external radius, confocal branch, polycap-profile.c:183-193 (the z index is
`nmax-i`). -/
def profExtEllConf (a : ProfArgs α) (i : Nat) : α :=
  let slope := a.rad_ext_upstream /. a.focal_dist_upstream
  let b := ellB slope a.length a.rad_ext_upstream a.rad_ext_downstream
  let k := a.rad_ext_downstream -. b
  let aa := sqrt (fabs ((b *. b *. a.length) /. (slope *. (a.rad_ext_upstream -. k))))
  sqrt (b *. b -. (b *. b *. profZ a (profNmax - i) *. profZ a (profNmax - i)) /. (aa *. aa)) +. k

/-- external radius by type (the `switch`, polycap-profile.c:141-204); `none`: `default:` branch. -/
def profExt (fit : Fit α) (a : ProfArgs α) : Option (Nat → α) :=
  if a.type = 0 then some (profExtConical a)
  else if a.type = 1 then some (profExtParab fit a)
  else if a.type = 2 then
    some (if a.rad_ext_downstream <. a.rad_ext_upstream then profExtEllFoc a else profExtEllConf a)
  else none

/-- A C array `f[0..n]` (`n+1` elements, a loop `for(i=0;i<=n;i++)`). -/
def arr (n : Nat) (f : Nat → α) : List α := (List.range (n + 1)).map f

open CM Mem

/-- `polycap_profile_new`, polycap-profile.c:66-207, including allocation and clean-up. -/
def profileNew (fit : Fit α) (a : ProfArgs α) (e : EArg) : CM (Block α) (Ptr × EArg) :=
  if profRejects a then pure (none, e.set .invalidArgument) else do
  let p ← malloc (.raw 0)
  if p = none then pure (none, e.set .memory) else do
  let z ← malloc (.raw (profNmax + 1))
  if z = none then do
    free p
    pure (none, e.set .memory)
  else do
  let cap ← malloc (.raw (profNmax + 1))
  if cap = none then do
    free z
    free p
    pure (none, e.set .memory)
  else do
  let ext ← malloc (.raw (profNmax + 1))
  if ext = none then do
    free cap
    free z
    free p
    pure (none, e.set .memory)
  else
  match profExt fit a with
  | none => do
    free ext
    free cap
    free z
    free p
    pure (none, e.set .invalidArgument)
  | some f => do
    storeArr z (arr profNmax (profZ a))
    storeArr cap (arr profNmax (profCap a))
    storeArr ext (arr profNmax f)
    store p (.profile profNmax z cap ext)
    pure (p, e)

/-- `polycap_profile_new_from_arrays`, polycap-profile.c:426-474.  After a failed `malloc` of one of
the arrays the C code reports the error but carries on to `memcpy` into NULL: undefined behaviour. -/
def profileNewFromArrays (nid : Int) (ext cap z : Ptr) (e : EArg) : CM (Block α) (Ptr × EArg) :=
  if ext = none then pure (none, e.set .invalidArgument)
  else if cap = none then pure (none, e.set .invalidArgument)
  else if z = none then pure (none, e.set .invalidArgument)
  else if nid ≤ 1 then pure (none, e.set .invalidArgument)
  else do
  let n := nid.toNat
  let p ← malloc (.raw 0)
  if p = none then pure (none, e.set .memory) else do
  let ext' ← malloc (.raw (n + 1))
  let cap' ← malloc (.raw (n + 1))
  let z' ← malloc (.raw (n + 1))
  storeArr ext' (← loadArr ext (n + 1))
  storeArr cap' (← loadArr cap (n + 1))
  storeArr z' (← loadArr z (n + 1))
  store p (.profile n z' cap' ext')
  pure (p, e)

/-- access to a profile struct -/
def loadProfile (p : Ptr) : CM (Block α) (Nat × Ptr × Ptr × Ptr) := do
  match ← load p with
  | .profile n z cap ext => pure (n, z, cap, ext)
  | _ => ub

inductive ProfField where | ext | cap | z

/-- `polycap_profile_get_ext/get_cap/get_z`, polycap-profile.c:477-519: `(false, _, _)` without
touching the error slot for a NULL profile or NULL `nid`; otherwise `*nid = nmax` and a fresh copy of
the `nmax+1` elements (the `malloc` is unchecked). Result: return value, `*nid`, `*array`. -/
def profileGet (fld : ProfField) (p : Ptr) (nidNull : Bool) : CM (Block α) (Bool × Nat × Ptr) :=
  if p = none then pure (false, 0, none)
  else if nidNull then pure (false, 0, none)
  else do
  let (n, z, cap, ext) ← loadProfile p
  let src := match fld with | .ext => ext | .cap => cap | .z => z
  let out ← malloc (.raw (n + 1))
  storeArr out (← loadArr src (n + 1))
  pure (true, n, out)

/-- `polycap_profile_free`, polycap-profile.c:522-534. -/
def profileFree (p : Ptr) : CM (Block α) Unit :=
  if p = none then pure () else do
  let (_, z, cap, ext) ← loadProfile p
  free z
  free cap
  free ext
  free p

/-! ## `polycap_profile_validate` -/

/-- `round(sqrt(12.*n_cap - 3.)/6.-0.5)`: polycap-profile.c:337, polycap-description.c:214,
polycap-photon.c:483, polycap-capil.c:945, polycap-source.c. -/
def nShells (n_cap : Int) : Int :=
  roundI (sqrt (lit 12 *. ofInt n_cap -. lit 3) /. lit 6 -. (lit (1/2) : α))

/-- `polycap_photon_within_pc_boundary`, polycap-photon.c:139-169 (the `z` of the photon coordinate
is not used): 1 inside, 0 outside, -1 (with an INVALID_ARGUMENT report) for a non-positive radius. -/
def withinPcBoundary (radius x y : α) : Int :=
  if radius <=. lit 0 then -1
  else
    let d := sqrt (radius *. radius -. (radius /. lit 2) *. (radius /. lit 2))
    let dp1 := fabs (lit 0 *. x +. lit 1 *. y)
    let dp2 := fabs (cospi6 *. x +. lit (1/2) *. y)
    let dp3 := fabs (cospi6 *. x +. lit (-1/2) *. y)
    if dp1 >. d || dp2 >. d || dp3 >. d then 0 else 1

/-- `q_dir`, polycap-profile.c:346. -/
def qDir : List Int := [1, 1, 0, -1, -1, 0]
/-- `r_dir`, polycap-profile.c:347. -/
def rDir : List Int := [0, -1, -1, 0, 1, 1]

/-- The walk along one side: `n` steps in direction `d`, position updated before use
(polycap-profile.c:351-354). Returns the visited positions and the final one. -/
def walkSide (d : Int × Int) : Nat → Int × Int → List (Int × Int) × (Int × Int)
  | 0, p => ([], p)
  | n + 1, p =>
    let p' := (p.1 + d.1, p.2 + d.2)
    let r := walkSide d n p'
    (p' :: r.1, r.2)

/-- All six sides (polycap-profile.c:350-352). -/
def walkSides (n : Nat) : List (Int × Int) → Int × Int → List (Int × Int)
  | [], _ => []
  | d :: ds, p =>
    let r := walkSide d n p
    r.1 ++ walkSides n ds r.2

/-- Positions `(q_i, r_i)` checked by validate, in order (polycap-profile.c:348-354). -/
def outerShell (n : Nat) : List (Int × Int) :=
  walkSides n (List.zip qDir rDir) (-(n : Int), (n : Int))

/-- hexagonal cell size `z`, polycap-profile.c:358 (and photon.c:539, capil.c). -/
def hexCell (n_shells : Int) (ext : α) : α :=
  ext /. (lit 2 *. cospi6 *. ofInt (n_shells + 1))

/-- Centre of capillary `(q, r)` for optic radius `ext`, polycap-profile.c:358-360. -/
def capCentre (n_shells : Int) (ext : α) (q r : Int) : α × α :=
  let z := hexCell n_shells ext
  (ofInt (2 * q + r) *. cospi6 *. z, ofInt r *. lit (3/2) *. z)

/-- The point of capillary `(q,r)` checked at one profile point, polycap-profile.c:358-363. -/
def validatePoint (n_shells : Int) (ext cap : α) (q r : Int) : α × α :=
  let c := capCentre n_shells ext q r
  let angle := atan (c.2 /. c.1)
  (c.1 +. cos angle *. cap, c.2 +. sin angle *. cap)

/-- First index `i` in the list with a result different from 1, as the return value of the check
(polycap-profile.c:356-375), else 1. -/
def firstBad : List Int → Int
  | [] => 1
  | c :: cs => if c = 0 then 0 else if c = -1 then -1 else firstBad cs

/-- `polycap_profile_validate`, polycap-profile.c:321-423 on a non-NULL profile (`full_check == 1`,
the branch compiled in).  NULL profile: returns -1 and reports INVALID_ARGUMENT, see
`profileValidateP`. -/
def validate (p : Profile α) (n_cap : Int) : Int :=
  let n := nShells (α := α) n_cap
  if n = 0 then
    if (List.range (p.nmax + 1)).any (fun i => p.cap i >=. p.ext i) then 0 else 1
  else
    firstBad ((outerShell n.toNat).flatMap fun qr =>
      (List.range (p.nmax + 1)).map fun i =>
        let pt := validatePoint n (p.ext i) (p.cap i) qr.1 qr.2
        withinPcBoundary (p.ext i) pt.1 pt.2)

/-- `polycap_profile_validate` with its NULL guard and error reports (polycap-profile.c:331-334;
`withinPcBoundary` reports INVALID_ARGUMENT when it returns -1, polycap-photon.c:145-148). -/
def validateE (p : Option (Profile α)) (n_cap : Int) (e : EArg) : Int × EArg :=
  match p with
  | none => (-1, e.set .invalidArgument)
  | some p =>
    let r := validate p n_cap
    (r, if r = -1 then e.set .invalidArgument else e)

end Polycap
