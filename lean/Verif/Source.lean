import Verif.Description
import Verif.Photon

/-!
# `/repo/src/polycap-source.c`: photon generation, constructor, destructor
-/
namespace Polycap
open CNum

variable {α : Type} [CNum α]

/-- `struct _polycap_source` as a value (polycap-private.h:96-110), without the description and the
generator. -/
structure Src (α : Type) where
  d_source : α
  src_x : α
  src_y : α
  src_sigx : α
  src_sigy : α
  src_shiftx : α
  src_shifty : α
  hor_pol : α
  energies : List α

/-! ## `polycap_source_get_photon`, polycap-source.c:23-144

The generator is a stream `u : Nat → α` of the numbers `polycap_rng_uniform` returns, with a position
`n`: the next call returns `u n` and moves to `n + 1`. -/

/-- polycap-source.c:53-62: the polar angle from two random numbers -/
def srcPhi (S : Src α) (r1 r2 : α) : α :=
  let phi := atan (S.src_y /. S.src_x *. tan (lit 2 *. mpi *. r1 /. lit 4))
  let phi := if r2 >=. lit (1/4) && r2 <. lit (1/2) then mpi -. phi else phi
  let phi := if r2 >=. lit (1/2) && r2 <. lit (3/4) then mpi +. phi else phi
  if r2 >=. lit (3/4) then lit (-1) *. phi else phi

/-- `max_rad`, polycap-source.c:64 -/
def srcMaxRad (S : Src α) (phi : α) : α :=
  S.src_x *. S.src_y /. sqrt ((S.src_y *. cos phi) *. (S.src_y *. cos phi) +. (S.src_x *. sin phi) *. (S.src_x *. sin phi))

/-- `src_start_coords`, polycap-source.c:53-71 -/
def srcPoint (S : Src α) (r1 r2 r3 : α) : V3 α :=
  let phi := srcPhi S r1 r2
  let max_rad := srcMaxRad S phi
  ⟨sqrt r3 *. max_rad *. cos phi +. S.src_shiftx, sqrt r3 *. max_rad *. sin phi +. S.src_shifty, lit 0⟩

/-- The rejection loop polycap-source.c:84-91; two numbers per round.  `-1` (radius not positive) also ends
the loop.  Result: x, y and the stream position afterwards. -/
def rejLoop (ext0 : α) (u : Nat → α) : Nat → Nat → Out (α × α × Nat)
  | 0, _ => .fuel
  | k + 1, n =>
    let x := (lit 2 *. u n -. lit 1) *. ext0
    let y := (lit 2 *. u (n + 1) -. lit 1) *. ext0
    if withinPcBoundary ext0 x y = 0 then rejLoop ext0 u k (n + 2) else .ok (x, y, n + 2)

/-- polycap-source.c:74-110: start coordinates and normalised start direction, with the stream position
afterwards.  `n_shells == 0.` compares the rounded double with zero. -/
def srcAim (S : Src α) (n_cap : Int) (cap0 ext0 : α) (u : Nat → α) (fuel n : Nat) (s : V3 α) : Out (V3 α × V3 α × Nat) :=
  if S.src_sigx <. lit 0 || S.src_sigy <. lit 0 then
    if nShells (α := α) n_cap = 0 then
      let x := (lit 2 *. u n -. lit 1) *. cap0
      let y := (lit 2 *. u (n + 1) -. lit 1) *. cap0
      .ok (⟨x, y, lit 0⟩, vnorm ⟨x -. s.x, y -. s.y, S.d_source⟩, n + 2)
    else do
      let p ← rejLoop ext0 u fuel n
      .ok (⟨p.1, p.2.1, lit 0⟩, vnorm ⟨p.1 -. s.x, p.2.1 -. s.y, S.d_source⟩, p.2.2)
  else
    let dx := S.src_sigx *. (lit 1 -. lit 2 *. fabs (u n))
    let dy := S.src_sigy *. (lit 1 -. lit 2 *. fabs (u (n + 1)))
    .ok (⟨s.x +. dx *. S.d_source /. lit 1, s.y +. dy *. S.d_source /. lit 1, lit 0⟩, vnorm ⟨dx, dy, lit 1⟩, n + 2)

/-- the axis drawn for the electric vector, polycap-source.c:114-126 -/
def srcAxis (S : Src α) (r : α) : V3 α :=
  if fabs r <=. (lit 1 +. S.hor_pol) /. lit 2 then ⟨lit 1, lit 0, lit 0⟩ else ⟨lit 0, lit 1, lit 0⟩

/-- polycap-source.c:128-137: the axis made perpendicular to the direction -/
def srcElec (ax d : V3 α) : V3 α :=
  let cosalpha := scalar ax d
  let alpha := acos cosalpha
  let c_ae := lit 1 /. sin alpha
  let c_be := lit (-1) *. c_ae *. cosalpha
  vnorm ⟨ax.x *. c_ae +. d.x *. c_be, ax.y *. c_ae +. d.y *. c_be, ax.z *. c_ae +. d.z *. c_be⟩

/-- A photon as handed out by a source: the photon and its `src_start_coords`. -/
structure SrcPhoton (α : Type) where
  photon : Photon α
  src : V3 α

/-- `polycap_source_get_photon` on a non-NULL source, description and generator.  The result of
`polycap_photon_new` is dereferenced unchecked.  Simplification: failing `calloc` not modelled. -/
def getPhoton (S : Src α) (D : Descr α) (u : Nat → α) (fuel n : Nat) : Out (SrcPhoton α × Nat) := do
  let s := srcPoint S (u n) (u (n + 1)) (u (n + 2))
  let a ← srcAim S D.n_cap (D.prof.cap 0) (D.prof.ext 0) u fuel (n + 3) s
  let E := srcElec (srcAxis S (u a.2.2)) a.2.1
  match photonNew a.1 a.2.1 E with
  | none => .ub
  | some P => .ok (⟨P, s⟩, a.2.2 + 1)

/-- the NULL guards of polycap-source.c:36-49: result `none` = NULL, and the error slot.  Past the guards
the slot is handed to `polycap_photon_within_pc_boundary` (line 90), which reports a non-positive radius;
that ends the sampling loop, so there is at most one report. -/
def getPhotonE (S : Option (Src α)) (D : Option (Descr α)) (u : Option (Nat → α)) (fuel n : Nat) (e : EArg) :
    Out (Option (SrcPhoton α) × Nat × EArg) :=
  match S, D, u with
  | some S, some D, some u => do
    let x ← getPhoton S D u fuel n
    .ok (some x.1, x.2,
      if (S.src_sigx <. lit 0 || S.src_sigy <. lit 0) && nShells (α := α) D.n_cap != 0 &&
          (D.prof.ext 0 <=. lit 0) then e.set .invalidArgument else e)
  | _, _, _ => .ok (none, n, e.set .invalidArgument)

/-- A history of `m` successive `polycap_source_get_photon` calls on one generator. -/
def getPhotons (S : Src α) (D : Descr α) (u : Nat → α) (fuel : Nat) : Nat → Nat → Out (List (SrcPhoton α) × Nat)
  | 0, n => .ok ([], n)
  | m + 1, n => do
    let x ← getPhoton S D u fuel n
    let xs ← getPhotons S D u fuel m x.2
    .ok (x.1 :: xs.1, xs.2)

/-! ## `polycap_source_new`, `polycap_source_free` -/

open CM Mem

structure SrcArgs (α : Type) where
  description : Ptr
  d_source : α
  src_x : α
  src_y : α
  src_sigx : α
  src_sigy : α
  src_shiftx : α
  src_shifty : α
  hor_pol : α
  n_energies : Nat
  energies : Ptr

/-- guards of polycap-source.c:153-180 that read no memory -/
def srcRejects (a : SrcArgs α) : Bool :=
  decide (a.description = none) || a.d_source <=. lit 0 || a.src_x <=. lit 0 || a.src_y <=. lit 0 ||
  fabs a.hor_pol >. lit 1 || decide (a.n_energies ≤ 0) || decide (a.energies = none)

/-- access to a description struct -/
def loadDescr (d : Ptr) : CM (Block α) (α × Int × Nat × Ptr × Ptr × α × Ptr) := do
  match ← load d with
  | .descr s n _ ne iz wi rho p => pure (s, n, ne, iz, wi, rho, p)
  | _ => ub

/-- `polycap_rng_free`, polycap-rng.c:75-80 -/
def rngFree (r : Ptr) : CM (Block α) Unit := if r = none then pure () else free r

/-- `polycap_source_free`, polycap-source.c:1090-1105 -/
def sourceFree (s : Ptr) : CM (Block α) Unit :=
  if s = none then pure () else do
  match ← load s with
  | .source d r _ _ _ _ _ _ _ _ _ en => do
    descriptionFree d
    rngFree r
    free en
    free s
  | _ => ub

/-- `polycap_source_new`, polycap-source.c:147-225.  Simplifications: the energy loop reads the whole array before testing
it; `polycap_rng_new` (polycap-rng.c:29-34, 47-72) is one allocation standing for the struct and the external generator state, whose
failure is a NULL dereference; struct members are written in one store. -/
def sourceNew (a : SrcArgs α) (e : EArg) : CM (Block α) (Ptr × EArg) :=
  if srcRejects a then pure (none, e.set .invalidArgument) else do
  let es ← loadArr a.energies a.n_energies
  if es.any energyBad then pure (none, e.set .invalidArgument) else do
  let (sig, n_cap, nelem, iz, wi, rho, p) ← loadDescr a.description
  let (n, pz, pc, pe) ← loadProfile p
  let zs ← loadArr pz (n + 1)
  let cs ← loadArr pc (n + 1)
  let xs ← loadArr pe (n + 1)
  let v := validateE (some (listProfile n zs cs xs)) n_cap e
  if v.1 ≠ 1 then pure (none, v.2.clear.set .invalidArgument) else do
  let s ← malloc (.raw 0)
  if s = none then pure (none, v.2.set .memory) else do
  let en ← malloc (.raw a.n_energies)
  if en = none then pure (none, v.2.set .memory) else do
  storeArr en es
  let r ← malloc .rng
  if r = none then ub else do
  let d ← descriptionNew ⟨p, sig, n_cap, nelem, iz, wi, rho⟩ none
  store s (.source d.1 r a.d_source a.src_x a.src_y a.src_sigx a.src_sigy a.src_shiftx a.src_shifty a.hor_pol a.n_energies en)
  if d.1 = none then do
    sourceFree s
    pure (none, v.2.clear.set .invalidArgument)
  else pure (s, v.2)

/-- `polycap_source_get_description`, polycap-source.c:1107-1109 (no NULL check) -/
def sourceGetDescription (s : Ptr) : CM (Block α) Ptr := do
  match ← load s with
  | .source d _ _ _ _ _ _ _ _ _ _ _ => pure d
  | _ => ub

end Polycap
