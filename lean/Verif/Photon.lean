import Verif.Capil

/-!
# Launching a photon: `polycap_photon_scatf` and `polycap_photon_launch`
(`/repo/src/polycap-photon.c:22-94, 390-955`)

Value-level model.  Not modelled here: the error slot, failing allocations, and the blocks themselves
(the leak structs that a second launch does not free are a memory matter).
-/
namespace Polycap
open CNum

variable {α : Type} [CNum α]

/-- The xraylib functions the code calls (external code, a parameter of the model): `CS_Total`, `Fi`,
`AtomicWeight`. -/
structure Xray (α : Type) where
  csTotal : Int → α → α
  fi : Int → α → α
  aw : Int → α

/-- energies outside [1,100], polycap-photon.c:51-56, 423-428 -/
def energyBad (e : α) : Bool := e <. lit 1 || e >. lit 100

/-- one (Z, weight) pair rejected by `polycap_photon_scatf`, polycap-photon.c:57-66 -/
def elemBad (zw : Int × α) : Bool := zw.2 <. lit 0 || zw.2 >. lit 1 || decide (zw.1 < 1 ∨ 111 < zw.1)

/-- guards of `polycap_photon_scatf`, polycap-photon.c:28-66 (`iz` and `wi` have `nelem` entries each) -/
def scatfRejects (D : Descr α) (energies : List α) : Bool :=
  D.density <=. lit 0 || D.iz.isEmpty || energies.isEmpty || energies.any energyBad || (D.iz.zip D.wi).any elemBad

/-- `amu[i]`, polycap-photon.c:83-90 -/
def amuOf (lib : Xray α) (D : Descr α) (e : α) : α :=
  (D.iz.zip D.wi).foldl (fun t zw => t +. lib.csTotal zw.1 e *. zw.2) (lit 0) *. D.density

/-- `scatf[i]`, polycap-photon.c:83-91 -/
def scatfOf (lib : Xray α) (D : Descr α) (e : α) : α :=
  (D.iz.zip D.wi).foldl (fun t zw => t +. (ofInt zw.1 +. lib.fi zw.1 e) *. (zw.2 /. lib.aw zw.1)) (lit 0)

/-- What the caller finds in `*weights` (polycap-photon.c:458, 923). -/
inductive WOut (α : Type) where
  /-- `*weights` not assigned -/
  | untouched
  /-- `*weights` points to an array nothing was written to -/
  | uninit
  /-- one weight per energy -/
  | filled (ws : List α)

/-- polycap-photon.c:457-504: channels with weight 1, coefficients (NULL pointers when
`polycap_photon_scatf` refused), counters reset, exit values set to the start values.  `d_travel` and
`exit_electric_vector` are not reset. -/
def launchInit (lib : Xray α) (D : Descr α) (energies : List α) (P : Photon α) : Photon α :=
  { P with startD := vnorm P.startD, exitC := P.startC, exitD := vnorm (vnorm P.startD), i_refl := 0, ext := [], int := [],
           chans := energies.map (fun e => ⟨e, lit 1, amuOf lib D e, scatfOf lib D e⟩),
           coef := !scatfRejects D energies }

/-- `z_id`, polycap-photon.c:506-510 -/
def launchSeg (p : Profile α) (zz : α) : Nat := if zz >. lit 0 then segIdFrom p.z 0 zz p.nmax else 0

/-- optic radius at the start position, polycap-photon.c:512 -/
def launchExt (p : Profile α) (zz : α) : α :=
  let i := launchSeg p zz
  interpL (p.z i) (p.z (i + 1)) (p.ext i) (p.ext (i + 1)) zz

/-- capillary the photon starts in, polycap-photon.c:514-573; `none`: return -2 -/
def launchCap (D : Descr α) (c : V3 α) : Option (Int × Int) :=
  let ns := nShells (α := α) D.n_cap
  let ext := launchExt D.prof c.z
  if ns = 0 then (if sqrt (c.x *. c.x +. c.y *. c.y) >. ext then none else some (0, 0))
  else if withinPcBoundary ext c.x c.y = 0 then none else some (hexRound ns ext c.x c.y)

/-- `cap_x[i]`, `cap_y[i]`, polycap-photon.c:622-625, 761-764 -/
def axX (D : Descr α) (qr : Int × Int) (i : Nat) : α := (capCentre (nShells (α := α) D.n_cap) (D.prof.ext i) qr.1 qr.2).1
def axY (D : Descr α) (qr : Int × Int) (i : Nat) : α := (capCentre (nShells (α := α) D.n_cap) (D.prof.ext i) qr.1 qr.2).2

/-- value of an axis or radius array at the start position, polycap-photon.c:629-643 -/
def atStart (p : Profile α) (v : Nat → α) (zz : α) : α :=
  if zz >. lit 0 then interpAt p v (launchSeg p zz) zz else v 0

/-- the photon starts in glass, polycap-photon.c:644-645 -/
def startsInWall (D : Descr α) (qr : Int × Int) (c : V3 α) : Bool :=
  let x := c.x -. atStart D.prof (axX D qr) c.z
  let y := c.y -. atStart D.prof (axY D qr) c.z
  sqrt (x *. x +. y *. y) >. atStart D.prof D.prof.cap c.z

/-- polycap-photon.c:925-945: the work arrays are released -/
def finish (P : Photon α) : Photon α := { P with chans := [], coef := false }

/-- polycap-photon.c:858-866: a photon launched inside glass ends outside the exit window -/
def clearWall (D : Descr α) (P : Photon α) : Photon α :=
  let p := D.prof
  { P with exitC := ⟨p.ext p.nmax +. lit 1, p.ext p.nmax +. lit 1, p.z p.nmax⟩, exitD := vnorm P.startD }

/-- polycap-photon.c:796-853: the photon that came out of the capillary it leaked into -/
def recordLaunch (D : Descr α) (P : Photon α) (iesc : Int) : Photon α :=
  if iesc = 1 ∨ iesc = -2 then
    let P := { P with exitC := toExit D.prof P.exitC P.exitD }
    let lk : Leak α := ⟨P.exitC, P.exitD, P.exitE, P.i_refl, P.chans.map (·.w)⟩
    let b := withinPcBoundary (D.prof.ext D.prof.nmax) P.exitC.x P.exitC.y
    if b = 0 then { P with ext := P.ext ++ [lk] }
    else if b = 1 then { P with int := P.int ++ [lk] }
    else P
  else P

/-- attenuation along `d` in glass, polycap-photon.c:697-698 -/
def attenuate (d : α) (c : Chan α) : Chan α := { c with w := c.w *. exp (lit (-1) *. d *. c.amu) }

/-- polycap-photon.c:673-886: launched inside glass at z > 0 with leak calculation; `w` is the result of
`polycap_capil_trace_wall`. -/
def launchWall (D : Descr α) (leak : Bool) (fuel k : Nat) (P : Photon α) (w : Wall α) : Out (Int × WOut α × Photon α) :=
  if w.code ≤ 0 then .ok (-1, .uninit, finish P)
  else if !P.coef && !P.chans.isEmpty then .ub
  else
    let P := { P with chans := P.chans.map (attenuate w.d), exitC := along P.exitC P.exitD w.d }
    let lk : Leak α := ⟨P.exitC, P.exitD, P.exitE, P.i_refl, P.chans.map (·.w)⟩
    if w.code = 3 then .ok (1, .uninit, finish (clearWall D { P with ext := P.ext ++ [lk] }))
    else if w.code = 2 then .ok (1, .uninit, finish (clearWall D { P with int := P.int ++ [lk] }))
    else do
      let P := { P with d_travel := P.d_travel +. w.d }
      let ix := segIdFrom D.prof.z (segIdFrom D.prof.z 0 P.startC.z (D.prof.nmax + 1)) P.exitC.z (D.prof.nmax + 1)
      let x ← traceLoop (trace D leak fuel k (axX D (w.q, w.r)) (axY D (w.q, w.r))) (D.prof.nmax + 1) 0 ix P
      if x.1 = -1 ∨ x.1 = -3 then .ok (-1, .uninit, finish x.2.2)
      else .ok (1, .uninit, finish (clearWall D (recordLaunch D x.2.2 x.1)))

/-- polycap-photon.c:909-954: launched inside a capillary -/
def launchInside (D : Descr α) (leak : Bool) (fuel k : Nat) (qr : Int × Int) (P : Photon α) : Out (Int × WOut α × Photon α) := do
  let ix := segIdFrom D.prof.z 0 P.startC.z (D.prof.nmax + 1)
  let x ← traceLoop (trace D leak fuel k (axX D qr) (axY D qr)) (D.prof.nmax + 1) 0 ix P
  let code : Int := if x.1 = -1 ∨ x.1 = -3 then -1 else if x.1 = 0 then 0 else 1
  .ok (code, .filled (x.2.2.chans.map (·.w)), finish x.2.2)

/-- polycap-photon.c:457-954, after the guards -/
def launchBody (lib : Xray α) (D : Descr α) (leak : Bool) (fuel k : Nat) (P : Photon α) (energies : List α) :
    Out (Int × WOut α × Photon α) :=
  let P := launchInit lib D energies P
  match launchCap D P.startC with
  | none => .ok (-2, .uninit, finish P)
  | some qr =>
    if startsInWall D qr P.startC then
      if leak && P.startC.z ==. lit 0 then do
        let x ← reflect D leak fuel k ⟨lit 0, lit 0, lit 1⟩ P
        .ok (2, .uninit, finish x.2)
      else if leak && P.startC.z >. lit 0 then do
        let w ← traceWall D fuel P.exitC (vnorm P.exitD)
        launchWall D leak fuel k { P with exitD := vnorm P.exitD } w
      else .ok (2, .uninit, finish P)
    else launchInside D leak fuel k qr P

/-- `polycap_photon_launch`: return value, `*weights`, photon afterwards (`none`: NULL photon).
`D = none`: the photon has no description; `energies = none`: NULL; `wptr = false`: `weights` is NULL.
`energies` stands for the array together with its length `n_energies`. -/
def launch (lib : Xray α) (D : Option (Descr α)) (leak : Bool) (fuel k : Nat) (P : Option (Photon α))
    (energies : Option (List α)) (wptr : Bool) : Out (Int × WOut α × Option (Photon α)) :=
  match P with
  | none => .ok (-1, .untouched, none)
  | some P =>
    match energies with
    | none => .ok (-1, .untouched, some P)
    | some es =>
      if es.isEmpty || es.any energyBad || !wptr then .ok (-1, .untouched, some P)
      else match D with
        | none => .ok (-1, .untouched, some { P with ext := [], int := [] })
        | some D => do
          let x ← launchBody lib D leak fuel k P es
          .ok (x.1, x.2.1, some x.2.2)

end Polycap
