import Verif.Photon

/-!
# The error slot of `polycap_photon_launch` and of everything it calls

`Verif.Segment`, `Verif.Capil` and `Verif.Photon` model the values only.  Here the same functions carry their `polycap_error **` argument:
every function returns what the value-level function returns together with the error slot afterwards.  Theorem `launchE_value` (and its
companions, Props/LaunchErrProps.lean) says that the values are those of the value-level model.  Failing allocations are not modelled here.
-/
namespace Polycap
open CNum

variable {α : Type} [CNum α]

/-- `if (b) polycap_set_error_literal(error, POLYCAP_ERROR_INVALID_ARGUMENT, …)` -/
def report (e : EArg) (b : Bool) : EArg := if b then e.set .invalidArgument else e

/-- the error of `polycap_photon_within_pc_boundary`, polycap-photon.c:146-149 -/
def boundaryE (r : α) (e : EArg) : EArg := report e (r <=. lit 0)

/-- the errors of `polycap_refl_polar`, polycap-capil.c:459-488 (the NULL guard cannot fire: the caller passes its photon) -/
def reflPolarE (en density scatf mu : α) (norm dir : V3 α) (e : EArg) : EArg :=
  report e (polarRejects en density scatf mu || acos (scalar (normIfNot1 norm) dir) <. lit 0)

/-- the segment loop of `polycap_capil_trace_wall`, polycap-capil.c:994-1013 / 1111-1133, with the reports of
`polycap_capil_segment` (polycap-capil.c:65-100) -/
def wallSegsE (p : Profile α) (ns : Int) (q r : Int) (c d : V3 α) : Nat → Nat → V3 α → EArg → (Int × Nat × V3 α) × EArg
  | k, zid, cur, e =>
    let s := segment (axisAt p ns q r zid) (axisAt p ns q r (zid + 1)) (p.cap zid) (p.cap (zid + 1))
      (atGrid p c d zid) (atGrid p c d (zid + 1)) d cur ⟨lit 0, lit 0, lit 0⟩
    let e := report e (segRejects (axisAt p ns q r zid) (axisAt p ns q r (zid + 1)) (p.cap zid) (p.cap (zid + 1))
      (atGrid p c d zid) (atGrid p c d (zid + 1)) d)
    if s.1 = 1 then ((s.1, zid + 1, s.2.1), e)
    else match k with
      | 0 => ((s.1, zid + 1, s.2.1), e)
      | k + 1 => wallSegsE p ns q r c d k (zid + 1) s.2.1 e

/-- polycap-capil.c:1072-1105, 1150-1177: reports of the boundary test and of `polycap_photon_pc_intersect` -/
def wallExitE (p : Profile α) (c d last : V3 α) (q r : Int) (e : EArg) : Out (Wall α × EArg) :=
  let t := atGrid p c d p.nmax
  let e := boundaryE (p.ext p.nmax) e
  if withinPcBoundary (p.ext p.nmax) t.x t.y = 0 then do
    let x ← pcIntersect p t d e
    match x.1 with
    | none => .ok (⟨3, dist3 last c, q, r⟩, x.2)
    | some v => .ok (⟨3, dist3 v c, q, r⟩, x.2)
  else .ok (⟨2, dist3 last c, q, r⟩, e)

/-- the end of `polycap_capil_trace_wall`, polycap-capil.c:1147-1190 -/
def wallEndE (p : Profile α) (c d : V3 α) (s : (Int × Nat × V3 α) × EArg) (q r : Int) : Out (Wall α × EArg) :=
  if s.1.1 ≠ 1 then wallExitE p c d (atGrid p c d p.nmax) q r s.2
  else if p.nmax ≤ s.1.2.1 then .ok (⟨2, dist3 s.1.2.2 c, q, r⟩, s.2)
  else .ok (⟨1, dist3 s.1.2.2 c, q, r⟩, s.2)

/-- `next_hexagon:` to the `goto`, polycap-capil.c:1016-1140 (the stepping loop reports nothing) -/
def wallHexE (p : Profile α) (ns : Int) (c d : V3 α) (g : Nat) : Nat → Int → Int → α → Nat → V3 α → EArg → Out (Wall α × EArg)
  | 0, _, _, _, _, _, _ => .fuel
  | f + 1, qi, ri, dist, zid, cur, e => do
    match ← wallStep p ns qi ri c d g dist zid with
    | .stumbled dd => .ok (⟨1, dd, qi, ri⟩, e)
    | .left dist zid ph q r =>
      if !inStack ns q r || ph.z >. p.z p.nmax then wallExitE p c d ph q r e
      else
        let s := wallSegsE p ns q r c d (p.nmax - 1 - (zid + 1)) zid cur e
        if p.nmax ≤ s.1.2.1 ∧ s.1.1 ≠ 0 then wallHexE p ns c d g f q r dist (p.nmax - 1) s.1.2.2 s.2
        else wallEndE p c d s q r

/-- `polycap_capil_trace_wall`, polycap-capil.c:896-1194.  Outside a monocapillary is reported (947), outside a polycapillary is not
(955 is commented out). -/
def traceWallE (D : Descr α) (fuel : Nat) (c d : V3 α) (e : EArg) : Out (Wall α × EArg) :=
  let p := D.prof
  let ns := nShells (α := α) D.n_cap
  if c.z >=. p.z p.nmax then .ok (⟨-2, lit 0, 0, 0⟩, e) else
  let zid := segIdFrom p.z 0 c.z p.nmax
  let cur := wallExt p zid c.z
  if ns = 0 then
    if sqrt (c.x *. c.x +. c.y *. c.y) >. cur then .ok (⟨-2, lit 0, 0, 0⟩, e.set .invalidArgument)
    else wallEndE p c d (wallSegsE p ns 0 0 c d (p.nmax - 1 - (zid + 1)) zid c e) 0 0
  else
    let e := boundaryE cur e
    if withinPcBoundary cur c.x c.y = 0 then .ok (⟨-2, lit 0, 0, 0⟩, e)
    else
      let qr := hexRound ns cur c.x c.y
      wallHexE p ns c d fuel fuel qr.1 qr.2 (lit 0) zid c e

/-- reports of the energy loop, polycap-capil.c:625-645: those of `polycap_refl_polar` and the reflectivity out of range (633) -/
def reflEnergiesE (D : Descr α) (norm dir : V3 α) : List (Chan α) → V3 α → V3 α → EArg → EArg
  | [], _, _, e => e
  | c :: cs, E, ev, e =>
    let x := reflPolar c.e D.density c.scatf c.amu norm dir E ev
    let e := reflPolarE c.e D.density c.scatf c.amu norm dir e
    if x.1 <. lit 0 || x.1 >. lit 1 then e.set .io
    else reflEnergiesE D norm dir cs x.2.2 x.2.1 e

/-- report of polycap-capil.c:681 -/
def wallCodeE (D : Descr α) (code : Int) (lc : V3 α) (e : EArg) : EArg :=
  if code = 1 then
    if nShells (α := α) D.n_cap = 0 then e else boundaryE (extAt D.prof 0 lc.z) e
  else e

/-- report of polycap-capil.c:852 -/
def recordTempE (D : Descr α) (iesc : Int) (e : EArg) : EArg :=
  if iesc = 1 ∨ iesc = -2 then boundaryE (D.prof.ext D.prof.nmax) e else e

/-- the tracing loop, polycap-capil.c:785-793, polycap-photon.c:767-774, 912-919 -/
def traceLoopE (trace : Nat → Photon α → EArg → Out ((Int × Nat × Photon α) × EArg)) : Nat → Int → Nat → Photon α → EArg →
    Out ((Int × Nat × Photon α) × EArg)
  | 0, iesc, ix, P, e => .ok ((iesc, ix, P), e)
  | k + 1, _, ix, P, e => do
    let x ← trace ix P e
    if x.1.1 ≠ 1 then .ok x else traceLoopE trace k x.1.1 x.1.2.1 x.1.2.2 x.2

/-- polycap-capil.c:657-887 under `if(leak_flag == 1)`.  `polycap_photon_scatf` (741) accepts what it accepted at the launch. -/
def reflectLeakE (D : Descr α) (trace : Int → Int → Nat → Photon α → EArg → Out ((Int × Nat × Photon α) × EArg)) (P : Photon α)
    (w : Wall α) (wl : List α) (iesc : Int) (e : EArg) : Out ((Int × Photon α) × EArg) :=
  let p := D.prof
  let lc := along P.exitC P.exitD w.d
  let lk : Leak α := ⟨lc, P.exitD, P.exitE, P.i_refl, wl⟩
  let code := wallCode D w.code lc
  let e := wallCodeE D w.code lc e
  if code = 3 then .ok ((iesc, { P with ext := P.ext ++ [lk] }), e)
  else if code = 2 then .ok ((iesc, { P with int := P.int ++ [lk] }), e)
  else if code = 1 ∧ (lc.z <. p.z p.nmax) = true then
    match photonNew lc P.exitD P.exitE with
    | none => .ub
    | some T => do
      let T := tempPhoton P T w.d wl
      let ix := segIdFrom p.z 0 T.exitC.z (p.nmax + 1)
      let x ← traceLoopE (trace w.q w.r) (p.nmax - ix + 1) 0 ix T e
      if x.1.1 = -1 ∨ x.1.1 = -3 then .ok ((-2, P), x.2)
      else
        let T := x.1.2.2
        .ok ((iesc, recordTemp D { P with ext := P.ext ++ T.ext, int := P.int ++ T.int } T x.1.1), recordTempE D x.1.1 x.2)
  else .ok ((iesc, P), e)

/-- polycap-capil.c:612-619 -/
def wallOfE (D : Descr α) (leak : Bool) (fuel : Nat) (P : Photon α) (e : EArg) : Out (Wall α × EArg) :=
  if leak then traceWallE D fuel P.exitC (vnorm P.exitD) e else .ok (⟨0, lit 0, 0, 0⟩, e)

/-- polycap-capil.c:612-890, after wall tracing -/
def reflectRestE (D : Descr α) (leak : Bool) (trace : Int → Int → Nat → Photon α → EArg → Out ((Int × Nat × Photon α) × EArg))
    (norm : V3 α) (alfa : α) (P : Photon α) (w : Wall α) (e : EArg) : Out ((Int × Photon α) × EArg) :=
  if leak ∧ w.code ≤ 0 then .ok ((-1, P), e)
  else if !P.coef && !P.chans.isEmpty then .ub
  else
    let r := reflEnergies D norm P.exitD alfa leak w.d P.chans P.exitE P.exitE
    let e := reflEnergiesE D norm P.exitD P.chans P.exitE P.exitE e
    if !r.ok then .ok ((-1, { P with chans := r.chans, exitE := r.E }), e)
    else
      let P := { P with chans := r.chans, exitE := r.ev }
      let iesc : Int := if r.weightFlag then 1 else 0
      if r.leakFlag then reflectLeakE D trace P w r.wl iesc e else .ok ((iesc, P), e)

/-- `polycap_capil_reflect`, polycap-capil.c:565-891; the angle is reported at line 600 -/
def reflectBodyE (D : Descr α) (leak : Bool) (fuel : Nat)
    (trace : Int → Int → Nat → Photon α → EArg → Out ((Int × Nat × Photon α) × EArg)) (norm : V3 α) (P : Photon α) (e : EArg) :
    Out ((Int × Photon α) × EArg) :=
  let norm := vnorm norm
  let P := { P with exitD := vnorm P.exitD }
  let alfa := scalar P.exitD norm
  if alfa <. lit 0 then .ok ((-1, P), e.set .invalidArgument)
  else do
    let w ← wallOfE D leak fuel P e
    reflectRestE D leak trace norm alfa (renorm leak P) w.1 w.2

/-- the search loop of `polycap_capil_trace`, polycap-capil.c:1246-1310: reports at 1264 (the two boundary tests before pass NULL), of
`polycap_capil_segment` (1268) and of the boundary tests 1288 and 1300 -/
def traceSearchE (D : Descr α) (capx capy : Nat → α) (P : Photon α) : Nat → Nat → V3 α → V3 α → EArg → Hit α × EArg
  | 0, _, _, _, e => (.miss, e)
  | k + 1, i, cur, nrm, e =>
    let p := D.prof
    let c0 : V3 α := ⟨capx i, capy i, p.z i⟩
    let c1 : V3 α := ⟨capx (i + 1), capy (i + 1), p.z (i + 1)⟩
    if withinPcBoundary (p.ext i) c0.x c0.y = 0 ∨ withinPcBoundary (p.ext (i + 1)) c1.x c1.y = 0 then (.ret (-1), e.set .invalidArgument)
    else
      let s := segment c0 c1 (p.cap i) (p.cap (i + 1)) (atGrid p P.exitC P.exitD i) (atGrid p P.exitC P.exitD (i + 1))
        P.exitD cur nrm
      let e := report e (segRejects c0 c1 (p.cap i) (p.cap (i + 1)) (atGrid p P.exitC P.exitD i) (atGrid p P.exitC P.exitD (i + 1))
        P.exitD)
      let cosalfa := scalar s.2.2 P.exitD
      let iesc : Int := if acos cosalfa >. mpi /. lit 2 || acos cosalfa <. lit 0 then -5 else s.1
      if iesc = 1 then
        let v := s.2.1
        let cur := interp (p.z (i + 1)) (p.z i) (p.ext (i + 1)) (p.ext i) v.z
        if nShells (α := α) D.n_cap = 0 then
          (if sqrt (v.x *. v.x +. v.y *. v.y) >=. cur then (.ret (-3), e) else (.hit i v s.2.2 cosalfa, e))
        else (if withinPcBoundary cur v.x v.y = 0 then (.ret (-3), boundaryE cur e) else (.hit i v s.2.2 cosalfa, boundaryE cur e))
      else
        let t := atGrid p P.exitC P.exitD i
        let e := boundaryE (p.ext i) e
        if withinPcBoundary (p.ext i) t.x t.y = 0 then (.ret (-3), e)
        else traceSearchE D capx capy P k (i + 1) s.2.1 s.2.2 e

/-- polycap-capil.c:1312-1360: report of the boundary test 1340 -/
def traceHitE (D : Descr α) (refl : V3 α → Photon α → EArg → Out ((Int × Photon α) × EArg)) (P : Photon α) (i : Nat) (v n : V3 α)
    (cosalfa : α) (e : EArg) : Out ((Int × Nat × Photon α) × EArg) :=
  let p := D.prof
  let P := { P with d_travel := P.d_travel +. dist3 v P.exitC, exitC := v }
  if fabs cosalfa >. lit 1 then .ok ((-1, i + 1, P), e)
  else
    let ix := segIdFrom p.z (i + 1) v.z p.nmax
    if p.nmax < ix + 1 then .ub
    else
      let cur := interpAt p p.ext ix v.z
      if nShells (α := α) D.n_cap = 0 ∧ (v.x *. v.x +. v.y *. v.y >=. cur) = true then .ok ((-3, ix, P), e)
      else
        let e := if nShells (α := α) D.n_cap > 0 then boundaryE cur e else e
        if nShells (α := α) D.n_cap > 0 ∧ withinPcBoundary cur v.x v.y = 0 then .ok ((-3, ix, P), e)
        else do
          let x ← refl n P e
          .ok (afterReflect n cosalfa ix x.1, x.2)

/-- `polycap_capil_trace`, polycap-capil.c:1197-1361 -/
def capilTraceE (D : Descr α) (refl : V3 α → Photon α → EArg → Out ((Int × Photon α) × EArg)) (capx capy : Nat → α) (ix : Nat)
    (P : Photon α) (e : EArg) : Out ((Int × Nat × Photon α) × EArg) :=
  let P := { P with exitD := vnorm P.exitD, startD := vnorm P.startD }
  let h := traceSearchE D capx capy P (D.prof.nmax - ix) ix P.exitC ⟨lit 0, lit 0, lit 0⟩ e
  match h.1 with
  | .ret code => .ok ((code, ix, P), h.2)
  | .miss => .ok ((-2, ix, P), h.2)
  | .hit i v n cosalfa => traceHitE D refl P i v n cosalfa h.2

/-- `polycap_capil_reflect` (polycap-capil.c:565-891), recursion unrolled as in `reflect` -/
def reflectE (D : Descr α) (leak : Bool) (fuel : Nat) : Nat → V3 α → Photon α → EArg → Out ((Int × Photon α) × EArg)
  | 0, _, _, _ => .fuel
  | k + 1, norm, P, e =>
    reflectBodyE D leak fuel (fun q r ix T e => capilTraceE D (reflectE D leak fuel k) (capxOf D q r) (capyOf D q r) ix T e)
      norm P e

/-- `polycap_capil_trace` proper, polycap-capil.c:1197-1361 -/
def traceE (D : Descr α) (leak : Bool) (fuel k : Nat) (capx capy : Nat → α) (ix : Nat) (P : Photon α) (e : EArg) :
    Out ((Int × Nat × Photon α) × EArg) :=
  capilTraceE D (reflectE D leak fuel k) capx capy ix P e

/-- reports while the start capillary is chosen, polycap-photon.c:514-573 -/
def launchCapE (D : Descr α) (c : V3 α) (e : EArg) : EArg :=
  let ext := launchExt D.prof c.z
  let e := if nShells (α := α) D.n_cap = 0 then e else boundaryE ext e
  report e (launchCap D c).isNone

/-- polycap-photon.c:673-886; report of the boundary test 800 -/
def launchWallE (D : Descr α) (leak : Bool) (fuel k : Nat) (P : Photon α) (w : Wall α) (e : EArg) :
    Out ((Int × WOut α × Photon α) × EArg) :=
  if w.code ≤ 0 then .ok ((-1, .uninit, finish P), e)
  else if !P.coef && !P.chans.isEmpty then .ub
  else
    let P := { P with chans := P.chans.map (attenuate w.d), exitC := along P.exitC P.exitD w.d }
    let lk : Leak α := ⟨P.exitC, P.exitD, P.exitE, P.i_refl, P.chans.map (·.w)⟩
    if w.code = 3 then .ok ((1, .uninit, finish (clearWall D { P with ext := P.ext ++ [lk] })), e)
    else if w.code = 2 then .ok ((1, .uninit, finish (clearWall D { P with int := P.int ++ [lk] })), e)
    else do
      let P := { P with d_travel := P.d_travel +. w.d }
      let ix := segIdFrom D.prof.z (segIdFrom D.prof.z 0 P.startC.z (D.prof.nmax + 1)) P.exitC.z (D.prof.nmax + 1)
      let x ← traceLoopE (traceE D leak fuel k (axX D (w.q, w.r)) (axY D (w.q, w.r))) (D.prof.nmax + 1) 0 ix P e
      if x.1.1 = -1 ∨ x.1.1 = -3 then .ok ((-1, .uninit, finish x.1.2.2), x.2)
      else .ok ((1, .uninit, finish (clearWall D (recordLaunch D x.1.2.2 x.1.1))), recordTempE D x.1.1 x.2)

/-- polycap-photon.c:909-954 -/
def launchInsideE (D : Descr α) (leak : Bool) (fuel k : Nat) (qr : Int × Int) (P : Photon α) (e : EArg) :
    Out ((Int × WOut α × Photon α) × EArg) := do
  let ix := segIdFrom D.prof.z 0 P.startC.z (D.prof.nmax + 1)
  let x ← traceLoopE (traceE D leak fuel k (axX D qr) (axY D qr)) (D.prof.nmax + 1) 0 ix P e
  let code : Int := if x.1.1 = -1 ∨ x.1.1 = -3 then -1 else if x.1.1 = 0 then 0 else 1
  .ok ((code, .filled (x.1.2.2.chans.map (·.w)), finish x.1.2.2), x.2)

/-- polycap-photon.c:457-954, after the guards.  `polycap_photon_scatf` reports what it refuses (28-66) and the launch goes on; the
reflection at the entrance face is called with a NULL error argument (line 652). -/
def launchBodyE (lib : Xray α) (D : Descr α) (leak : Bool) (fuel k : Nat) (P : Photon α) (energies : List α) (e : EArg) :
    Out ((Int × WOut α × Photon α) × EArg) :=
  let P := launchInit lib D energies P
  let e := report e (scatfRejects D energies)
  let e := launchCapE D P.startC e
  match launchCap D P.startC with
  | none => .ok ((-2, .uninit, finish P), e)
  | some qr =>
    if startsInWall D qr P.startC then
      if leak && P.startC.z ==. lit 0 then do
        let x ← reflectE D leak fuel k ⟨lit 0, lit 0, lit 1⟩ P none
        .ok ((2, .uninit, finish x.1.2), e)
      else if leak && P.startC.z >. lit 0 then do
        let w ← traceWallE D fuel P.exitC (vnorm P.exitD) e
        launchWallE D leak fuel k { P with exitD := vnorm P.exitD } w.1 w.2
      else .ok ((2, .uninit, finish P), e)
    else launchInsideE D leak fuel k qr P e

/-- `polycap_photon_launch`, polycap-photon.c:390-955, with its error argument: the guards 410-455 report what they refuse. -/
def launchE (lib : Xray α) (D : Option (Descr α)) (leak : Bool) (fuel k : Nat) (P : Option (Photon α))
    (energies : Option (List α)) (wptr : Bool) (e : EArg) : Out ((Int × WOut α × Option (Photon α)) × EArg) :=
  match P with
  | none => .ok ((-1, .untouched, none), e.set .invalidArgument)
  | some P =>
    match energies with
    | none => .ok ((-1, .untouched, some P), e.set .invalidArgument)
    | some es =>
      if es.isEmpty || es.any energyBad || !wptr then .ok ((-1, .untouched, some P), e.set .invalidArgument)
      else match D with
        | none => .ok ((-1, .untouched, some { P with ext := [], int := [] }), e.set .invalidArgument)
        | some D => do
          let x ← launchBodyE lib D leak fuel k P es e
          .ok ((x.1.1, x.1.2.1, some x.1.2.2), x.2)

end Polycap
