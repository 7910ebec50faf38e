import Verif.Segment

/-!
# Reflection and tracing, `/repo/src/polycap-capil.c:444-1361`

Value-level model.  What is *not* modelled in this file: the error slot (which of the `-1`/`-2` returns
also report an error), failing `malloc`/`realloc` calls, messages printed to stderr/stdout, and rounding
(the number type is a parameter).  Structure-of-arrays in C (`energies[i]`, `weight[i]`, `amu[i]`, `scatf[i]`)
become one list of records.
-/
namespace Polycap
open CNum

variable {α : Type} [CNum α]

/-- One energy channel of a photon: `energies[i]`, `weight[i]`, `amu[i]`, `scatf[i]` (polycap-private.h:117-131). -/
structure Chan (α : Type) where
  e : α
  w : α
  amu : α
  scatf : α

/-- `polycap_leak` (include/polycap-photon.h). -/
structure Leak (α : Type) where
  coords : V3 α
  dir : V3 α
  elecv : V3 α
  n_refl : Int
  weight : List α

/-- `struct _polycap_photon` as a value (polycap-private.h:112-135).  `coef`: the pointers `amu` and
`scatf` are not NULL. -/
structure Photon (α : Type) where
  startC : V3 α
  startD : V3 α
  startE : V3 α
  exitC : V3 α
  exitD : V3 α
  exitE : V3 α
  i_refl : Int
  d_travel : α
  ext : List (Leak α)
  int : List (Leak α)
  chans : List (Chan α)
  coef : Bool

/-- `struct _polycap_description` as a value (polycap-private.h:97-109), without `open_area`. -/
structure Descr (α : Type) where
  sig_rough : α
  n_cap : Int
  iz : List Int
  wi : List α
  density : α
  prof : Profile α

/-! ## Complex numbers (polycap-capil.c:26-47, the `HAVE_PROPER_COMPLEX_H` branch)

Complex arithmetic by the usual formulas; the special rules of C99 Annex G for infinities are not
modelled. -/

structure Cx (α : Type) where
  re : α
  im : α

/-- `x * y` -/
def cmul (a b : Cx α) : Cx α := ⟨a.re *. b.re -. a.im *. b.im, a.re *. b.im +. a.im *. b.re⟩
/-- `1.0 / x` -/
def cinv (a : Cx α) : Cx α :=
  let s := a.re *. a.re +. a.im *. a.im
  ⟨a.re /. s, neg a.im /. s⟩
/-- `x * y` with real `y` -/
def cscale (a : Cx α) (k : α) : Cx α := ⟨a.re *. k, a.im *. k⟩
/-- `cabs` -/
def cabs (a : Cx α) : α := sqrt (a.re *. a.re +. a.im *. a.im)
/-- `csqrt`: principal square root (sign of zero imaginary parts not modelled). -/
def csqrt (a : Cx α) : Cx α :=
  let m := cabs a
  let r := sqrt ((m +. a.re) /. lit 2)
  let i := sqrt ((m -. a.re) /. lit 2)
  ⟨r, if a.im <. lit 0 then neg i else i⟩

/-! ## `polycap_refl_polar`, polycap-capil.c:444-563 -/

/-- `HC`, `N_AVOG`, `R0`: include/polycap.h:47-49. -/
def cHC : α := lit (123984193 / 10^15)
def cNAVOG : α := lit (6022098 * 10^17)
def cR0 : α := lit (28179403227 / 10^23)

/-- `alfa`, polycap-capil.c:493 -/
def reflAlfa (e density scatf : α) : α :=
  (cHC /. e) *. (cHC /. e) *. ((cNAVOG *. cR0 *. density) /. (lit 2 *. mpi)) *. scatf
/-- `beta`, polycap-capil.c:494 -/
def reflBeta (e mu : α) : α := cHC /. (lit 4 *. mpi) *. (mu /. e)
/-- refractive index `n`, polycap-capil.c:495 -/
def reflN (e density scatf mu : α) : Cx α := ⟨lit 1 -. reflAlfa e density scatf, reflBeta e mu⟩
/-- `our_csqrt`, polycap-capil.c:499-501 -/
def reflW (n : Cx α) (sin_theta : α) : Cx α :=
  let ni := cinv n
  let t := cscale (cmul ni ni) (sin_theta *. sin_theta)
  csqrt ⟨lit 1 -. t.re, lit (-1) *. t.im⟩
/-- `r_s`, polycap-capil.c:503-504 -/
def reflRs (n w : Cx α) (cos_theta : α) : Cx α :=
  let t := cmul n w
  cmul ⟨cos_theta -. t.re, lit (-1) *. t.im⟩ (cinv ⟨cos_theta +. t.re, t.im⟩)
/-- `r_p`, polycap-capil.c:508-509.  The macro `new_Dcomplex(real, imag)` expands to `(real + I * imag)`
without parentheses around `imag`, so that for the arguments `cimag(w) - cimag(tmp)` and
`cimag(w) + cimag(tmp)` only `cimag(w)` is multiplied by `I`; modelled as expanded. -/
def reflRp (n w : Cx α) (cos_theta : α) : Cx α :=
  let t := cscale n cos_theta
  cmul ⟨w.re -. t.re -. t.im, w.im⟩ (cinv ⟨w.re +. t.re +. t.im, w.im⟩)

/-- `if (sqrt(v.v) != 1) polycap_norm(&v)`, polycap-capil.c:482-483, 489-490 -/
def normIfNot1 (v : V3 α) : V3 α :=
  if sqrt (v.x *. v.x +. v.y *. v.y +. v.z *. v.z) !=. lit 1 then vnorm v else v

/-- cross product as written at polycap-capil.c:516-518 (`a = surface_norm`, `b = exit_direction`) and
521-523 (`a = exit_direction`, `b = s_dir`) -/
def cross (a b : V3 α) : V3 α :=
  ⟨a.y *. b.z -. b.y *. a.z, a.z *. b.x -. b.z *. a.x, a.x *. b.y -. b.x *. a.y⟩

/-- one component of the new electric vector, polycap-capil.c:544-552 -/
def newE (c a fs b fp g : α) : α :=
  sqrt ((c *. a *. fs) *. (c *. a *. fs) +. (c *. b *. fp) *. (c *. b *. fp) +. (c *. g *. fp) *. (c *. g *. fp))

/-- guards of polycap-capil.c:459-479 (the NULL guard is covered by the caller) -/
def polarRejects (e density scatf mu : α) : Bool :=
  e <. lit 1 || e >. lit 100 || density <=. lit 0 || scatf <. lit 0 || mu <. lit 0

/-- squared moduli `r_s_double`, `r_p_double` and `rtot`, polycap-capil.c:497-510, 533-538 -/
def reflTot (n : Cx α) (theta frac_s : α) : α :=
  let w := reflW n (sin theta)
  let rs := cabs (reflRs n w (cos theta))
  let rp := cabs (reflRp n w (cos theta))
  rs *. rs *. frac_s +. rp *. rp *. (lit 1 -. frac_s)

/-- `polycap_refl_polar`: return value, `*electric_vector` and `photon->exit_electric_vector` afterwards.
`dir`, `E` are `photon->exit_direction`, `photon->exit_electric_vector`; `ev` the previous content of
`*electric_vector`. -/
def reflPolar (e density scatf mu : α) (norm dir E ev : V3 α) : α × V3 α × V3 α :=
  if polarRejects e density scatf mu then (lit (-1), ev, E) else
  let n := normIfNot1 norm
  let theta := acos (scalar n dir)
  if theta <. lit 0 then (lit (-1), ev, E) else
  let E := normIfNot1 E
  let s := vnorm (cross n dir)
  let p := vnorm (cross dir s)
  let a := scalar E s
  let fs := a *. a
  let fp := lit 1 -. fs
  let b := scalar E n
  let g := scalar E p
  (reflTot (reflN e density scatf mu) theta fs,
   vnorm ⟨newE E.x a fs b fp g, newE E.y a fs b fp g, newE E.z a fs b fp g⟩, E)

/-! ## `polycap_capil_trace_wall`, polycap-capil.c:896-1194 -/

/-- result of `polycap_capil_trace_wall`: return value, `*d_travel`, `*q_cntr`, `*r_cntr` -/
structure Wall (α : Type) where
  code : Int
  d : α
  q : Int
  r : Int

/-- `sqrt(polycap_scalar(v - c, v - c))` -/
def dist3 (v c : V3 α) : α := let r := vsub v c; sqrt (scalar r r)

/-- point of the photon line at grid height `z[i]`: `projXY` with `z = z[i]`
(polycap-capil.c:997-1002, 1114-1119, 1256-1261) -/
def atGrid (p : Profile α) (c d : V3 α) (i : Nat) : V3 α :=
  let t := projXY c d (p.z i)
  ⟨t.1, t.2, p.z i⟩

/-- The capillary axis point with index (q,r) at grid index `i`; polycap-capil.c:1004-1009, 1121-1128 (monocapillary: (0,0)) and
1092-1099. -/
def axisAt (p : Profile α) (ns : Int) (q r : Int) (i : Nat) : V3 α :=
  if ns = 0 then ⟨lit 0, lit 0, p.z i⟩ else
  let c := capCentre ns (p.ext i) q r
  ⟨c.1, c.2, p.z i⟩

/-- The segment loop polycap-capil.c:994-1013 / 1111-1133, starting at `zid`, `k` further iterations
allowed by `z_id < nmax-1`: (`iesc`, `z_id`, `interact_coords`) at its end. -/
def wallSegs (p : Profile α) (ns : Int) (q r : Int) (c d : V3 α) : Nat → Nat → V3 α → Int × Nat × V3 α
  | k, zid, cur =>
    let s := segment (axisAt p ns q r zid) (axisAt p ns q r (zid + 1)) (p.cap zid) (p.cap (zid + 1))
      (atGrid p c d zid) (atGrid p c d (zid + 1)) d cur ⟨lit 0, lit 0, lit 0⟩
    if s.1 = 1 then (s.1, zid + 1, s.2.1)
    else match k with
      | 0 => (s.1, zid + 1, s.2.1)
      | k + 1 => wallSegs p ns q r c d k (zid + 1) s.2.1

/-- capillary index inside the stacking: polycap-capil.c:1053, 1072 -/
def inStack (ns q r : Int) : Bool := decide (|q| ≤ ns ∧ |r| ≤ ns ∧ |-q - r| ≤ ns)

/-- what the stepping loop polycap-capil.c:1018-1068 ends with -/
inductive Step (α : Type) where
  /-- `return 1` at line 1062: the photon is inside capillary (q_i, r_i) -/
  | stumbled (d : α)
  /-- loop left: `dist`, `z_id`, `phot_coord0`, `q_new`, `r_new` -/
  | left (dist : α) (zid : Nat) (ph : V3 α) (q r : Int)

/-- The stepping loop, polycap-capil.c:1018-1068. -/
def wallStep (p : Profile α) (ns qi ri : Int) (c d : V3 α) : Nat → α → Nat → Out (Step α)
  | 0, _, _ => .fuel
  | k + 1, dist, zid =>
    let dist := dist +. p.cap zid /. lit 10
    let ph : V3 α := ⟨c.x +. dist *. d.x, c.y +. dist *. d.y, c.z +. dist *. d.z⟩
    let zid := segIdFrom p.z zid ph.z p.nmax
    let cur := interpAt p p.ext zid ph.z
    let rad0 := interpAt p p.cap zid ph.z
    let qr := hexRound ns cur ph.x ph.y
    let cc := capCentre ns cur qi ri
    let d0 := sqrt ((ph.x -. cc.1) *. (ph.x -. cc.1) +. (ph.y -. cc.2) *. (ph.y -. cc.2))
    let dd := dist3 ph c
    if d0 <. rad0 && inStack ns qi ri && dd >. lit (1/10^5) then .ok (.stumbled dd)
    else if decide (qr.1 = qi ∧ qr.2 = ri) && ph.z <=. p.z p.nmax then wallStep p ns qi ri c d k dist zid
    else .ok (.left dist zid ph qr.1 qr.2)

/-- The photon is followed to the exit window: polycap-capil.c:1072-1105 (`last` = `phot_coord0`) and
1150-1177 (`last` = `temp_phot`).  3: outside the exit window, 2: inside. -/
def wallExit (p : Profile α) (c d last : V3 α) (q r : Int) : Out (Wall α) :=
  let t := atGrid p c d p.nmax
  if withinPcBoundary (p.ext p.nmax) t.x t.y = 0 then do
    let x ← pcIntersect p t d none
    match x.1 with
    | none => .ok ⟨3, dist3 last c, q, r⟩
    | some v => .ok ⟨3, dist3 v c, q, r⟩
  else .ok ⟨2, dist3 last c, q, r⟩

/-- The end of the function, polycap-capil.c:1147-1190. -/
def wallEnd (p : Profile α) (c d : V3 α) (s : Int × Nat × V3 α) (q r : Int) : Out (Wall α) :=
  if s.1 ≠ 1 then wallExit p c d (atGrid p c d p.nmax) q r
  else if p.nmax ≤ s.2.1 then .ok ⟨2, dist3 s.2.2 c, q, r⟩
  else .ok ⟨1, dist3 s.2.2 c, q, r⟩

/-- `next_hexagon:` to the `goto`, polycap-capil.c:1016-1140. `f` bounds the number of `goto`s,
`g` the number of steps. -/
def wallHex (p : Profile α) (ns : Int) (c d : V3 α) (g : Nat) : Nat → Int → Int → α → Nat → V3 α → Out (Wall α)
  | 0, _, _, _, _, _ => .fuel
  | f + 1, qi, ri, dist, zid, cur => do
    match ← wallStep p ns qi ri c d g dist zid with
    | .stumbled dd => .ok ⟨1, dd, qi, ri⟩
    | .left dist zid ph q r =>
      if !inStack ns q r || ph.z >. p.z p.nmax then wallExit p c d ph q r
      else
        let s := wallSegs p ns q r c d (p.nmax - 1 - (zid + 1)) zid cur
        if p.nmax ≤ s.2.1 ∧ s.1 ≠ 0 then wallHex p ns c d g f q r dist (p.nmax - 1) s.2.2
        else wallEnd p c d s q r

/-- optic radius at the photon, polycap-capil.c:923-934 -/
def wallExt (p : Profile α) (zid : Nat) (zz : α) : α :=
  if p.z zid !=. zz then interpAt p p.ext zid zz else p.ext zid

/-- `polycap_capil_trace_wall` for a photon at `c` with direction `d` (already normalised, which is the
first thing the function does, line 920).  `fuel` bounds its unbounded loops. -/
def traceWall (D : Descr α) (fuel : Nat) (c d : V3 α) : Out (Wall α) :=
  let p := D.prof
  let ns := nShells (α := α) D.n_cap
  if c.z >=. p.z p.nmax then .ok ⟨-2, lit 0, 0, 0⟩ else
  let zid := segIdFrom p.z 0 c.z p.nmax
  let cur := wallExt p zid c.z
  if ns = 0 then
    if sqrt (c.x *. c.x +. c.y *. c.y) >. cur then .ok ⟨-2, lit 0, 0, 0⟩
    else
      let s := wallSegs p ns 0 0 c d (p.nmax - 1 - (zid + 1)) zid c
      wallEnd p c d s 0 0
  else
    if withinPcBoundary cur c.x c.y = 0 then .ok ⟨-2, lit 0, 0, 0⟩
    else
      let qr := hexRound ns cur c.x c.y
      wallHex p ns c d fuel fuel qr.1 qr.2 (lit 0) zid c

/-! ## `polycap_capil_reflect`, polycap-capil.c:565-891 -/

/-- roughness factor `r_rough`, polycap-capil.c:627-628 -/
def roughFactor (sig e alfa : α) : α :=
  let c := (lit (101358/10^5) *. e) *. alfa *. sig
  exp (lit (-1) *. c *. c)

/-- state of the energy loop polycap-capil.c:625-654: updated channels, `w_leak`, the electric vectors,
`leak_flag`, `weight_flag`, and whether the loop ran to its end -/
structure ERes (α : Type) where
  chans : List (Chan α)
  wl : List α
  E : V3 α
  ev : V3 α
  leakFlag : Bool
  weightFlag : Bool
  ok : Bool

/-- weight leaking through the wall, polycap-capil.c:640 -/
def leakWeight (rtot rr w d mu : α) : α := (lit 1 -. rtot *. rr) *. w *. exp (lit (-1) *. d *. mu)

/-- the energy loop polycap-capil.c:625-645.  `leak`: `wall_trace > 0`; `d`: `d_travel`. -/
def reflEnergies (D : Descr α) (norm dir : V3 α) (alfa : α) (leak : Bool) (d : α) :
    List (Chan α) → V3 α → V3 α → ERes α
  | [], E, ev => ⟨[], [], E, ev, false, false, true⟩
  | c :: cs, E, ev =>
    let x := reflPolar c.e D.density c.scatf c.amu norm dir E ev
    let rtot := x.1
    if rtot <. lit 0 || rtot >. lit 1 then ⟨c :: cs, [], x.2.2, x.2.1, false, false, false⟩
    else
      let rr := roughFactor D.sig_rough c.e alfa
      let wl := leakWeight rtot rr c.w d c.amu
      let w := c.w *. rtot *. rr
      let r := reflEnergies D norm dir alfa leak d cs x.2.2 x.2.1
      ⟨{ c with w := w } :: r.chans, wl :: r.wl, r.E, r.ev,
        (leak && wl >=. lit (1/10^4)) || r.leakFlag, w >=. lit (1/10^4) || r.weightFlag, r.ok⟩

/-- `polycap_photon_new`, polycap-photon.c:98-136, on a non-NULL description: `none` = NULL.  The counters,
arrays and pointers of the new object are zero (calloc). -/
def photonNew (c d E : V3 α) : Option (Photon α) :=
  if c.z <. lit 0 then none
  else if d.z <. lit 0 then none
  else some { startC := c, startD := d, startE := E, exitC := c, exitD := d, exitE := E, i_refl := 0,
              d_travel := lit 0, ext := [], int := [], chans := [], coef := false }

/-- optic radius at height `zz`, polycap-capil.c:669-675, 1330-1336 -/
def extAt (p : Profile α) (init : Nat) (zz : α) : α :=
  interpAt p p.ext (segIdFrom p.z init zz p.nmax) zz

/-- extrapolation to the exit plane, polycap-capil.c:849-851, polycap-photon.c:797-799 -/
def toExit (p : Profile α) (c d : V3 α) : V3 α :=
  let k := (p.z p.nmax -. c.z) /. d.z
  ⟨c.x +. d.x *. k, c.y +. d.y *. k, c.z +. d.z *. k⟩

/-- point `t` further along the (not necessarily normalised) direction, polycap-capil.c:660-665 and
polycap-photon.c:699-704 -/
def along (c d : V3 α) (t : α) : V3 α :=
  let k := t /. sqrt (scalar d d)
  ⟨c.x +. k *. d.x, c.y +. k *. d.y, c.z +. k *. d.z⟩

/-- the loop `for(i=..; i<=nmax; i++) { iesc = polycap_capil_trace(..); if(iesc != 1) break; }` with `k`
iterations (polycap-capil.c:785-793, polycap-photon.c:767-774, 912-919) -/
def traceLoop (trace : Nat → Photon α → Out (Int × Nat × Photon α)) : Nat → Int → Nat → Photon α →
    Out (Int × Nat × Photon α)
  | 0, iesc, ix, P => .ok (iesc, ix, P)
  | k + 1, _, ix, P => do
    let x ← trace ix P
    if x.1 ≠ 1 then .ok x else traceLoop trace k x.1 x.2.1 x.2.2

/-- axis arrays of a neighbouring capillary, polycap-capil.c:769-780 -/
def capxOf (D : Descr α) (q r : Int) (i : Nat) : α :=
  if nShells (α := α) D.n_cap = 0 then lit 0 else (capCentre (nShells (α := α) D.n_cap) (D.prof.ext i) q r).1
def capyOf (D : Descr α) (q r : Int) (i : Nat) : α :=
  if nShells (α := α) D.n_cap = 0 then lit 0 else (capCentre (nShells (α := α) D.n_cap) (D.prof.ext i) q r).2

/-- final wall code, polycap-capil.c:668-687: a photon entering a new capillary outside the optic is a
photon leaving through the side -/
def wallCode (D : Descr α) (code : Int) (lc : V3 α) : Int :=
  if code = 1 then
    let cur := extAt D.prof 0 lc.z
    if nShells (α := α) D.n_cap = 0 then
      (if sqrt (lc.x *. lc.x +. lc.y *. lc.y) >=. cur then 3 else 1)
    else if withinPcBoundary cur lc.x lc.y = 0 then 3 else 1
  else code

/-- the temporary photon, polycap-capil.c:716-753.  Simplification: `amu` and `scatf`, recomputed in C from
the same description and energies, are copied. -/
def tempPhoton (P T : Photon α) (d : α) (wl : List α) : Photon α :=
  { T with i_refl := P.i_refl, d_travel := P.d_travel +. d,
           chans := List.zipWith (fun c w => { c with w := w }) P.chans wl, coef := P.coef }

/-- polycap-capil.c:845-880: record the photon that came out of the neighbouring capillary -/
def recordTemp (D : Descr α) (P T : Photon α) (iesc : Int) : Photon α :=
  if iesc = 1 ∨ iesc = -2 then
    let lc := toExit D.prof T.exitC T.exitD
    let lk : Leak α := ⟨lc, P.exitD, P.exitE, P.i_refl, T.chans.map (·.w)⟩
    let b := withinPcBoundary (D.prof.ext D.prof.nmax) lc.x lc.y
    if b = 0 then { P with ext := P.ext ++ [lk] }
    else if b = 1 then { P with int := P.int ++ [lk] }
    else P
  else P

/-- polycap-capil.c:657-887, the part under `if(leak_flag == 1)`.  `trace q r` is
`polycap_capil_trace` in capillary (q,r). -/
def reflectLeak (D : Descr α) (trace : Int → Int → Nat → Photon α → Out (Int × Nat × Photon α)) (P : Photon α)
    (w : Wall α) (wl : List α) (iesc : Int) : Out (Int × Photon α) :=
  let p := D.prof
  let lc := along P.exitC P.exitD w.d
  let lk : Leak α := ⟨lc, P.exitD, P.exitE, P.i_refl, wl⟩
  let code := wallCode D w.code lc
  if code = 3 then .ok (iesc, { P with ext := P.ext ++ [lk] })
  else if code = 2 then .ok (iesc, { P with int := P.int ++ [lk] })
  else if code = 1 ∧ (lc.z <. p.z p.nmax) = true then
    match photonNew lc P.exitD P.exitE with
    | none => .ub
    | some T => do
      let T := tempPhoton P T w.d wl
      let ix := segIdFrom p.z 0 T.exitC.z (p.nmax + 1)
      let x ← traceLoop (trace w.q w.r) (p.nmax - ix + 1) 0 ix T
      if x.1 = -1 ∨ x.1 = -3 then .ok (-2, P)
      else
        let T := x.2.2
        .ok (iesc, recordTemp D { P with ext := P.ext ++ T.ext, int := P.int ++ T.int } T x.1)
  else .ok (iesc, P)

/-- the wall tracing call, polycap-capil.c:612-619: without leak calculation `wall_trace` stays 0 -/
def wallOf (D : Descr α) (leak : Bool) (fuel : Nat) (P : Photon α) : Out (Wall α) :=
  if leak then traceWall D fuel P.exitC (vnorm P.exitD) else .ok ⟨0, lit 0, 0, 0⟩

/-- `polycap_capil_trace_wall` normalises the direction of its photon (line 920) -/
def renorm (leak : Bool) (P : Photon α) : Photon α :=
  { P with exitD := if leak then vnorm P.exitD else P.exitD }

/-- polycap-capil.c:612-890, after wall tracing (`w` its result). -/
def reflectRest (D : Descr α) (leak : Bool) (trace : Int → Int → Nat → Photon α → Out (Int × Nat × Photon α))
    (norm : V3 α) (alfa : α) (P : Photon α) (w : Wall α) : Out (Int × Photon α) :=
  if leak ∧ w.code ≤ 0 then .ok (-1, P)
  else if !P.coef && !P.chans.isEmpty then .ub
  else
    let r := reflEnergies D norm P.exitD alfa leak w.d P.chans P.exitE P.exitE
    if !r.ok then .ok (-1, { P with chans := r.chans, exitE := r.E })
    else
      let P := { P with chans := r.chans, exitE := r.ev }
      let iesc : Int := if r.weightFlag then 1 else 0
      if r.leakFlag then reflectLeak D trace P w r.wl iesc else .ok (iesc, P)

/-- `polycap_capil_reflect` with the tracing function used for photons that entered a neighbouring
capillary as a parameter (`trace`), and `fuel` for the loops of `polycap_capil_trace_wall`. -/
def reflectBody (D : Descr α) (leak : Bool) (fuel : Nat)
    (trace : Int → Int → Nat → Photon α → Out (Int × Nat × Photon α)) (norm : V3 α) (P : Photon α) :
    Out (Int × Photon α) :=
  let norm := vnorm norm
  let P := { P with exitD := vnorm P.exitD }
  let alfa := scalar P.exitD norm
  if alfa <. lit 0 then .ok (-1, P)
  else do
    let w ← wallOf D leak fuel P
    reflectRest D leak trace norm alfa (renorm leak P) w

/-! ## `polycap_capil_trace`, polycap-capil.c:1197-1361 -/

/-- what the search loop polycap-capil.c:1246-1310 ends with -/
inductive Hit (α : Type) where
  /-- `return code` -/
  | ret (code : Int)
  /-- `iesc == 1` at segment `i`: interaction point, surface normal, `cosalfa` -/
  | hit (i : Nat) (v n : V3 α) (cosalfa : α)
  /-- loop ended without interaction -/
  | miss

/-- The search loop over segments `i, …, i+k-1`, polycap-capil.c:1246-1310.  `cur`, `nrm`: `photon_coord`,
`surface_norm` (the latter indeterminate at first in C; it has no influence because then `iesc ≠ 1`). -/
def traceSearch (D : Descr α) (capx capy : Nat → α) (P : Photon α) : Nat → Nat → V3 α → V3 α → Hit α
  | 0, _, _, _ => .miss
  | k + 1, i, cur, nrm =>
    let p := D.prof
    let c0 : V3 α := ⟨capx i, capy i, p.z i⟩
    let c1 : V3 α := ⟨capx (i + 1), capy (i + 1), p.z (i + 1)⟩
    if withinPcBoundary (p.ext i) c0.x c0.y = 0 ∨ withinPcBoundary (p.ext (i + 1)) c1.x c1.y = 0 then .ret (-1)
    else
      let s := segment c0 c1 (p.cap i) (p.cap (i + 1)) (atGrid p P.exitC P.exitD i) (atGrid p P.exitC P.exitD (i + 1))
        P.exitD cur nrm
      let cosalfa := scalar s.2.2 P.exitD
      let iesc : Int := if acos cosalfa >. mpi /. lit 2 || acos cosalfa <. lit 0 then -5 else s.1
      if iesc = 1 then
        let v := s.2.1
        let cur := interp (p.z (i + 1)) (p.z i) (p.ext (i + 1)) (p.ext i) v.z
        if nShells (α := α) D.n_cap = 0 then
          (if sqrt (v.x *. v.x +. v.y *. v.y) >=. cur then .ret (-3) else .hit i v s.2.2 cosalfa)
        else (if withinPcBoundary cur v.x v.y = 0 then .ret (-3) else .hit i v s.2.2 cosalfa)
      else
        let t := atGrid p P.exitC P.exitD i
        if withinPcBoundary (p.ext i) t.x t.y = 0 then .ret (-3)
        else traceSearch D capx capy P k (i + 1) s.2.1 s.2.2

/-- change of direction, polycap-capil.c:1347-1350 -/
def reflectDir (d n : V3 α) (cosalfa : α) : V3 α :=
  vnorm ⟨d.x -. lit 2 *. cosalfa *. n.x, d.y -. lit 2 *. cosalfa *. n.y, d.z -. lit 2 *. cosalfa *. n.z⟩

/-- what follows a successful reflection, polycap-capil.c:1345-1355 -/
def afterReflect (n : V3 α) (cosalfa : α) (ix : Nat) (x : Int × Photon α) : Int × Nat × Photon α :=
  if x.1 = 1 then
    (1, ix, { x.2 with exitD := reflectDir x.2.exitD n cosalfa, i_refl := x.2.i_refl + 1 })
  else if x.1 = -1 ∨ x.1 = -2 then (-1, ix, x.2)
  else (x.1, ix, x.2)

/-- polycap-capil.c:1312-1360: the photon moves to the interaction point and is reflected. Reading
`ext[*ix+1]` beyond the array is undefined behaviour. -/
def traceHit (D : Descr α) (refl : V3 α → Photon α → Out (Int × Photon α)) (P : Photon α) (i : Nat) (v n : V3 α)
    (cosalfa : α) : Out (Int × Nat × Photon α) :=
  let p := D.prof
  let P := { P with d_travel := P.d_travel +. dist3 v P.exitC, exitC := v }
  if fabs cosalfa >. lit 1 then .ok (-1, i + 1, P)
  else
    let ix := segIdFrom p.z (i + 1) v.z p.nmax
    if p.nmax < ix + 1 then .ub
    else
      let cur := interpAt p p.ext ix v.z
      if nShells (α := α) D.n_cap = 0 ∧ (v.x *. v.x +. v.y *. v.y >=. cur) = true then .ok (-3, ix, P)
      else if nShells (α := α) D.n_cap > 0 ∧ withinPcBoundary cur v.x v.y = 0 then .ok (-3, ix, P)
      else do
        let x ← refl n P
        .ok (afterReflect n cosalfa ix x)

/-- `polycap_capil_trace` with the reflection function as a parameter: return value, new `*ix`, photon. -/
def capilTrace (D : Descr α) (refl : V3 α → Photon α → Out (Int × Photon α)) (capx capy : Nat → α) (ix : Nat)
    (P : Photon α) : Out (Int × Nat × Photon α) :=
  let P := { P with exitD := vnorm P.exitD, startD := vnorm P.startD }
  match traceSearch D capx capy P (D.prof.nmax - ix) ix P.exitC ⟨lit 0, lit 0, lit 0⟩ with
  | .ret code => .ok (code, ix, P)
  | .miss => .ok (-2, ix, P)
  | .hit i v n cosalfa => traceHit D refl P i v n cosalfa

/-- `polycap_capil_reflect`: the recursion (a photon leaking into a neighbouring capillary is traced there,
which reflects it, …) is unrolled `k` times. -/
def reflect (D : Descr α) (leak : Bool) (fuel : Nat) : Nat → V3 α → Photon α → Out (Int × Photon α)
  | 0, _, _ => .fuel
  | k + 1, norm, P =>
    reflectBody D leak fuel (fun q r ix T => capilTrace D (reflect D leak fuel k) (capxOf D q r) (capyOf D q r) ix T)
      norm P

/-- `polycap_capil_trace` proper -/
def trace (D : Descr α) (leak : Bool) (fuel k : Nat) (capx capy : Nat → α) (ix : Nat) (P : Photon α) :
    Out (Int × Nat × Photon α) :=
  capilTrace D (reflect D leak fuel k) capx capy ix P

end Polycap
