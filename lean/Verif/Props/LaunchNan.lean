import Verif.Props.ParallelNan
import Verif.Props.Validate
import Verif.Photon

/-!
# C24, C19, finding: photons parallel to a capillary wall

A photon flying parallel to a line on the wall of the first segment of its capillary – in a straight optic: parallel to the axis – meets
the wall at most once, usually never.  The code divides 0 by 0, takes the NaN for an interaction point and reports the photon as
absorbed, with NaN weights.  At `XR`, for any optic, capillary, start point and energies.
-/
namespace Polycap
open CNum

/-- a vector of NaN -/
def nanV : V3 XR := ⟨.nan, .nan, .nan⟩

theorem vnorm_nan : vnorm nanV = nanV := by simp [vnorm, nanV]

/-- one segment: "success" at NaN -/
theorem segment_parallel (c0 c1 : V3 ℝ) (r0 r1 : ℝ) (p0 p1 d cur : V3 ℝ) (nrm : V3 XR) (hd : 0 < d.z)
    (hadm : segRejects c0 c1 r0 r1 p0 p1 d = false) (ha : genCoeff c0 c1 r0 r1 d = 0) :
    segment (finV c0) (finV c1) (.fin r0) (.fin r1) (finV p0) (finV p1) (finV d) (finV cur) nrm = (1, nanV, nanV) := by
  have hp : (vnorm d).z ≠ 0 := (slope_norm d hd).2.2.ne'
  rw [← genCoeff_eq c0 c1 r0 r1 d hd] at ha
  have hz := (segRejects_false.mp hadm).2.2.2.2.2.2.2
  have hc : c1.z - c0.z ≠ 0 := by linarith
  have hs := segSolve_zero (segB c0 c1 r0 r1 p0 (vnorm d) (vsub c1 c0)) (segC c0 r0 p0) p0.z c0.z c1.z cur.z
  change segSolve _ _ _ (finV p0).z (finV c0).z (finV c1).z (finV cur).z = _ at hs
  unfold segment
  rw [segRejects_fin]
  simp only [hadm, Bool.false_eq_true, if_false, finV_vnorm d hd, finV_vsub, segA_fin c0 c1 r0 r1 _ hp hc,
    segB_fin c0 c1 r0 r1 p0 _ hp hc, segC_fin, ha, hs]
  simp [nanV, segNormal, vsub, scalar, vnorm, gt]

/-- NaN reflectivity from a NaN surface normal, for every channel the coefficients of which are accepted -/
theorem reflPolar_nan (e density scatf mu : XR) (dir E ev : V3 XR) (h : polarRejects e density scatf mu = false) :
    (reflPolar e density scatf mu nanV dir E ev).1 = .nan := by
  have h1 : normIfNot1 nanV = nanV := by
    unfold normIfNot1
    split
    · exact vnorm_nan
    · rfl
  unfold reflPolar
  simp only [h, Bool.false_eq_true, if_false, h1]
  have h2 : scalar nanV dir = .nan := by simp [scalar, nanV]
  have h3 : vnorm (cross nanV dir) = nanV := by
    simp [cross, nanV, vnorm]
  have h4 : ∀ v : V3 XR, scalar v nanV = .nan := by intro v; simp [scalar, nanV]
  rw [h2, h3]
  simp [h4, reflTot]

theorem reflEnergies_nan (D : Descr XR) (dir : V3 XR) (alfa : XR) (d : XR) : ∀ (cs : List (Chan XR)) (E ev : V3 XR),
    (∀ c ∈ cs, polarRejects c.e D.density c.scatf c.amu = false) →
    (reflEnergies D nanV dir alfa false d cs E ev).chans = cs.map (fun c => { c with w := .nan }) ∧
    (reflEnergies D nanV dir alfa false d cs E ev).leakFlag = false ∧
    (reflEnergies D nanV dir alfa false d cs E ev).weightFlag = false ∧
    (reflEnergies D nanV dir alfa false d cs E ev).ok = true
  | [], E, ev, _ => by simp [reflEnergies]
  | c :: cs, E, ev, h => by
    have hr := reflPolar_nan c.e D.density c.scatf c.amu dir E ev (h c (by simp))
    unfold reflEnergies
    simp only [hr]
    obtain ⟨i1, i2, i3, i4⟩ := reflEnergies_nan D dir alfa d cs (reflPolar c.e D.density c.scatf c.amu nanV dir E ev).2.2
      (reflPolar c.e D.density c.scatf c.amu nanV dir E ev).2.1 (fun c' hc' => h c' (by simp [hc']))
    simp [gt, ge, i1, i2, i3, i4]

/-- The profile of a real optic as C doubles: finite, `z` strictly increasing from 0, at least three points, radii positive. -/
structure FinOptic (p : Profile XR) (z cap ext : ℕ → ℝ) : Prop where
  two : 2 ≤ p.nmax
  zfin : ∀ i, p.z i = .fin (z i)
  z0 : z 0 = 0
  inc : ∀ i, i < p.nmax → z i < z (i + 1)
  capf : ∀ i, p.cap i = .fin (cap i)
  extf : ∀ i, p.ext i = .fin (ext i)
  cpos : ∀ i, 0 < cap i
  epos : ∀ i, 0 < ext i

theorem FinOptic.mono {p : Profile XR} {z cap ext : ℕ → ℝ} (s : FinOptic p z cap ext) : ∀ i, 0 < i → i ≤ p.nmax → 0 < z i := by
  intro i h0 hi
  induction i with
  | zero => omega
  | succ i ih =>
    have := s.inc i (by omega)
    rcases Nat.eq_zero_or_pos i with rfl | h
    · rw [s.z0] at this; exact this
    · exact (ih h (by omega)).trans this

theorem segIdFrom_nan (z : ℕ → XR) (init n : ℕ) : segIdFrom z init .nan n = init := by
  induction n with
  | zero => rfl
  | succ n ih => simp [segIdFrom, ih]

theorem FinOptic.startSeg {p : Profile XR} {z cap ext : ℕ → ℝ} (s : FinOptic p z cap ext) :
    ∀ n ≤ p.nmax + 1, segIdFrom p.z 0 (.fin 0) n = 0 := by
  intro n hn
  induction n with
  | zero => rfl
  | succ n ih =>
    unfold segIdFrom
    split
    · rename_i h
      rw [s.zfin, xr_le, decide_eq_true_eq] at h
      rcases Nat.eq_zero_or_pos n with h0 | h0
      · exact h0
      · have := s.mono n h0 (by omega)
        linarith
    · exact ih (by omega)

theorem boundary_nan : withinPcBoundary (α := XR) .nan .nan .nan = 1 := by
  simp [withinPcBoundary, gt]

theorem nShells_xr_nonneg (n : ℤ) (hn : 1 ≤ n) : 0 ≤ nShells (α := XR) n := by
  rw [nShells_xr n hn]; exact (nShells_spec n hn).1

/-- the reflection at a NaN surface normal, without leak calculation: absorbed -/
theorem reflect_nan (D : Descr XR) (fuel k : Nat) (P : Photon XR) (hc : P.coef = true)
    (hp : ∀ c ∈ P.chans, polarRejects c.e D.density c.scatf c.amu = false) :
    ∃ P', reflect D false fuel (k + 1) nanV P = .ok (0, P') ∧ P'.exitC = P.exitC ∧
      P'.chans = P.chans.map (fun c => { c with w := .nan }) := by
  unfold reflect reflectBody
  simp only [vnorm_nan]
  have h1 : scalar (vnorm P.exitD) nanV = .nan := by simp [scalar, nanV]
  rw [h1]
  simp only [xr_nan_lt, Bool.false_eq_true, if_false, wallOf, Out.bind_ok, renorm]
  unfold reflectRest
  obtain ⟨e1, e2, e3, e4⟩ := reflEnergies_nan D (vnorm P.exitD) .nan (CNum.lit 0) P.chans P.exitE P.exitE hp
  simp only [Bool.false_eq_true, false_and, if_false, hc, Bool.not_true, Bool.false_and, e1, e2, e3, e4]
  exact ⟨_, rfl, rfl, rfl⟩

/-- the axis point of capillary `qr` at grid point `i`, in exact arithmetic -/
noncomputable def axisPoint (D : Descr XR) (z ext : ℕ → ℝ) (qr : Int × Int) (i : ℕ) : V3 ℝ :=
  ⟨centreX (nShells (α := ℝ) D.n_cap) (ext i) qr.1 qr.2, centreY (nShells (α := ℝ) D.n_cap) (ext i) qr.2, z i⟩

/-- **C24, finding.**  Any optic, photon started at the entrance inside a capillary (the axis of which lies in the optic at its first two
points) and flying parallel to a line on the wall of the first segment of that capillary, no leak calculation: `polycap_photon_launch`
reports "absorbed" (0) and hands out NaN weights – for every energy list, composition, roughness and number of capillaries. -/
theorem launch_parallel_absorbed (lib : Xray XR) (D : Descr XR) (z cap ext : ℕ → ℝ) (s : FinOptic D.prof z cap ext) (hn : 1 ≤ D.n_cap)
    (P : Photon XR) (x y : ℝ) (d : V3 ℝ) (hd : 0 < d.z) (hC : P.startC = ⟨.fin x, .fin y, .fin 0⟩) (hD : P.startD = finV d)
    (es : List XR) (hes : es ≠ []) (hok : es.any energyBad = false) (hsc : scatfRejects D es = false)
    (hpol : ∀ e ∈ es, polarRejects e D.density (scatfOf lib D e) (amuOf lib D e) = false)
    (qr : Int × Int) (hcap : launchCap D P.startC = some qr) (hin : startsInWall D qr P.startC = false)
    (hax : ∀ i ≤ 1, withinPcBoundary (ext i) (axisPoint D z ext qr i).x (axisPoint D z ext qr i).y ≠ 0)
    (hpar : genCoeff (axisPoint D z ext qr 0) (axisPoint D z ext qr 1) (cap 0) (cap 1) d = 0)
    (fuel k : Nat) :
    ∃ P', launch lib (some D) false fuel (k + 1) (some P) (some es) true = .ok (0, .filled (es.map fun _ => .nan), some P') ∧
      P'.exitC = nanV := by
  have hctr : ∀ i, capCentre (nShells (α := XR) D.n_cap) (D.prof.ext i) qr.1 qr.2 =
      (.fin (axisPoint D z ext qr i).x, .fin (axisPoint D z ext qr i).y) := by
    intro i
    rw [s.extf, capCentre_xr _ (nShells_xr_nonneg _ hn) _ _ _, nShells_xr _ hn]; rfl
  have hcx : ∀ i, axX D qr i = .fin (axisPoint D z ext qr i).x := by intro i; simp only [axX, hctr]
  have hcy : ∀ i, axY D qr i = .fin (axisPoint D z ext qr i).y := by intro i; simp only [axY, hctr]
  -- directions
  set u : V3 ℝ := vnorm (vnorm d) with hu
  set w : V3 ℝ := vnorm u with hw
  have u1 : 0 < (vnorm d).z := (slope_norm d hd).2.2
  have u2 : 0 < u.z := (slope_norm _ u1).2.2
  have u3 : 0 < w.z := (slope_norm _ u2).2.2
  have hslope : w.x / w.z = d.x / d.z ∧ w.y / w.z = d.y / d.z := by
    constructor
    · rw [hw, (slope_norm u u2).1, hu, (slope_norm _ u1).1, (slope_norm d hd).1]
    · rw [hw, (slope_norm u u2).2.1, hu, (slope_norm _ u1).2.1, (slope_norm d hd).2.1]
  have hpar' : genCoeff (axisPoint D z ext qr 0) (axisPoint D z ext qr 1) (cap 0) (cap 1) w = 0 := by
    unfold genCoeff at hpar ⊢
    rw [hslope.1, hslope.2]; exact hpar
  -- the state at the start of tracing
  set P1 := launchInit lib D es P with hP1
  have q1 : P1.startC = ⟨.fin x, .fin y, .fin 0⟩ := hC
  have q2 : P1.exitC = finV ⟨x, y, 0⟩ := hC
  have q3 : P1.exitD = finV u := by
    show vnorm (vnorm P.startD) = _
    rw [hD, finV_vnorm d hd, finV_vnorm _ u1]
  have q4 : P1.coef = true := by show (!scatfRejects D es) = true; rw [hsc]; rfl
  have q5 : P1.chans = es.map (fun e => ⟨e, CNum.lit 1, amuOf lib D e, scatfOf lib D e⟩) := rfl
  have hgrid : ∀ (Q : Photon XR) (i : ℕ), Q.exitC = finV ⟨x, y, 0⟩ → Q.exitD = finV w →
      ∃ px py : ℝ, atGrid D.prof Q.exitC Q.exitD i = finV ⟨px, py, z i⟩ := by
    intro Q i h1 h2
    refine ⟨x + w.x * (z i - 0) / w.z, y + w.y * (z i - 0) / w.z, ?_⟩
    simp only [atGrid, projXY, h1, h2, finV, s.zfin, xr_sub, xr_mul, xr_add, xr_div _ _ u3.ne']
  -- tracing
  have htrace : ∃ P2, trace D false fuel (k + 1) (axX D qr) (axY D qr) 0 P1 = .ok (0, 1, P2) ∧ P2.exitC = nanV ∧
      P2.chans = P1.chans.map (fun c => { c with w := .nan }) := by
    unfold trace capilTrace
    simp only [q3, finV_vnorm u u2, ← hw, Nat.sub_zero]
    obtain ⟨m, hm⟩ : ∃ m, D.prof.nmax = m + 1 := ⟨D.prof.nmax - 1, by have := s.two; omega⟩
    have hsearch : traceSearch D (axX D qr) (axY D qr) { P1 with exitD := finV w, startD := vnorm P1.startD } D.prof.nmax 0 P1.exitC
        ⟨CNum.lit 0, CNum.lit 0, CNum.lit 0⟩ = .hit 0 nanV nanV .nan := by
      rw [hm]
      unfold traceSearch
      simp only [hcx, hcy, s.extf, s.capf, s.zfin]
      obtain ⟨px, py, g0⟩ := hgrid { P1 with exitD := finV w, startD := vnorm P1.startD } 0 q2 rfl
      obtain ⟨px', py', g1⟩ := hgrid { P1 with exitD := finV w, startD := vnorm P1.startD } 1 q2 rfl
      simp only [q2] at g0 g1
      simp only [q2, g0, g1, Nat.zero_add]
      have h01 := s.inc 0 (by have := s.two; omega)
      have hadm : segRejects (axisPoint D z ext qr 0) (axisPoint D z ext qr 1) (cap 0) (cap 1) ⟨px, py, z 0⟩ ⟨px', py', z 1⟩ w = false := by
        rw [segRejects_false]
        refine ⟨s.z0.ge, ?_, (s.cpos 0).le, (s.cpos 1).le, u3.le, rfl, rfl, h01⟩
        exact (s.mono 1 one_pos (by have := s.two; omega)).le
      have hseg := segment_parallel (axisPoint D z ext qr 0) (axisPoint D z ext qr 1) (cap 0) (cap 1) ⟨px, py, z 0⟩ ⟨px', py', z 1⟩ w
        ⟨x, y, 0⟩ ⟨CNum.lit 0, CNum.lit 0, CNum.lit 0⟩ u3 hadm hpar'
      rw [if_neg (by rw [boundary_xr, boundary_xr]; exact not_or.mpr ⟨hax 0 (by omega), hax 1 le_rfl⟩)]
      change segment (⟨XR.fin (axisPoint D z ext qr 0).x, XR.fin (axisPoint D z ext qr 0).y, XR.fin (z 0)⟩ : V3 XR)
        (⟨XR.fin (axisPoint D z ext qr 1).x, XR.fin (axisPoint D z ext qr 1).y, XR.fin (z 1)⟩ : V3 XR) _ _ _ _ _ _ _ = _ at hseg
      simp only [hseg]
      have h1 : scalar nanV (finV w) = .nan := by simp [scalar, nanV]
      simp only [h1, xr_acos_nan, gt, xr_lt_nan, xr_nan_lt, Bool.or_self, Bool.false_eq_true, if_false, if_true]
      have h2 : interp (XR.fin (z 1)) (.fin (z 0)) (.fin (ext 1)) (.fin (ext 0)) nanV.z = .nan := by
        simp [interp, nanV]
      rw [h2]
      have h3 : withinPcBoundary (α := XR) .nan nanV.x nanV.y = 1 := boundary_nan
      split
      · simp [nanV, ge]
      · rw [h3]; simp
    rw [hsearch]
    unfold traceHit
    simp only [xr_fabs_nan, gt, xr_lt_nan, Bool.false_eq_true, if_false]
    have hid : segIdFrom D.prof.z 1 nanV.z D.prof.nmax = 1 := segIdFrom_nan _ _ _
    simp only [Nat.zero_add, hid]
    have h2 : interpAt D.prof D.prof.ext 1 nanV.z = .nan := by simp [interpAt, interp, nanV]
    have h3 : withinPcBoundary (α := XR) .nan nanV.x nanV.y = 1 := boundary_nan
    rw [if_neg (by have := s.two; omega), h2, if_neg (by simp [ge]), if_neg (by rw [h3]; simp)]
    have hcs : ∀ c ∈ P1.chans, polarRejects c.e D.density c.scatf c.amu = false := by
      rw [q5]
      intro c hc
      obtain ⟨e, he, rfl⟩ := List.mem_map.mp hc
      exact hpol e he
    obtain ⟨P2, hr, r1, r2⟩ := reflect_nan D fuel k
      { P1 with exitD := finV w, startD := vnorm P1.startD, d_travel := P1.d_travel +. dist3 nanV P1.exitC, exitC := nanV } q4 hcs
    rw [hr]
    exact ⟨P2, by simp [afterReflect], r1, r2⟩
  obtain ⟨P2, ht, t1, t2⟩ := htrace
  refine ⟨finish P2, ?_, t1⟩
  unfold launch
  simp only [hok, Bool.not_true, Bool.or_false]
  rw [if_neg (by simpa using hes)]
  have hbody : launchBody lib D false fuel (k + 1) P es = .ok (0, .filled (es.map fun _ => .nan), finish P2) := by
    unfold launchBody
    simp only [← hP1]
    have hcap' : launchCap D P1.startC = some qr := hcap
    rw [hcap']
    have hin' : startsInWall D qr P1.startC = false := hin
    simp only [hin', Bool.false_eq_true, if_false]
    unfold launchInside
    have hix : segIdFrom D.prof.z 0 P1.startC.z (D.prof.nmax + 1) = 0 := by
      rw [q1]; exact s.startSeg _ le_rfl
    simp only [hix]
    have hloop : traceLoop (trace D false fuel (k + 1) (axX D qr) (axY D qr)) (D.prof.nmax + 1) 0 0 P1 = .ok (0, 1, P2) := by
      unfold traceLoop
      rw [ht]
      simp
    rw [hloop]
    simp only [Out.bind_ok]
    have hw : P2.chans.map (·.w) = es.map fun _ => XR.nan := by
      rw [t2, q5, List.map_map, List.map_map]
      exact List.map_congr_left fun _ _ => rfl
    rw [hw]
    simp
  rw [hbody]
  simp

/-- A straight optic: constant capillary radius `r` and outer radius `R`. -/
def Straight (p : Profile XR) (z : ℕ → ℝ) (r R : ℝ) : Prop := FinOptic p z (fun _ => r) (fun _ => R)

/-- A single straight capillary, the start point anywhere in its opening, the photon flying along it. -/
theorem launch_straight_single (lib : Xray XR) (D : Descr XR) (z : ℕ → ℝ) (r R : ℝ) (s : Straight D.prof z r R) (hlt : r < R)
    (hn : D.n_cap = 1)
    (P : Photon XR) (x y d : ℝ) (hd : 0 < d) (hxy : x ^ 2 + y ^ 2 ≤ r ^ 2) (hC : P.startC = ⟨.fin x, .fin y, .fin 0⟩)
    (hD : P.startD = ⟨.fin 0, .fin 0, .fin d⟩)
    (es : List XR) (hes : es ≠ []) (hok : es.any energyBad = false) (hsc : scatfRejects D es = false)
    (hpol : ∀ e ∈ es, polarRejects e D.density (scatfOf lib D e) (amuOf lib D e) = false) (fuel k : Nat) :
    ∃ P', launch lib (some D) false fuel (k + 1) (some P) (some es) true = .ok (0, .filled (es.map fun _ => .nan), some P') ∧
      P'.exitC = nanV := by
  have hr := s.cpos 0
  have hs0 : nShells (α := XR) D.n_cap = 0 := by
    rw [hn, nShells_xr 1 le_rfl]; exact (nShells_zero_iff 1 le_rfl).mpr (by norm_num)
  have hz : z 0 - z 1 ≠ 0 := by have := s.inc 0 (by have := s.two; omega); exact (sub_neg.mpr this).ne
  have hrt : Real.sqrt (x * x + y * y) ≤ r := by
    rw [Real.sqrt_le_left hr.le]; nlinarith
  have hsq : 0 ≤ x * x + y * y := add_nonneg (mul_self_nonneg x) (mul_self_nonneg y)
  have hc0 : capCentre (nShells (α := XR) D.n_cap) (XR.fin R) 0 0 = (.fin 0, .fin 0) := by
    rw [capCentre_xr _ (by rw [hs0]) _ _ _]; simp [centreX, centreY]
  have hseg : launchSeg D.prof (XR.fin 0) = 0 := by simp [launchSeg, gt]
  refine launch_parallel_absorbed lib D z _ _ s (by omega) P x y ⟨0, 0, d⟩ hd hC hD es hes hok hsc hpol (0, 0) ?_ ?_ ?_ ?_ fuel k
  · unfold launchCap launchExt
    simp only [hC, hs0, hseg, s.extf, s.zfin, interpL, xr_sub, xr_div _ _ hz, xr_mul, xr_add, sub_self, zero_div,
      zero_mul, zero_add, if_true, gt, xr_sqrt _ hsq, xr_lt]
    rw [if_neg]
    simpa using hrt.trans hlt.le
  · simp only [startsInWall, hC, atStart, gt, xr_lt, xr_lit, axX, axY, s.extf, hc0, s.capf]
    simp only [Rat.cast_zero, lt_irrefl, decide_false, Bool.false_eq_true, if_false, xr_sub, sub_zero, xr_mul, xr_add, xr_sqrt _ hsq, xr_lt]
    simpa using hrt
  · intro i _
    have hR : 0 < R := hr.trans hlt
    have : withinPcBoundary R (0:ℝ) 0 = 1 := by
      rw [boundary_one_iff]
      refine ⟨hR, ?_, ?_, ?_⟩ <;> simp <;> positivity
    simp only [axisPoint, centreX, centreY]
    simp [this]
  · simp [genCoeff, axisPoint]

/-- a straight glass tube of radius 1 and outer radius 2 -/
noncomputable def tube : Descr XR := ⟨.fin 0, 1, [14], [.fin 1], .fin 2, ⟨2, fun i => .fin i, fun _ => .fin 1, fun _ => .fin 2⟩⟩

theorem tube_straight : Straight tube.prof (fun i => i) 1 2 where
  two := le_rfl
  zfin _ := rfl
  z0 := by simp
  inc i _ := by simp
  capf _ := rfl
  extf _ := rfl
  cpos _ := one_pos
  epos _ := two_pos

/-- A photon of 10 keV down the middle of the tube: absorbed, weight NaN. -/
example (fuel k : Nat) (P : Photon XR) (hC : P.startC = ⟨.fin 0, .fin 0, .fin 0⟩) (hD : P.startD = ⟨.fin 0, .fin 0, .fin 1⟩) :
    ∃ P', launch ⟨fun _ _ => .fin 1, fun _ _ => .fin 0, fun _ => .fin 28⟩ (some tube) false fuel (k + 1) (some P) (some [.fin 10]) true =
      .ok (0, .filled [.nan], some P') ∧ P'.exitC = nanV := by
  refine launch_straight_single _ tube _ 1 2 tube_straight (by norm_num) rfl P 0 0 1 one_pos (by norm_num) hC hD [.fin 10] (by simp) ?_ ?_ ?_ fuel k
  · simp only [List.any_cons, List.any_nil, energyBad, gt, xr_lt, xr_lit]; norm_num
  · simp [scatfRejects, tube, energyBad, elemBad, gt]; norm_num
  · intro e he
    obtain rfl := List.mem_singleton.mp he
    have h28 : CNum.div (XR.fin 1) (XR.fin 28) = .fin (1 / 28) := xr_div _ _ (by norm_num)
    simp [polarRejects, tube, scatfOf, amuOf, gt, h28]; norm_num

end Polycap
