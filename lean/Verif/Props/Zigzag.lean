import Verif.Props.LaunchExamples

/-!
# A launch with reflections

A straight glass tube of radius `zR` and length 3, a photon crossing the axis at the entrance with slope `2 zR`, at an
energy where the glass reflects totally.  It meets the wall at z = 1/2, 3/2, 5/2.
-/
namespace Polycap
open CNum

/-! ## Total reflection -/

theorem cabs_ratio (x z : Cx ℝ) (h : x.re ^ 2 + x.im ^ 2 = z.re ^ 2 + z.im ^ 2) (hz : z.re ^ 2 + z.im ^ 2 ≠ 0) :
    cabs (cmul x (cinv z)) = 1 := by
  simp only [cabs, cmul, cinv, real_sqrt, real_add, real_mul, real_sub, real_div, real_neg]
  rw [Real.sqrt_eq_one]
  have hz' : z.re * z.re + z.im * z.im ≠ 0 := by intro h'; apply hz; linarith
  field_simp
  have e : (x.re * z.re + x.im * z.im) ^ 2 + (-(x.re * z.im) + x.im * z.re) ^ 2 = (x.re ^ 2 + x.im ^ 2) * (z.re ^ 2 + z.im ^ 2) := by ring
  have e' : (z.re ^ 2 + z.im ^ 2) ^ 2 = (x.re ^ 2 + x.im ^ 2) * (z.re ^ 2 + z.im ^ 2) := by rw [h]; ring
  linarith [e, e']

/-- Below the critical angle, without absorption, everything is reflected whatever the polarisation. -/
theorem reflTot_total (nr theta fs : ℝ) (h0 : 0 < nr) (h1 : nr < Real.sin theta) (hc : 0 < Real.cos theta) :
    reflTot ⟨nr, 0⟩ theta fs = 1 := by
  have e1 : ((1:ℚ):ℝ) = 1 := by norm_num
  have em1 : ((-1:ℚ):ℝ) = -1 := by norm_num
  have e2 : ((2:ℚ):ℝ) = 2 := by norm_num
  have e0 : ((0:ℚ):ℝ) = 0 := by norm_num
  have hs : 0 < Real.sin theta := h0.trans h1
  have hneg : 1 - 1 / nr * (1 / nr) * (Real.sin theta * Real.sin theta) < 0 := by
    have : 1 / nr * (1 / nr) * (Real.sin theta * Real.sin theta) = (Real.sin theta / nr) ^ 2 := by field_simp
    rw [this]
    have : 1 < Real.sin theta / nr := by rwa [one_lt_div h0]
    nlinarith
  obtain ⟨q, hq, hw⟩ : ∃ q, 0 < q ∧ reflW (⟨nr, 0⟩ : Cx ℝ) (Real.sin theta) = ⟨0, q⟩ := by
    refine ⟨Real.sqrt (-(1 - 1 / nr * (1 / nr) * (Real.sin theta * Real.sin theta))), Real.sqrt_pos.mpr (by linarith), ?_⟩
    have hi : nr / (nr * nr) = 1 / nr := by field_simp
    simp only [reflW, cinv, cmul, cscale, csqrt, cabs, real_mul, real_div, real_sub, real_add, real_sqrt, real_neg, real_lit,
      real_lt, e0, e1, e2, em1, mul_zero, add_zero, neg_zero, zero_div, sub_zero, zero_mul, lt_irrefl, decide_false, Bool.false_eq_true, if_false, hi]
    generalize 1 - 1 / nr * (1 / nr) * (Real.sin theta * Real.sin theta) = a at hneg ⊢
    rw [show Real.sqrt (a * a) = -a by rw [Real.sqrt_mul_self_eq_abs, abs_of_neg hneg]]
    simp only [neg_add_cancel, zero_div, Real.sqrt_zero]
    rw [show (-a - a) / 2 = -a by ring]
  unfold reflTot
  simp only [real_sin, real_cos, hw]
  have hrs : cabs (reflRs (⟨nr, 0⟩ : Cx ℝ) ⟨0, q⟩ (Real.cos theta)) = 1 := by
    unfold reflRs
    apply cabs_ratio
    · simp only [cmul, real_mul, real_sub, real_add, real_lit, em1]; ring
    · simp only [cmul, real_mul, real_sub, real_add]
      have : 0 < nr * q := by positivity
      nlinarith
  have hrp : cabs (reflRp (⟨nr, 0⟩ : Cx ℝ) ⟨0, q⟩ (Real.cos theta)) = 1 := by
    unfold reflRp
    apply cabs_ratio
    · simp only [cscale, real_mul, real_sub, real_add]; ring
    · simp only [cscale, real_mul, real_add]
      nlinarith [sq_nonneg (0 + nr * Real.cos theta + 0 * Real.cos theta)]
  simp only [hrs, hrp, real_mul, real_add, real_sub, real_lit, e1]
  ring

/-! ## The wall of a straight tube -/

/-- photon in the plane y = 0 crossing the axis at `z0` with slope `e·r/h`: the wall is met at `z0 + h` -/
theorem cyl_segment {L r h z0 s c e : ℝ} {cur nrm p0 p1 : V3 ℝ} (hr : 0 < r) (hh : 0 < h) (hL : 0 < L) (hs : 0 < s) (hc : 0 < c)
    (hk : s / c = r / h) (h1 : s ^ 2 + c ^ 2 = 1) (he : e ^ 2 = 1)
    (hp0 : p0 = ⟨e * (r / h) * (0 - z0), 0, 0⟩) (hp1 : p1.z = L)
    (hbefore : z0 - h < cur.z + 1 / 10 ^ 5) (hafter : cur.z + 1 / 10 ^ 5 ≤ z0 + h) (hin : z0 + h ≤ L) (hpos : 1 / 10 ^ 10 ≤ z0 + h) :
    segment ⟨0, 0, 0⟩ ⟨0, 0, L⟩ r r p0 p1 ⟨e * s, 0, c⟩ cur nrm = (1, ⟨e * r, 0, z0 + h⟩, ⟨e, 0, 0⟩) := by
  subst hp0
  have hu : vnorm (⟨e * s, 0, c⟩ : V3 ℝ) = ⟨e * s, 0, c⟩ := vnorm_unit _ (by unfold dot; nlinarith)
  have hrej : segRejects ⟨0, 0, 0⟩ ⟨0, 0, L⟩ r r ⟨e * (r / h) * (0 - z0), 0, 0⟩ p1 ⟨e * s, 0, c⟩ = false := by
    rw [segRejects_false]
    exact ⟨le_refl _, hL.le, hr.le, hr.le, hc.le, rfl, hp1.symm, hL⟩
  have hgen : genCoeff ⟨0, 0, 0⟩ ⟨0, 0, L⟩ r r ⟨e * s, 0, c⟩ ≠ 0 := by
    unfold genCoeff
    simp only [sub_self, zero_div, sub_zero]
    have : (e * s / c) ^ 2 = (s / c) ^ 2 := by
      rw [mul_div_assoc, mul_pow, he, one_mul]
    rw [this]
    have : 0 < (s / c) ^ 2 := by positivity
    simp only [ne_eq, OfNat.ofNat_ne_zero, not_false_eq_true, zero_pow, add_zero, sub_zero]
    exact this.ne'
  have hx : ∀ z, e * (r / h) * (0 - z0) + z / c * (e * s) = e * (r / h) * (z - z0) := by
    intro z; rw [← hk]; field_simp; ring
  have hwall : ∀ z, OnWall ⟨0, 0, 0⟩ ⟨0, 0, L⟩ r r (lineAt ⟨e * (r / h) * (0 - z0), 0, 0⟩ ⟨e * s, 0, c⟩ z) ↔ z = z0 + h ∨ z = z0 - h := by
    intro z
    simp only [OnWall, lineAt, linAt, sub_zero]
    rw [hx]
    simp only [sub_self, zero_mul, add_zero, sub_zero, mul_zero, ne_eq, OfNat.ofNat_ne_zero, not_false_eq_true, zero_pow]
    have e1 : (e * (r / h) * (z - z0)) ^ 2 = (r / h) ^ 2 * (z - z0) ^ 2 := by
      rw [mul_pow, mul_pow, he, one_mul]
    rw [e1]
    constructor
    · intro hw
      have : (z - z0) ^ 2 = h ^ 2 := by
        field_simp at hw; nlinarith
      rcases sq_eq_sq_iff_eq_or_eq_neg.mp this with h' | h'
      · left; linarith
      · right; linarith
    · rintro (rfl | rfl)
      · field_simp; ring
      · field_simp; ring
  generalize hres : segment ⟨0, 0, 0⟩ ⟨0, 0, L⟩ r r ⟨e * (r / h) * (0 - z0), 0, 0⟩ p1 ⟨e * s, 0, c⟩ cur nrm = res
  obtain ⟨code, v, n⟩ := res
  have hcode : code = 1 := by
    by_contra hne
    obtain ⟨z', k1, k2, k3, k4, k5⟩ := segment_complete _ _ _ _ _ _ _ cur nrm hc hgen hrej (by rw [hres]; exact hne)
      (z0 + h) (by simp only; linarith [show (0:ℝ) < 1 / 10 ^ 10 by norm_num]) hin hafter ((hwall _).mpr (Or.inl rfl))
    rcases (hwall z').mp k5 with rfl | rfl
    · simp only at k4; linarith
    · linarith
  subst hcode
  obtain ⟨l, l1, l2, l3, l4, w, -⟩ := segment_sound _ _ _ _ _ _ _ _ _ _ _ hc hgen hres
  obtain ⟨-, -, -, -, -, -, vx, vy, hn⟩ := segment_success hres
  rw [l] at w
  have hvz : v.z = z0 + h := by
    rcases (hwall _).mp w with h' | h'
    · exact h'
    · rw [h'] at l4; linarith
  rw [hu] at hn
  have hv : v = ⟨e * r, 0, z0 + h⟩ := by
    rw [l, hvz]
    simp only [lineAt, sub_zero]
    rw [hx]
    congr 1
    · field_simp; ring
    · simp
  have hr2 : Real.sqrt (e * r * (e * r)) = r := by
    rw [show e * r * (e * r) = e ^ 2 * r ^ 2 by ring, he, one_mul, Real.sqrt_sq hr.le]
  have hL2 : Real.sqrt (L * L) = L := Real.sqrt_mul_self hL.le
  have hf : (z0 + h) / c / (L * L / (c * L)) * L = z0 + h := by field_simp
  rw [hn, hv]
  simp only [segNormal, vsub, scalar_real, dot, real_sub, real_mul, real_add, real_div, real_sqrt, real_atan, real_sin, real_cos,
    sub_zero, sub_self, zero_div, Real.arctan_zero, Real.sin_zero, Real.cos_zero, mul_zero, zero_mul, add_zero, zero_add, one_mul,
    hf, hr2, hL2]
  rw [show e * r / r = e by field_simp]
  rw [vnorm_unit _ (by unfold dot; nlinarith)]

/-! ## The tube -/

noncomputable def zs : ℝ := 2000 / 1000001
noncomputable def zc : ℝ := 999999 / 1000001
noncomputable def zR : ℝ := 1000 / 999999
/-- one segment of length 3, constant radii -/
noncomputable def zProf : Profile ℝ := ⟨1, fun i => 3 * i, fun _ => zR, fun _ => 1500 / 999999⟩
noncomputable def zD : Descr ℝ := ⟨0, 1, [14], [1], 223/100, zProf⟩
/-- tables without absorption -/
noncomputable def zLib : Xray ℝ := ⟨fun _ _ => 0, fun _ _ => 0, fun _ => 28⟩

theorem zUnit : zs ^ 2 + zc ^ 2 = 1 := by norm_num [zs, zc]
theorem zGrid : Grid zProf := ⟨le_refl _, by simp [zProf], by intro i hi; simp [zProf]⟩
theorem zX (i : Nat) : axX zD (0, 0) i = 0 := by
  rw [axX_eq zD (by simp [zD]) (0, 0) i]; simp [centreX]
theorem zY (i : Nat) : axY zD (0, 0) i = 0 := by
  rw [axY_eq zD (by simp [zD]) (0, 0) i]; simp [centreY]

theorem z_scatf : scatfRejects zD [10] = false := by
  rw [scatf_accepts_iff]
  simp [zD]
  norm_num

theorem z_chan (P : Photon ℝ) : (launchInit zLib zD [10] P).chans = [⟨10, 1, 0, 1/2⟩] ∧ (launchInit zLib zD [10] P).coef = true := by
  constructor
  · simp [launchInit, amuOf, scatfOf, zD, zLib]
    norm_num
  · show (!scatfRejects zD [10]) = true
    rw [z_scatf]; rfl

/-- at 10 keV and this angle the glass reflects totally, whatever the polarisation -/
theorem z_polar (e : ℝ) (he : e ^ 2 = 1) (E ev : V3 ℝ) : (reflPolar (10:ℝ) (223/100) (1/2) 0 ⟨e, 0, 0⟩ ⟨e * zs, 0, zc⟩ E ev).1 = 1 := by
  have e0 : ((0:ℚ):ℝ) = 0 := by norm_num
  have e1 : ((1:ℚ):ℝ) = 1 := by norm_num
  have e100 : ((100:ℚ):ℝ) = 100 := by norm_num
  have hrej : polarRejects (10:ℝ) (223/100) (1/2) 0 = false := by
    simp only [polarRejects, gt, real_lt, real_le, real_lit, e0, e1, e100, Bool.or_eq_false_iff, decide_eq_false_iff_not]
    norm_num
  have hn : normIfNot1 (⟨e, 0, 0⟩ : V3 ℝ) = ⟨e, 0, 0⟩ := by
    unfold normIfNot1
    split
    · exact vnorm_unit _ (by unfold dot; nlinarith)
    · rfl
  have hth : ((acos (scalar (⟨e, 0, 0⟩ : V3 ℝ) ⟨e * zs, 0, zc⟩) : ℝ) <. lit 0) = false := by
    simp only [real_acos, real_lt, real_lit, e0, decide_eq_false_iff_not, not_lt]
    exact Real.arccos_nonneg _
  have hsc : scalar (⟨e, 0, 0⟩ : V3 ℝ) ⟨e * zs, 0, zc⟩ = zs := by
    rw [scalar_real]; unfold dot; simp only; linear_combination zs * he
  unfold reflPolar
  simp only [hrej, hn, hth, Bool.false_eq_true, if_false]
  have hcos : Real.cos (Real.arccos zs) = zs := Real.cos_arccos (by norm_num [zs]) (by norm_num [zs])
  have hsin : Real.sin (Real.arccos zs) = zc := by
    rw [Real.sin_arccos, show 1 - zs ^ 2 = zc ^ 2 by linarith [zUnit]]
    exact Real.sqrt_sq (by norm_num [zc])
  have hbeta : reflBeta (10:ℝ) 0 = 0 := by simp [reflBeta]
  rw [hsc]
  simp only [reflN, hbeta]
  apply reflTot_total
  · simp only [real_sub, real_lit, e1, reflAlfa, cHC, cNAVOG, cR0, mpi, real_mul, real_div]
    norm_num
  · simp only [real_sub, real_lit, e1, reflAlfa, cHC, cNAVOG, cR0, mpi, real_mul, real_div, real_acos, hsin]
    norm_num [zc]
  · simp only [real_acos, hcos]; norm_num [zs]

theorem z_reflect (leak : Bool) (hl : leak = false) (fuel k : Nat) (e : ℝ) (he : e ^ 2 = 1) (P : Photon ℝ) (hD : P.exitD = ⟨e * zs, 0, zc⟩)
    (hch : P.chans = [⟨10, 1, 0, 1/2⟩]) (hco : P.coef = true) :
    ∃ E', reflect zD leak fuel (k + 1) ⟨e, 0, 0⟩ P = .ok (1, { P with exitE := E' }) := by
  subst hl
  have e0 : ((0:ℚ):ℝ) = 0 := by norm_num
  have e1 : ((1:ℚ):ℝ) = 1 := by norm_num
  have e4 : ((1/10^4:ℚ):ℝ) = 1/10^4 := by norm_num
  have hu : vnorm (⟨e * zs, 0, zc⟩ : V3 ℝ) = ⟨e * zs, 0, zc⟩ := vnorm_unit _ (by unfold dot; nlinarith [zUnit])
  have hn : vnorm (⟨e, 0, 0⟩ : V3 ℝ) = ⟨e, 0, 0⟩ := vnorm_unit _ (by unfold dot; nlinarith)
  have hsc : scalar (⟨e * zs, 0, zc⟩ : V3 ℝ) ⟨e, 0, 0⟩ = zs := by
    rw [scalar_real]; unfold dot; simp only; linear_combination zs * he
  have hneg : ((zs : ℝ) <. lit 0) = false := by
    simp only [real_lt, real_lit, e0, decide_eq_false_iff_not]; norm_num [zs]
  have hrough : roughFactor (0:ℝ) 10 zs = 1 := by simp [roughFactor]
  have hx := z_polar e he P.exitE P.exitE
  refine ⟨(reflPolar (10:ℝ) (223/100) (1/2) 0 ⟨e, 0, 0⟩ ⟨e * zs, 0, zc⟩ P.exitE P.exitE).2.1, ?_⟩
  have hcoef : (!P.coef && !P.chans.isEmpty) = false := by rw [hco]; rfl
  unfold reflect reflectBody
  simp only [hD, hu, hn, hsc, hneg, Bool.false_eq_true, if_false, wallOf, renorm, Out.bind_ok]
  unfold reflectRest
  rw [if_neg (by simp)]
  rw [if_neg (by simpa using hcoef)]
  simp only [hch, reflEnergies]
  have hz : zD.density = 223/100 := rfl
  have hg : zD.sig_rough = 0 := rfl
  have hr1 : ((1:ℝ) <. lit 0 || (1:ℝ) >. lit 1) = false := by
    simp only [gt, real_lt, real_lit, e0, e1]; norm_num
  simp only [hz, hg, hx, hr1, hrough, Bool.false_eq_true, if_false, real_mul, mul_one, Bool.false_and, Bool.or_false]
  have h4 : ((1:ℝ) >=. lit (1/10^4)) = true := by
    simp only [ge, real_le, real_lit, e4, decide_eq_true_eq]; norm_num
  simp only [h4, Bool.not_true, Bool.false_eq_true, if_false, if_true]

/-- the search along the tube -/
theorem z_search {e z0 : ℝ} (he : e ^ 2 = 1) (P : Photon ℝ) (hD : P.exitD = ⟨e * zs, 0, zc⟩)
    (hC : P.exitC = ⟨e * (zR / (1/2)) * (P.exitC.z - z0), 0, P.exitC.z⟩)
    (hb : z0 - 1/2 < P.exitC.z + 1 / 10 ^ 5) (ha : P.exitC.z + 1 / 10 ^ 5 ≤ z0 + 1/2) (h3 : z0 + 1/2 ≤ 3) (h0 : 1 / 10 ^ 10 ≤ z0 + 1/2) (nrm : V3 ℝ) :
    traceSearch zD (axX zD (0, 0)) (axY zD (0, 0)) P 1 0 P.exitC nrm = .hit 0 ⟨e * zR, 0, z0 + 1/2⟩ ⟨e, 0, 0⟩ zs := by
  have e2 : ((2:ℚ):ℝ) = 2 := by norm_num
  have e0 : ((0:ℚ):ℝ) = 0 := by norm_num
  have hbd : withinPcBoundary (1500/999999 : ℝ) 0 0 = 1 := boundary_axis (by norm_num)
  have hg : ∀ i, atGrid zD.prof P.exitC P.exitD i = ⟨e * (zR / (1/2)) * (3 * i - z0), 0, 3 * i⟩ := by
    intro i
    rw [atGrid_eq, hD, hC]
    have : zD.prof.z i = 3 * i := rfl
    simp only [this]
    congr 1
    · norm_num [zs, zc, zR]; ring
    · simp
  have hseg := cyl_segment (L := 3) (r := zR) (h := 1/2) (z0 := z0) (s := zs) (c := zc) (e := e) (cur := P.exitC) (nrm := nrm)
    (p0 := ⟨e * (zR / (1/2)) * (0 - z0), 0, 0⟩) (p1 := ⟨e * (zR / (1/2)) * (3 - z0), 0, 3⟩) (by norm_num [zR]) (by norm_num) (by norm_num)
    (by norm_num [zs]) (by norm_num [zc]) (by norm_num [zs, zc, zR]) zUnit he rfl rfl hb ha h3 h0
  have hg0 := hg 0
  have hg1 := hg (0 + 1)
  simp only [Nat.cast_zero, mul_zero, zero_add, Nat.cast_one, mul_one] at hg0 hg1
  have hsc : scalar (⟨e, 0, 0⟩ : V3 ℝ) ⟨e * zs, 0, zc⟩ = zs := by
    rw [scalar_real]; unfold dot; simp only; linear_combination zs * he
  have hgate : ((acos zs : ℝ) >. mpi /. lit 2 || (acos zs : ℝ) <. lit 0) = false := by
    simp only [real_acos, real_div, real_lit, e2, e0, gt, real_lt, Bool.or_eq_false_iff, decide_eq_false_iff_not, not_lt]
    refine ⟨?_, Real.arccos_nonneg _⟩
    rw [Real.arccos_eq_pi_div_two_sub_arcsin]
    have hm : Real.pi / 2 - (mpi:ℝ) / 2 ≤ zs := by
      have := Real.pi_lt_d20
      simp only [mpi, real_lit, zs]
      norm_num at this ⊢
      linarith
    have hz1 : zs ≤ Real.arcsin zs := by
      have h1 := Real.sin_arcsin (x := zs) (by norm_num [zs]) (by norm_num [zs])
      calc zs = Real.sin (Real.arcsin zs) := h1.symm
        _ ≤ Real.arcsin zs := Real.sin_le (Real.arcsin_nonneg.mpr (by norm_num [zs]))
    linarith
  have hrad : (sqrt ((e * zR) *. (e * zR) +. (0:ℝ) *. 0) >=. interp (zD.prof.z (0 + 1)) (zD.prof.z 0) (zD.prof.ext (0 + 1)) (zD.prof.ext 0) (z0 + 1/2)) = false := by
    have : interp (zD.prof.z (0 + 1)) (zD.prof.z 0) (zD.prof.ext (0 + 1)) (zD.prof.ext 0) (z0 + 1/2) = 1500/999999 := by
      rw [linAt_interp]; simp [linAt, zD, zProf]
    rw [this]
    simp only [real_sqrt, real_mul, real_add, ge, real_le, decide_eq_false_iff_not, not_le]
    rw [show e * zR * (e * zR) + 0 * 0 = e ^ 2 * zR ^ 2 by ring, he, one_mul, Real.sqrt_sq (by norm_num [zR])]
    norm_num [zR]
  have hns : nShells (α := ℝ) zD.n_cap = 0 := nShells_one
  unfold traceSearch
  simp only [zX, zY]
  rw [show zD.prof.ext 0 = 1500/999999 from rfl, show zD.prof.ext (0 + 1) = 1500/999999 from rfl, hbd, if_neg (by decide)]
  rw [show zD.prof.ext 0 = 1500/999999 from rfl, show zD.prof.ext (0 + 1) = 1500/999999 from rfl] at hrad
  have hz0 : zD.prof.z 0 = 0 := by simp [zD, zProf]
  have hz1 : zD.prof.z (0 + 1) = 3 := by simp [zD, zProf]
  rw [hz0, hz1] at hrad ⊢
  rw [hg0, hg1, show zD.prof.cap 0 = zR from rfl, show zD.prof.cap (0 + 1) = zR from rfl, hD, hseg]
  simp only [hsc, hgate, Bool.false_eq_true, if_false, if_true, hns, hrad]

/-- one call of the tracing function: the photon is at the wall, mirrored -/
theorem z_trace {e z0 : ℝ} (he : e ^ 2 = 1) (fuel k : Nat) (P : Photon ℝ) (hD : P.exitD = ⟨e * zs, 0, zc⟩)
    (hC : P.exitC = ⟨e * (zR / (1/2)) * (P.exitC.z - z0), 0, P.exitC.z⟩)
    (hb : z0 - 1/2 < P.exitC.z + 1 / 10 ^ 5) (ha : P.exitC.z + 1 / 10 ^ 5 ≤ z0 + 1/2) (h3 : z0 + 1/2 ≤ 3) (h0 : 1 / 10 ^ 10 ≤ z0 + 1/2)
    (hch : P.chans = [⟨10, 1, 0, 1/2⟩]) (hco : P.coef = true) :
    ∃ E', trace zD false fuel (k + 1) (axX zD (0, 0)) (axY zD (0, 0)) 0 P =
      .ok (1, 0, { P with exitC := ⟨e * zR, 0, z0 + 1/2⟩, exitD := ⟨(-e) * zs, 0, zc⟩, startD := vnorm P.startD, exitE := E', i_refl := P.i_refl + 1,
                          d_travel := P.d_travel + gap ⟨e * zR, 0, z0 + 1/2⟩ P.exitC }) := by
  have e1 : ((1:ℚ):ℝ) = 1 := by norm_num
  have e2 : ((2:ℚ):ℝ) = 2 := by norm_num
  have hu : vnorm (⟨e * zs, 0, zc⟩ : V3 ℝ) = ⟨e * zs, 0, zc⟩ := vnorm_unit _ (by unfold dot; nlinarith [zUnit])
  have hns : nShells (α := ℝ) zD.n_cap = 0 := nShells_one
  have hs := z_search he { P with exitD := ⟨e * zs, 0, zc⟩, startD := vnorm P.startD } rfl hC hb ha h3 h0 ⟨lit 0, lit 0, lit 0⟩
  obtain ⟨E', hr⟩ := z_reflect false rfl fuel k e he
    { P with exitD := ⟨e * zs, 0, zc⟩, startD := vnorm P.startD, d_travel := P.d_travel +. dist3 ⟨e * zR, 0, z0 + 1/2⟩ P.exitC, exitC := ⟨e * zR, 0, z0 + 1/2⟩ } rfl hch hco
  have hix : segIdFrom zD.prof.z (0 + 1) (z0 + 1/2) 1 = 0 := segId_zero _ _ _ 0 (by
    simp only [zD, zProf, Nat.cast_zero, mul_zero]; linarith [show (0:ℝ) < 1 / 10 ^ 10 by norm_num]) (by intro i h1 h2; omega)
  refine ⟨E', ?_⟩
  unfold trace capilTrace
  simp only [hD, hu]
  rw [show zD.prof.nmax - 0 = 1 from rfl, hs]
  simp only [traceHit]
  have hab : (fabs (zs:ℝ) >. lit 1) = false := by
    simp only [real_fabs, gt, real_lt, real_lit, e1, decide_eq_false_iff_not, not_lt]
    rw [abs_of_pos (by norm_num [zs])]; norm_num [zs]
  rw [hab, show zD.prof.nmax = 1 from rfl, hix]
  simp only [Bool.false_eq_true, if_false, zero_add, lt_irrefl]
  have hcur : interpAt zD.prof zD.prof.ext 0 (z0 + 1/2) = 1500/999999 := by
    unfold interpAt
    rw [linAt_interp]; simp [linAt, zD, zProf]
  have hge : ((e * zR) *. (e * zR) +. (0:ℝ) *. 0 >=. interpAt zD.prof zD.prof.ext 0 (z0 + 1/2)) = false := by
    rw [hcur]
    simp only [real_mul, real_add, ge, real_le, decide_eq_false_iff_not, not_le]
    rw [show e * zR * (e * zR) + 0 * 0 = e ^ 2 * zR ^ 2 by ring, he, one_mul]
    norm_num [zR]
  rw [if_neg (by rw [hge]; simp), if_neg (by rw [hns]; simp), hr]
  have hrd : reflectDir (⟨e * zs, 0, zc⟩ : V3 ℝ) ⟨e, 0, 0⟩ zs = ⟨(-e) * zs, 0, zc⟩ := by
    simp only [reflectDir, real_mul, real_sub, real_lit, e2, mul_zero, sub_zero]
    rw [vnorm_unit _ (by unfold dot; nlinarith [zUnit])]
    congr 1
    ring
  simp only [Out.bind_ok, afterReflect, if_true, hrd, dist3_gap]
  rfl

theorem z_cap : launchCap zD ⟨0, 0, 0⟩ = some (0, 0) := by
  have hv : launchExt zD.prof 0 = 1500/999999 :=
    (launchExt_value (p := zD.prof) zGrid (le_refl _) (by simp [zD, zProf])).unique (p := zD.prof) zGrid
      ⟨0, by simp [zD, zProf], by simp [zD, zProf], by simp [zD, zProf], by simp [zD, zProf, linAt]⟩
  have hN : ¬ launchCap zD ⟨0, 0, 0⟩ = none := by
    rw [launchCap_none (by simp [zD]) (by simp only [hv]; norm_num)]
    rw [hv]
    simp only [Outside, zD, show ((1:ℤ) ≤ 3) from by norm_num, if_true, not_lt]
    norm_num
  obtain ⟨qr, hq⟩ := Option.ne_none_iff_exists'.mp hN
  rcases launchCap_some hq with ⟨-, h⟩ | ⟨h, -⟩
  · rw [hq, h]
  · exact absurd nShells_one h

theorem z_open : startsInWall zD (0, 0) ⟨0, 0, 0⟩ = false := by
  rw [← Bool.not_eq_true, startsInWall_iff (D := zD) zGrid (by simp [zD]) (c := ⟨0, 0, 0⟩) (le_refl _) (by simp [zD, zProf]) (R := 1500/999999) (rad := zR)
    ⟨0, by simp [zD, zProf], by simp [zD, zProf], by simp [zD, zProf], by simp [zD, zProf, linAt]⟩
    ⟨0, by simp [zD, zProf], by simp [zD, zProf], by simp [zD, zProf], by simp [zD, zProf, linAt]⟩ z_cap]
  simp only [InGlass, zD, show ((1:ℤ) ≤ 3) from by norm_num, if_true, not_lt]
  norm_num [zR]

/-- length of the trajectory up to the second reflection -/
noncomputable def zLen : ℝ := gap ⟨zR, 0, 1/2⟩ ⟨0, 0, 0⟩ + gap ⟨-zR, 0, 3/2⟩ ⟨zR, 0, 1/2⟩

theorem zLen_pos : 0 < zLen := by
  have h : 0 < gap ⟨zR, 0, 1/2⟩ ⟨0, 0, 0⟩ := by
    unfold gap; apply Real.sqrt_pos.mpr; norm_num [zR]
  have := gap_nonneg ⟨-zR, 0, 3/2⟩ ⟨zR, 0, 1/2⟩
  unfold zLen; linarith

/-- The launch: return value 1, full weight, two reflections, and the photon is halfway down the tube. -/
theorem z_launch (fuel k : Nat) (P : Photon ℝ) (hC : P.startC = ⟨0, 0, 0⟩) (hD : P.startD = ⟨zs, 0, zc⟩) :
    ∃ P', launch zLib (some zD) false fuel (k + 1) (some P) (some [10]) true = .ok (1, .filled [1], some P') ∧
      P'.startC = ⟨0, 0, 0⟩ ∧ P'.startD = ⟨zs, 0, zc⟩ ∧ P'.exitC = ⟨-zR, 0, 3/2⟩ ∧ P'.exitD = ⟨zs, 0, zc⟩ ∧ P'.i_refl = 2 ∧
      P'.d_travel = P.d_travel + zLen := by
  have hu : vnorm (⟨zs, 0, zc⟩ : V3 ℝ) = ⟨zs, 0, zc⟩ := vnorm_unit _ (by unfold dot; nlinarith [zUnit])
  have hb : ¬ ArgsBad (some zD) (some P) (some [(10:ℝ)]) true :=
    not_argsBad (by simp) (by intro e he; simp at he; subst he; norm_num)
  obtain ⟨D', P'', es', e1, e2, e3, -, -, -, h'⟩ := launch_valid zLib (some zD) false fuel (k + 1) (some P) (some [(10:ℝ)]) true hb
  injection e1 with e1; injection e2 with e2; injection e3 with e3; subst e1 e2 e3
  rw [h']
  obtain ⟨c1, c2⟩ := z_chan P
  generalize hI : launchInit zLib zD [10] P = Q at c1 c2
  have q1 : Q.startC = ⟨0, 0, 0⟩ := by rw [← hI]; exact hC
  have q2 : Q.startD = ⟨zs, 0, zc⟩ := by rw [← hI]; show vnorm _ = _; rw [hD, hu]
  have q3 : Q.exitC = ⟨0, 0, 0⟩ := by rw [← hI]; exact hC
  have q4 : Q.exitD = ⟨zs, 0, zc⟩ := by rw [← hI]; show vnorm (vnorm _) = _; rw [hD, hu, hu]
  have q5 : Q.i_refl = 0 := by rw [← hI]; rfl
  have q6 : Q.d_travel = P.d_travel := by rw [← hI]; rfl
  unfold launchBody
  simp only [hI, q1, z_cap, z_open, Bool.false_eq_true, if_false]
  unfold launchInside
  have hix : segIdFrom zD.prof.z 0 Q.startC.z (zD.prof.nmax + 1) = 0 := by
    apply segId_zero _ _ _ 1
    · rw [q1]; simp [zD, zProf]
    · intro i h1 h2
      have : i = 1 := by omega
      subst this; rw [q1]; simp [zD, zProf]
  rw [hix, show zD.prof.nmax + 1 = 2 from rfl]
  obtain ⟨E1, t1⟩ := z_trace (e := 1) (z0 := 0) (by norm_num) fuel k Q (by rw [q4, one_mul]) (by rw [q3]; simp) (by rw [q3]; norm_num)
    (by rw [q3]; norm_num) (by norm_num) (by norm_num) c1 c2
  obtain ⟨E2, t2⟩ := z_trace (e := -1) (z0 := 1) (by norm_num) fuel k
    { Q with exitC := ⟨1 * zR, 0, 0 + 1/2⟩, exitD := ⟨(-1) * zs, 0, zc⟩, startD := vnorm Q.startD, exitE := E1, i_refl := Q.i_refl + 1,
             d_travel := Q.d_travel + gap ⟨1 * zR, 0, 0 + 1/2⟩ Q.exitC } rfl
    (by simp only [V3.mk.injEq, and_true]; ring) (by norm_num) (by norm_num) (by norm_num) (by norm_num) c1 c2
  simp only [traceLoop, t1, t2, Out.bind_ok]
  rw [if_neg (by decide), if_neg (by decide)]
  simp only [Out.bind_ok]
  rw [if_neg (by decide), if_neg (by decide)]
  have hlen : gap ⟨1 * zR, 0, 0 + 1/2⟩ Q.exitC + gap ⟨-1 * zR, 0, 1 + 1/2⟩ ⟨1 * zR, 0, 0 + 1/2⟩ = zLen := by
    rw [q3]; unfold zLen; norm_num
  refine ⟨finish { Q with exitC := ⟨-1 * zR, 0, 1 + 1/2⟩, exitD := ⟨(- -1) * zs, 0, zc⟩, startD := vnorm (vnorm Q.startD), exitE := E2, i_refl := Q.i_refl + 1 + 1, d_travel := Q.d_travel + gap ⟨1 * zR, 0, 0 + 1/2⟩ Q.exitC + gap ⟨-1 * zR, 0, 1 + 1/2⟩ ⟨1 * zR, 0, 0 + 1/2⟩ }, ?_, q1, ?_, ?_, ?_, ?_, ?_⟩
  · rw [c1]; rfl
  · show vnorm (vnorm Q.startD) = _
    rw [q2, hu, hu]
  · simp only [finish, V3.mk.injEq, true_and]; constructor <;> norm_num
  · simp only [finish, V3.mk.injEq, and_true, true_and]; ring
  · simp only [finish, q5]; rfl
  · simp only [finish]; rw [q6, add_assoc, hlen]

end Polycap
