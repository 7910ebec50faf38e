import Verif.Props.LaunchNan
import Verif.Props.LaunchProps

/-!
# C89, finding: light coming down perpendicularly on the entrance glass

The plane of reflection of a ray perpendicular to a surface is not determined; the code normalises the vector product of surface normal
and direction, which is 0, and gets NaN.  At `XR`, for any optic, any start point on the entrance glass and any energies: no leak is recorded.
-/
namespace Polycap
open CNum

/-- a direction along the axis, downstream -/
def axial (z : ℝ) : V3 XR := ⟨.fin 0, .fin 0, .fin z⟩

theorem axial_norm {z : ℝ} (h : 0 < z) : vnorm (axial z) = axial 1 := by
  have : Real.sqrt (z * z) = z := Real.sqrt_mul_self h.le
  have h2 : 0 ≤ z * z := mul_self_nonneg z
  simp [vnorm, axial, xr_sqrt _ h2, xr_div _ _ h.ne', this, h.ne']

theorem polar_axial (e density scatf mu : XR) (E ev : V3 XR) :
    (reflPolar e density scatf mu (axial 1) (axial 1) E ev).1 = .nan ∨ (reflPolar e density scatf mu (axial 1) (axial 1) E ev).1 = lit (-1) := by
  have h1 : normIfNot1 (axial 1) = axial 1 := by
    unfold normIfNot1
    split
    · exact axial_norm one_pos
    · rfl
  have h3 : vnorm (cross (axial 1) (axial 1)) = nanV := by simp [cross, axial, vnorm, nanV, xr_sqrt _ le_rfl, xr_div_zero_zero]
  have h4 : ∀ v : V3 XR, scalar v nanV = .nan := by intro v; simp [scalar, nanV]
  unfold reflPolar
  split
  · exact Or.inr rfl
  simp only [h1]
  split
  · exact Or.inr rfl
  · left
    rw [h3]
    simp [h4, reflTot]

theorem energies_axial (D : Descr XR) (alfa : XR) (leak : Bool) (d : XR) : ∀ (cs : List (Chan XR)) (E ev : V3 XR),
    (reflEnergies D (axial 1) (axial 1) alfa leak d cs E ev).leakFlag = false
  | [], E, ev => by simp [reflEnergies]
  | c :: cs, E, ev => by
    unfold reflEnergies
    rcases polar_axial c.e D.density c.scatf c.amu E ev with hr | hr
    · simp only [hr]
      have := energies_axial D alfa leak d cs (reflPolar c.e D.density c.scatf c.amu (axial 1) (axial 1) E ev).2.2
        (reflPolar c.e D.density c.scatf c.amu (axial 1) (axial 1) E ev).2.1
      simp [gt, ge, this, leakWeight]
    · simp only [hr]
      rw [if_pos (by simp [gt])]

/-- a perpendicular reflection records nothing -/
theorem reflect_axial (D : Descr XR) (leak : Bool) (fuel k : Nat) (P : Photon XR) {z : ℝ} (hz : 0 < z) (hD : P.exitD = axial z) (c : Int) (P' : Photon XR)
    (h : reflect D leak fuel k ⟨lit 0, lit 0, lit 1⟩ P = .ok (c, P')) : P'.ext = P.ext ∧ P'.int = P.int := by
  have hn : vnorm (⟨lit 0, lit 0, lit 1⟩ : V3 XR) = axial 1 := by
    have : (⟨lit 0, lit 0, lit 1⟩ : V3 XR) = axial 1 := by simp [axial]
    rw [this, axial_norm one_pos]
  cases k with
  | zero => simp [reflect] at h
  | succ k =>
    unfold reflect reflectBody at h
    simp only [hn, hD, axial_norm hz] at h
    split at h
    · injection h with h; injection h with h1 h2; subst h2; exact ⟨rfl, rfl⟩
    rw [Out.bind_eq_ok] at h
    obtain ⟨w, -, h⟩ := h
    have hd : (renorm leak { P with exitD := axial 1 }).exitD = axial 1 := by
      unfold renorm; cases leak <;> simp [axial_norm one_pos]
    have he : (renorm leak { P with exitD := axial 1 }).ext = P.ext ∧ (renorm leak { P with exitD := axial 1 }).int = P.int := ⟨rfl, rfl⟩
    generalize renorm leak { P with exitD := axial 1 } = Q at hd he h
    unfold reflectRest at h
    split at h
    · injection h with h; injection h with h1 h2; subst h2; exact he
    split at h
    · simp at h
    simp only [hd] at h
    split at h
    · injection h with h; injection h with h1 h2; subst h2; exact he
    rw [if_neg (by rw [energies_axial]; simp)] at h
    injection h with h; injection h with h1 h2; subst h2; exact he

/-- **C89, finding.** A photon flying along the axis that comes down on the glass of the entrance window is reported as such (2), but even with
leak calculation no leak is ever recorded for it – whatever the optic, the place, the energies and the transparency of the glass. -/
theorem front_axial_forgotten (lib : Xray XR) (D : Descr XR) (leak : Bool) (fuel k : Nat) (P : Photon XR) (es : List XR) (wptr : Bool) {z : ℝ} (hz : 0 < z)
    (hD : P.startD = axial z) (hes : es ≠ []) (hb : ∀ e ∈ es, energyBad e = false) (hw : wptr = true) (o : WOut XR) (P' : Photon XR)
    (h : launch lib (some D) leak fuel k (some P) (some es) wptr = .ok (2, o, some P')) : P'.ext = [] ∧ P'.int = [] := by
  have hargs : ¬ ArgsBad (some D) (some P) (some es) wptr := by
    rintro (h | h | h | ⟨es', h, e, he, hbad⟩ | h | h)
    · simp at h
    · simp at h
    · simp at h; exact hes h
    · injection h with h; subst h; rw [hb e he] at hbad; simp at hbad
    · simp [hw] at h
    · simp at h
  obtain ⟨D', P'', es', e1, e2, e3, -, -, -, h'⟩ := launch_valid lib (some D) leak fuel k (some P) (some es) wptr hargs
  injection e1 with e1; injection e2 with e2; injection e3 with e3; subst e1 e2 e3
  rw [h', Out.bind_eq_ok] at h
  obtain ⟨⟨c', o', Q⟩, hx, h⟩ := h
  injection h with h; injection h with h1 h; injection h with h2 h3; injection h3 with h3
  simp only at h1 h2 h3
  subst h2 h3
  cases launchBody_ended _ _ _ _ _ _ _ _ _ _ hx with
  | outside => exact ⟨rfl, rfl⟩
  | glass => exact ⟨rfl, rfl⟩
  | front qr _ _ _ _ x hf =>
    have hd : (launchInit lib D es P).exitD = axial 1 := by
      show vnorm (vnorm P.startD) = _
      rw [hD, axial_norm hz, axial_norm one_pos]
    obtain ⟨a, b⟩ := reflect_axial D leak fuel k _ one_pos hd x.1 x.2 hf
    exact ⟨a, b⟩
  | within qr _ _ _ _ _ w _ c o P' hy =>
    have := (launchWall_codes _ _ _ _ _ _ _ _ _ hy).1
    omega
  | inside qr _ _ c o P' hy =>
    obtain ⟨iesc, ix, Q, -, hc, k1, k2, k3, -⟩ := launchInside_inv _ _ _ _ _ _ _ _ _ hy
    omega

/-- A launch that meets the hypotheses, with leak calculation: the tube with radii 1 and 2, light coming down on the glass at (3/2, 0, 0). -/
example (fuel k : Nat) (P : Photon XR) (hC : P.startC = ⟨.fin (3/2), .fin 0, .fin 0⟩) (hD : P.startD = axial 1) :
    ∃ o P', launch ⟨fun _ _ => .fin 1, fun _ _ => .fin 0, fun _ => .fin 28⟩ (some tube) true fuel (k + 1) (some P) (some [.fin 10]) true =
      .ok (2, o, some P') := by
  have hn : nShells (α := XR) tube.n_cap = 0 := by
    show nShells (α := XR) 1 = 0
    rw [nShells_xr 1 (by norm_num)]; exact (nShells_zero_iff 1 (by norm_num)).mpr (by norm_num)
  have hbad : ([XR.fin 10].isEmpty || [XR.fin 10].any energyBad || !true) = false := by
    simp only [List.any_cons, List.any_nil, energyBad, gt, xr_lt, xr_lit]; norm_num
  unfold launch
  simp only [hbad, Bool.false_eq_true, if_false]
  generalize hQ : launchInit ⟨fun _ _ => .fin 1, fun _ _ => .fin 0, fun _ => .fin 28⟩ tube [.fin 10] P = Q
  have q1 : Q.startC = ⟨.fin (3/2), .fin 0, .fin 0⟩ := by rw [← hQ]; exact hC
  have q2 : Q.exitC = ⟨.fin (3/2), .fin 0, .fin 0⟩ := by rw [← hQ]; exact hC
  have q3 : Q.exitD = axial 1 := by
    rw [← hQ]; show vnorm (vnorm P.startD) = _
    rw [hD, axial_norm one_pos, axial_norm one_pos]
  have q4 : Q.coef = true := by
    rw [← hQ]; show (!scatfRejects tube _) = true
    simp [scatfRejects, tube, energyBad, elemBad, gt]; norm_num
  have h94 : Real.sqrt (3 / 2 * (3 / 2)) = 3 / 2 := Real.sqrt_mul_self (by norm_num)
  have hs94 : CNum.sqrt (XR.fin (3/2) *. .fin (3/2) +. .fin 0 *. .fin 0) = .fin (3/2) := by
    rw [xr_mul, xr_mul, xr_add, xr_sqrt _ (by norm_num), mul_zero, add_zero, h94]
  have hcap : launchCap tube Q.startC = some (0, 0) := by
    unfold launchCap
    have he : launchExt tube.prof (.fin 0) = .fin 2 := by
      simp [launchExt, launchSeg, tube, interpL, gt, xr_div]
    simp only [hn, q1, if_true, he, hs94]
    rw [if_neg]
    simp only [gt, xr_lt]; norm_num
  have hwall : startsInWall tube (0, 0) Q.startC = true := by
    have hx : axX tube (0, 0) 0 = .fin 0 ∧ axY tube (0, 0) 0 = .fin 0 := by
      simp only [axX, axY, hn]
      show _ = _ ∧ _ = _
      simp only [tube, capCentre_xr 0 le_rfl]
      simp [centreX, centreY]
    unfold startsInWall
    simp only [q1, atStart, gt, xr_lit, xr_lt, Rat.cast_zero, lt_irrefl, decide_false, Bool.false_eq_true, if_false, hx.1, hx.2, xr_sub, sub_zero, hs94]
    show CNum.lt (XR.fin 1) (.fin (3/2)) = true
    simp; norm_num
  have hw : ∃ w, traceWall tube fuel Q.exitC (axial 1) = .ok w := by
    unfold traceWall
    simp only [hn, q2, if_true]
    split
    · exact ⟨_, rfl⟩
    split
    · exact ⟨_, rfl⟩
    unfold wallEnd
    split
    · unfold wallExit
      rw [if_neg]
      · exact ⟨_, rfl⟩
      · have hg : atGrid tube.prof ⟨.fin (3/2), .fin 0, .fin 0⟩ (axial 1) tube.prof.nmax = ⟨.fin (3/2), .fin 0, .fin 2⟩ := by
          simp [atGrid, projXY, axial, tube, xr_div]
        rw [hg]
        have h3 : Real.sqrt 3 * Real.sqrt 3 = 3 := Real.mul_self_sqrt (by norm_num)
        have h4 : (13 / 10 : ℝ) < Real.sqrt 3 := Real.lt_sqrt_of_sq_lt (by norm_num)
        have h5 : |(CNum.cospi6 : ℝ) * (3 / 2)| ≤ 13 / 10 := by
          rw [abs_of_nonneg (by have := cospi6_pos; positivity)]
          simp only [CNum.cospi6, real_lit]; norm_num
        show withinPcBoundary (XR.fin 2) (.fin (3/2)) (.fin 0) ≠ 0
        have e1 : CNum.div (XR.fin 2) (.fin 2) = .fin 1 := by rw [xr_div _ _ two_ne_zero]; norm_num
        have e2 : CNum.sqrt (XR.fin 3) = .fin (Real.sqrt 3) := xr_sqrt _ (by norm_num)
        have e3 : (2 : ℝ) * 2 - 1 * 1 = 3 := by norm_num
        simp only [withinPcBoundary, xr_lit, xr_le, Rat.cast_ofNat, Rat.cast_zero, e1, xr_mul, xr_sub, e3, e2, xr_cospi6, xr_add, xr_fabs, gt, xr_lt, mul_zero,
          zero_mul, add_zero, abs_zero, not_lt.mpr (Real.sqrt_nonneg 3), not_lt.mpr (h5.trans h4.le)]
        norm_num
    split
    · exact ⟨_, rfl⟩
    · exact ⟨_, rfl⟩
  obtain ⟨w, hw⟩ := hw
  have hr : ∃ x, reflect tube true fuel (k + 1) ⟨lit 0, lit 0, lit 1⟩ Q = .ok x := by
    have hn : vnorm (⟨lit 0, lit 0, lit 1⟩ : V3 XR) = axial 1 := by
      have : (⟨lit 0, lit 0, lit 1⟩ : V3 XR) = axial 1 := by simp [axial]
      rw [this, axial_norm one_pos]
    unfold reflect reflectBody
    simp only [hn, q3, axial_norm one_pos]
    split
    · exact ⟨_, rfl⟩
    simp only [wallOf, if_true, axial_norm one_pos, hw, Out.bind_ok]
    unfold reflectRest
    split
    · exact ⟨_, rfl⟩
    rw [if_neg (by simp [renorm, q4])]
    simp only [renorm, if_true, axial_norm one_pos, energies_axial]
    split
    · exact ⟨_, rfl⟩
    · exact ⟨_, rfl⟩
  obtain ⟨x, hx⟩ := hr
  refine ⟨.uninit, finish x.2, ?_⟩
  unfold launchBody
  simp only [hQ, hcap, hwall, if_true]
  rw [if_pos (by rw [q1]; simp)]
  simp only [hx, Out.bind_ok]

end Polycap
