import Verif.Props.SegmentProps

/-!
# C19, exactly: the wall search "succeeds" at NaN iff the photon flies parallel to a generator line
-/
namespace Polycap
open CNum

/-- `a = 0`: NaN whatever the other coefficients. -/
theorem segSolve_zero (b c p0z z0 z1 cur : ℝ) :
    segSolve (XR.fin 0) (.fin b) (.fin c) (.fin p0z) (.fin z0) (.fin z1) (.fin cur) = .inr .nan := by
  have e0 : ((0:ℚ):ℝ) = 0 := by norm_num
  have h2 : ((2:ℚ):ℝ) * 0 = 0 := by norm_num
  unfold segSolve
  simp only [xr_mul, xr_sub, xr_lit, xr_lt, xr_beq, mul_zero, zero_mul, sub_zero, e0, h2]
  rw [if_neg (by simpa using mul_self_nonneg b)]
  have nn : (0:ℝ) ≤ b * b := mul_self_nonneg b
  rcases lt_trichotomy b 0 with hb | hb | hb
  · have hne : ¬ (b * b = 0) := (mul_self_pos.mpr hb.ne).ne'
    simp only [hne, decide_false, Bool.false_eq_true, if_false, xr_sqrt _ nn, Real.sqrt_mul_self_eq_abs, abs_of_neg hb, xr_add, xr_sub]
    have h1 : ((-1:ℚ):ℝ) * b + -b = -2 * b := by push_cast; ring
    have h3 : ((-1:ℚ):ℝ) * b - -b = 0 := by push_cast; ring
    rw [h1, h3, xr_div_zero_zero, xr_div_zero _ (by linarith), xr_add_nan]
    have hi : XR.isNeg (-2 * b) = false := by simp [XR.isNeg]; linarith
    rw [hi]
    have hadd : CNum.add (XR.fin p0z) (.inf false) = .inf false := rfl
    have hsub : CNum.sub (XR.inf false) (.fin cur) = .inf false := rfl
    have hgt : CNum.lt (XR.fin z1) (.inf false) = true := rfl
    have hbad : segBad (XR.inf false) (.fin z0) (.fin z1) (.fin cur) = true := by
      simp [segBad, hsub, gt, hgt]
    have hbad' : segBad (XR.nan) (.fin z0) (.fin z1) (.fin cur) = false := by
      simp [segBad, gt]
    rw [hadd, hbad, hbad']
    simp
  · subst hb
    simp [xr_div_zero_zero]
  · have hne : ¬ (b * b = 0) := (mul_self_pos.mpr hb.ne').ne'
    simp only [hne, decide_false, Bool.false_eq_true, if_false, xr_sqrt _ nn, Real.sqrt_mul_self_eq_abs, abs_of_pos hb, xr_add, xr_sub]
    have h1 : ((-1:ℚ):ℝ) * b + b = 0 := by push_cast; ring
    have h3 : ((-1:ℚ):ℝ) * b - b = -2 * b := by push_cast; ring
    rw [h1, h3, xr_div_zero_zero, xr_div_zero _ (by linarith), xr_add_nan]
    have hi : XR.isNeg (-2 * b) = true := by simp [XR.isNeg, hb]
    rw [hi]
    have hadd : CNum.add (XR.fin p0z) (.inf true) = .inf true := rfl
    have hlt : CNum.lt (XR.inf true) (.fin z0) = true := rfl
    have hbad : segBad (XR.inf true) (.fin z0) (.fin z1) (.fin cur) = true := by
      simp [segBad, hlt]
    have hbad' : segBad (XR.nan) (.fin z0) (.fin z1) (.fin cur) = false := by
      simp [segBad, gt]
    rw [hadd, hbad, hbad']
    simp

/-- **C19, exactly.**  For finite admissible inputs and a photon moving downstream, the wall search reports success with undefined
coordinates *iff* the photon's direction relative to the capillary axis has the slope of the capillary wall (it flies parallel to a line
on the wall); a success in any other case has finite coordinates. -/
theorem segment_nan_iff (c0 c1 : V3 ℝ) (r0 r1 : ℝ) (p0 p1 d cur : V3 ℝ) (nrm : V3 XR) (hd : 0 < d.z)
    (hadm : segRejects c0 c1 r0 r1 p0 p1 d = false) :
    (∃ v n, segment (finV c0) (finV c1) (.fin r0) (.fin r1) (finV p0) (finV p1) (finV d) (finV cur) nrm = (1, v, n) ∧ ¬ FinV v) ↔
      genCoeff c0 c1 r0 r1 d = 0 := by
  constructor
  · rintro ⟨v, n, h, hf⟩
    by_contra ha
    exact hf (segment_finite_partial c0 c1 r0 r1 p0 p1 d cur nrm v n hd ha h).1
  · intro ha
    have hp : (vnorm d).z ≠ 0 := (slope_norm d hd).2.2.ne'
    rw [← genCoeff_eq c0 c1 r0 r1 d hd] at ha
    have hz := (segRejects_false.mp hadm).2.2.2.2.2.2.2
    have hc : c1.z - c0.z ≠ 0 := by linarith
    have key : ∀ x : Int × V3 XR × V3 XR, x.1 = 1 → x.2.1 = ⟨.nan, .nan, .nan⟩ →
        ∃ v n, x = (1, v, n) ∧ ¬ FinV v := by
      rintro ⟨a, b, c⟩ h1 h2
      refine ⟨b, c, Prod.ext h1 rfl, ?_⟩
      rintro ⟨w, h⟩
      simp only at h2
      rw [h2] at h
      cases h
    have hs := segSolve_zero (segB c0 c1 r0 r1 p0 (vnorm d) (vsub c1 c0)) (segC c0 r0 p0) p0.z c0.z c1.z cur.z
    change segSolve _ _ _ (finV p0).z (finV c0).z (finV c1).z (finV cur).z = _ at hs
    refine key _ ?_ ?_ <;>
    · unfold segment
      rw [segRejects_fin]
      simp only [hadm, Bool.false_eq_true, if_false, finV_vnorm d hd, finV_vsub, segA_fin c0 c1 r0 r1 _ hp hc,
        segB_fin c0 c1 r0 r1 p0 _ hp hc, segC_fin, ha, hs]
      simp [gt]

/-- Both sides occur for a narrowing capillary (radius 1 → 1/2 over length 10): a photon along its axis is safe, one sliding along the wall
(slope 1/20) is not, wherever it is. -/
example : genCoeff (⟨0, 0, 0⟩ : V3 ℝ) ⟨0, 0, 10⟩ 1 (1/2) ⟨0, 0, 1⟩ ≠ 0 ∧
    genCoeff (⟨0, 0, 0⟩ : V3 ℝ) ⟨0, 0, 10⟩ 1 (1/2) ⟨1, 0, 20⟩ = 0 ∧
    segRejects (⟨0, 0, 0⟩ : V3 ℝ) ⟨0, 0, 10⟩ 1 (1/2) ⟨0, 0, 0⟩ ⟨1/2, 0, 10⟩ ⟨1, 0, 20⟩ = false := by
  refine ⟨by unfold genCoeff; norm_num, by unfold genCoeff; norm_num, ?_⟩
  rw [segRejects_false]; norm_num

end Polycap
