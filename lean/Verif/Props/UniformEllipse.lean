import Mathlib.MeasureTheory.Function.Jacobian
import Mathlib.Analysis.SpecialFunctions.PolarCoord
import Mathlib.Analysis.SpecialFunctions.Sqrt
import Mathlib.Probability.ConditionalProbability

/-!
# C98, mathematics: sampling an ellipse

The map from two independent uniform numbers to a quarter of an ellipse that `polycap_source_get_photon`
(polycap-source.c:53-71) uses has a constant Jacobian, so the quarter is covered uniformly.
-/
namespace Polycap.Unif
open MeasureTheory Set

/-- a point of the quarter of the ellipse with half axes `a`, `b` (signs choose the quarter) around `(c, d)` -/
noncomputable def qmap (a b c d : ℝ) (p : ℝ × ℝ) : ℝ × ℝ :=
  (c + a * (Real.sqrt p.2 * Real.cos (Real.pi / 2 * p.1)), d + b * (Real.sqrt p.2 * Real.sin (Real.pi / 2 * p.1)))

/-- the open quarter of the ellipse -/
def quarter (a b c d : ℝ) : Set (ℝ × ℝ) :=
  {p | 0 < (p.1 - c) / a ∧ 0 < (p.2 - d) / b ∧ ((p.1 - c) / a) ^ 2 + ((p.2 - d) / b) ^ 2 < 1}

noncomputable def qderiv (a b : ℝ) (p : ℝ × ℝ) : ℝ × ℝ →L[ℝ] ℝ × ℝ :=
  (Matrix.toLin (.finTwoProd ℝ) (.finTwoProd ℝ)
    !![a * (Real.sqrt p.2 * (-Real.sin (Real.pi / 2 * p.1) * (Real.pi / 2))), a * (1 / (2 * Real.sqrt p.2) * Real.cos (Real.pi / 2 * p.1));
       b * (Real.sqrt p.2 * (Real.cos (Real.pi / 2 * p.1) * (Real.pi / 2))), b * (1 / (2 * Real.sqrt p.2) * Real.sin (Real.pi / 2 * p.1))]).toContinuousLinearMap

theorem qderiv_det (a b : ℝ) (p : ℝ × ℝ) (h : 0 < p.2) : (qderiv a b p).det = -(a * b * (Real.pi / 4)) := by
  unfold qderiv
  simp only [LinearMap.det_toContinuousLinearMap, LinearMap.det_toLin, Matrix.det_fin_two_of]
  have hs : Real.sqrt p.2 ≠ 0 := (Real.sqrt_pos.2 h).ne'
  have := Real.sin_sq_add_cos_sq (Real.pi / 2 * p.1)
  generalize Real.pi / 2 * p.1 = t at *
  field_simp
  linear_combination (-4 * a * b) * this

theorem qmap_deriv (a b c d : ℝ) (p : ℝ × ℝ) (h : 0 < p.2) : HasFDerivAt (qmap a b c d) (qderiv a b p) p := by
  have hs : HasFDerivAt (fun p : ℝ × ℝ => Real.sqrt p.2) ((1 / (2 * Real.sqrt p.2)) • ContinuousLinearMap.snd ℝ ℝ ℝ) p :=
    (Real.hasDerivAt_sqrt h.ne').comp_hasFDerivAt p hasFDerivAt_snd
  have hl : HasFDerivAt (fun p : ℝ × ℝ => Real.pi / 2 * p.1) ((Real.pi / 2) • ContinuousLinearMap.fst ℝ ℝ ℝ) p :=
    hasFDerivAt_fst.const_mul _
  have hc : HasFDerivAt (fun p : ℝ × ℝ => Real.cos (Real.pi / 2 * p.1)) _ p := (Real.hasDerivAt_cos _).comp_hasFDerivAt p hl
  have hn : HasFDerivAt (fun p : ℝ × ℝ => Real.sin (Real.pi / 2 * p.1)) _ p := (Real.hasDerivAt_sin _).comp_hasFDerivAt p hl
  unfold qderiv
  rw [Matrix.toLin_finTwoProd_toContinuousLinearMap]
  have := (((hs.mul hc).const_mul a).const_add c).prodMk (((hs.mul hn).const_mul b).const_add d)
  refine this.congr_fderiv ?_
  refine ContinuousLinearMap.ext fun x => ?_
  simp only [ContinuousLinearMap.prod_apply, add_apply, smul_apply,
    ContinuousLinearMap.coe_fst', ContinuousLinearMap.coe_snd', smul_eq_mul, Prod.mk.injEq]
  constructor <;> ring

theorem qmap_inj (a b c d : ℝ) (ha : a ≠ 0) (hb : b ≠ 0) : InjOn (qmap a b c d) (Ioo 0 1 ×ˢ Ioo 0 1) := by
  rintro ⟨x, r⟩ ⟨⟨x0, x1⟩, r0, r1⟩ ⟨y, s⟩ ⟨⟨y0, y1⟩, s0, s1⟩ h
  simp only at x0 x1 y0 y1 r0 r1 s0 s1
  have hpi := Real.pi_pos
  simp only [qmap, Prod.mk.injEq, add_right_inj, mul_right_inj' ha, mul_right_inj' hb] at h
  obtain ⟨h1, h2⟩ := h
  have hr := Real.sq_sqrt r0.le
  have hs := Real.sq_sqrt s0.le
  have t1 := Real.sin_sq_add_cos_sq (Real.pi / 2 * x)
  have t2 := Real.sin_sq_add_cos_sq (Real.pi / 2 * y)
  have hrs : r = s := by
    have e : (Real.sqrt r * Real.cos (Real.pi / 2 * x)) ^ 2 + (Real.sqrt r * Real.sin (Real.pi / 2 * x)) ^ 2 =
        (Real.sqrt s * Real.cos (Real.pi / 2 * y)) ^ 2 + (Real.sqrt s * Real.sin (Real.pi / 2 * y)) ^ 2 := by rw [h1, h2]
    calc r = r * (Real.sin (Real.pi / 2 * x) ^ 2 + Real.cos (Real.pi / 2 * x) ^ 2) := by rw [t1, mul_one]
      _ = s * (Real.sin (Real.pi / 2 * y) ^ 2 + Real.cos (Real.pi / 2 * y) ^ 2) := by
          rw [← hr, ← hs]; linear_combination e
      _ = s := by rw [t2, mul_one]
  subst hrs
  have hq : Real.sqrt r ≠ 0 := (Real.sqrt_pos.2 r0).ne'
  have hc := mul_left_cancel₀ hq h1
  have := Real.injOn_cos ⟨by positivity, by nlinarith⟩ ⟨by positivity, by nlinarith⟩ hc
  have hxy : x = y := mul_left_cancel₀ (by positivity : Real.pi / 2 ≠ 0) this
  rw [hxy]

theorem qmap_image (a b c d : ℝ) (ha : a ≠ 0) (hb : b ≠ 0) :
    qmap a b c d '' (Ioo 0 1 ×ˢ Ioo 0 1) = quarter a b c d := by
  have hpi := Real.pi_pos
  ext ⟨X, Y⟩
  constructor
  · rintro ⟨⟨x, r⟩, ⟨⟨x0, x1⟩, r0, r1⟩, h⟩
    simp only at x0 x1 r0 r1
    simp only [qmap, Prod.mk.injEq] at h
    obtain ⟨rfl, rfl⟩ := h
    have hq := Real.sqrt_pos.2 r0
    have hc : 0 < Real.cos (Real.pi / 2 * x) := Real.cos_pos_of_mem_Ioo ⟨by nlinarith, by nlinarith⟩
    have hs : 0 < Real.sin (Real.pi / 2 * x) := Real.sin_pos_of_pos_of_lt_pi (by positivity) (by nlinarith)
    have t1 := Real.sin_sq_add_cos_sq (Real.pi / 2 * x)
    simp only [quarter, mem_ofPred_eq, add_sub_cancel_left, mul_div_cancel_left₀ _ ha, mul_div_cancel_left₀ _ hb]
    refine ⟨by positivity, by positivity, ?_⟩
    rw [mul_pow, mul_pow, Real.sq_sqrt r0.le]
    nlinarith
  · rintro ⟨hx, hy, h⟩
    simp only at hx hy h
    set p := (X - c) / a with hp
    set q := (Y - d) / b with hq
    have hr : 0 < p ^ 2 + q ^ 2 := by positivity
    set ρ := Real.sqrt (p ^ 2 + q ^ 2) with hρ
    have hρ0 : 0 < ρ := Real.sqrt_pos.2 hr
    have hρ2 : ρ ^ 2 = p ^ 2 + q ^ 2 := Real.sq_sqrt hr.le
    have hpρ : p / ρ < 1 := by
      rw [div_lt_one hρ0]
      nlinarith [sq_pos_of_pos hy]
    refine ⟨(2 / Real.pi * Real.arccos (p / ρ), p ^ 2 + q ^ 2), ⟨⟨?_, ?_⟩, hr, h⟩, ?_⟩
    · have : 0 < Real.arccos (p / ρ) := Real.arccos_pos.2 hpρ
      positivity
    · have : Real.arccos (p / ρ) < Real.pi / 2 := Real.arccos_lt_pi_div_two.2 (by positivity)
      simp only
      rw [div_mul_eq_mul_div, div_lt_one hpi]
      linarith
    · have e : Real.pi / 2 * (2 / Real.pi * Real.arccos (p / ρ)) = Real.arccos (p / ρ) := by field_simp
      have hsin : Real.sin (Real.arccos (p / ρ)) = q / ρ := by
        rw [Real.sin_arccos, show (1:ℝ) - (p / ρ) ^ 2 = (q / ρ) ^ 2 by field_simp; linarith,
          Real.sqrt_sq (by positivity)]
      simp only [qmap, e, Real.cos_arccos (by have : (0:ℝ) ≤ p / ρ := by positivity
                                              linarith) hpρ.le, hsin, Prod.mk.injEq]
      rw [← hρ, mul_div_cancel₀ _ hρ0.ne', mul_div_cancel₀ _ hρ0.ne', hp, hq]
      constructor <;> field_simp <;> ring

/-- the quarter is covered uniformly -/
theorem quarter_uniform (a b c d : ℝ) (ha : a ≠ 0) (hb : b ≠ 0) (T : Set (ℝ × ℝ)) (hT : MeasurableSet T) :
    volume (T ∩ quarter a b c d) =
      ENNReal.ofReal (|a * b| * (Real.pi / 4)) * volume ((Ioo 0 1 ×ˢ Ioo 0 1) ∩ qmap a b c d ⁻¹' T) := by
  have hS : MeasurableSet (Ioo (0:ℝ) 1 ×ˢ Ioo (0:ℝ) 1) := measurableSet_Ioo.prod measurableSet_Ioo
  have key := lintegral_image_eq_lintegral_abs_det_fderiv_mul (volume : Measure (ℝ × ℝ)) hS
    (fun x hx => (qmap_deriv a b c d x hx.2.1).hasFDerivWithinAt) (qmap_inj a b c d ha hb) (T.indicator 1)
  have hmeas : Measurable (qmap a b c d) := by
    unfold qmap; fun_prop
  rw [qmap_image a b c d ha hb, lintegral_indicator_one hT, Measure.restrict_apply hT] at key
  rw [key, setLIntegral_congr_fun (g := fun x => ENNReal.ofReal (|a * b| * (Real.pi / 4)) * (qmap a b c d ⁻¹' T).indicator 1 x) hS]
  · rw [lintegral_const_mul _ (measurable_one.indicator (hmeas hT)), lintegral_indicator_one (hmeas hT),
      Measure.restrict_apply (hmeas hT), inter_comm]
  · intro x hx
    have hpi := Real.pi_pos
    simp only [qderiv_det a b x hx.2.1, abs_neg, abs_mul, abs_of_pos (show (0:ℝ) < Real.pi / 4 by positivity)]
    rfl

/-! ## The four quarters -/

/-- a number drawn uniformly from `[0, 1)` -/
noncomputable def unif : Measure ℝ := volume.restrict (Ico 0 1)

theorem unif_Ioo : unif = volume.restrict (Ioo 0 1) := Measure.restrict_congr_set Ioo_ae_eq_Ico.symm

instance : IsProbabilityMeasure unif := ⟨by simp [unif]⟩

/-- the (open) filled ellipse with half axes `a`, `b` around `(c, d)` -/
def ellipse (a b c d : ℝ) : Set (ℝ × ℝ) := {p | ((p.1 - c) / a) ^ 2 + ((p.2 - d) / b) ^ 2 < 1}

/-- the point drawn with the numbers `(r2, r1, r3)`: `r2` chooses the quarter -/
noncomputable def ideal (a b c d : ℝ) (w : ℝ × ℝ × ℝ) : ℝ × ℝ :=
  if w.1 < 1 / 4 then qmap a b c d w.2
  else if w.1 < 1 / 2 then qmap (-a) b c d w.2
  else if w.1 < 3 / 4 then qmap (-a) (-b) c d w.2
  else qmap a (-b) c d w.2

theorem qmap_meas (a b c d : ℝ) : Measurable (qmap a b c d) := by unfold qmap; fun_prop

theorem ideal_meas (a b c d : ℝ) : Measurable (ideal a b c d) := by
  have h : ∀ x : ℝ, MeasurableSet {w : ℝ × ℝ × ℝ | w.1 < x} := fun x => measurable_fst measurableSet_Iio
  have q : ∀ a b, Measurable fun w : ℝ × ℝ × ℝ => qmap a b c d w.2 := fun a b => (qmap_meas a b c d).comp measurable_snd
  exact Measurable.ite (h _) (q _ _) (Measurable.ite (h _) (q _ _) (Measurable.ite (h _) (q _ _) (q _ _)))

theorem square_apply (a b c d : ℝ) (T : Set (ℝ × ℝ)) (hT : MeasurableSet T) :
    (unif.prod unif) (qmap a b c d ⁻¹' T) = volume ((Ioo 0 1 ×ˢ Ioo 0 1) ∩ qmap a b c d ⁻¹' T) := by
  rw [unif_Ioo, Measure.prod_restrict, Measure.restrict_apply (qmap_meas a b c d hT), inter_comm]
  rfl

theorem off_axes (c d : ℝ) : ∀ᵐ p : ℝ × ℝ, p.1 ≠ c ∧ p.2 ≠ d := by
  rw [MeasureTheory.ae_iff]
  have h : {p : ℝ × ℝ | ¬ (p.1 ≠ c ∧ p.2 ≠ d)} ⊆ ({c} ×ˢ univ) ∪ (univ ×ˢ {d}) := by
    rintro ⟨x, y⟩ h
    simp only [mem_ofPred_eq] at h
    by_cases hx : x = c
    · left; simp [hx]
    · right
      have : y = d := by by_contra hy; exact h ⟨hx, hy⟩
      simp [this]
  refine measure_mono_null h (measure_union_null ?_ ?_)
  · rw [Measure.volume_eq_prod, Measure.prod_prod]; simp
  · rw [Measure.volume_eq_prod, Measure.prod_prod]; simp

theorem ellipse_quarters (a b c d : ℝ) (ha : 0 < a) (hb : 0 < b) :
    ellipse a b c d =ᵐ[volume]
      (quarter a b c d ∪ (quarter (-a) b c d ∪ (quarter (-a) (-b) c d ∪ quarter a (-b) c d)) : Set (ℝ × ℝ)) := by
  refine Filter.eventuallyEq_set.2 ?_
  filter_upwards [off_axes c d] with p hp
  obtain ⟨h1, h2⟩ := hp
  simp only [ellipse, quarter, mem_union, mem_ofPred_eq, div_neg, neg_sq, Left.neg_pos_iff]
  have e1 : (p.1 - c) / a ≠ 0 := div_ne_zero (sub_ne_zero.2 h1) ha.ne'
  have e2 : (p.2 - d) / b ≠ 0 := div_ne_zero (sub_ne_zero.2 h2) hb.ne'
  rcases lt_or_gt_of_ne e1 with f1 | f1 <;> rcases lt_or_gt_of_ne e2 with f2 | f2 <;>
    simp [f1, f2, f1.not_gt, f2.not_gt]

theorem quarter_meas (a b c d : ℝ) : MeasurableSet (quarter a b c d) := by
  have m1 : Measurable fun p : ℝ × ℝ => (p.1 - c) / a := by fun_prop
  have m2 : Measurable fun p : ℝ × ℝ => (p.2 - d) / b := by fun_prop
  have m3 : Measurable fun p : ℝ × ℝ => ((p.1 - c) / a) ^ 2 + ((p.2 - d) / b) ^ 2 := by fun_prop
  exact (measurableSet_lt measurable_const m1).inter ((measurableSet_lt measurable_const m2).inter (measurableSet_lt m3 measurable_const))

theorem inter_ellipse (a b c d : ℝ) (ha : 0 < a) (hb : 0 < b) (T : Set (ℝ × ℝ)) (hT : MeasurableSet T) :
    volume (ellipse a b c d ∩ T) = volume (T ∩ quarter a b c d) + (volume (T ∩ quarter (-a) b c d) +
      (volume (T ∩ quarter (-a) (-b) c d) + volume (T ∩ quarter a (-b) c d))) := by
  rw [measure_congr ((ellipse_quarters a b c d ha hb).inter (Filter.EventuallyEq.refl _ T)), inter_comm, inter_union_distrib_left,
    inter_union_distrib_left, inter_union_distrib_left, measure_union, measure_union, measure_union]
  · refine Disjoint.mono inter_subset_right inter_subset_right (disjoint_left.2 ?_)
    intro p h1 h2
    have := h1.1; have := h2.1
    simp only [div_neg] at *
    linarith
  · exact hT.inter (quarter_meas _ _ _ _)
  · refine Disjoint.mono inter_subset_right (union_subset_union inter_subset_right inter_subset_right) (disjoint_left.2 ?_)
    rintro p h1 (h2 | h2)
    · have := h1.2.1; have := h2.2.1
      simp only [div_neg] at *
      linarith
    · have := h1.1; have := h2.1
      simp only [div_neg] at *
      linarith
  · exact (hT.inter (quarter_meas _ _ _ _)).union (hT.inter (quarter_meas _ _ _ _))
  · refine Disjoint.mono inter_subset_right (union_subset_union inter_subset_right (union_subset_union inter_subset_right inter_subset_right)) (disjoint_left.2 ?_)
    rintro p h1 (h2 | h2 | h2)
    · have := h1.1; have := h2.1
      simp only [div_neg] at *
      linarith
    · have := h1.1; have := h2.1
      simp only [div_neg] at *
      linarith
    · have := h1.2.1; have := h2.2.1
      simp only [div_neg] at *
      linarith
  · exact (hT.inter (quarter_meas _ _ _ _)).union ((hT.inter (quarter_meas _ _ _ _)).union (hT.inter (quarter_meas _ _ _ _)))

theorem unif_part (s : Set ℝ) (x y : ℝ) (h : Ico 0 1 ∩ s = Ico x y) (e : y - x = 1 / 4) (hs : MeasurableSet s) : unif s = ENNReal.ofReal (1 / 4) := by
  rw [unif, Measure.restrict_apply hs, inter_comm, h, Real.volume_Ico, e]

/-- how often the point falls into `T` -/
theorem ideal_apply (a b c d : ℝ) (ha : 0 < a) (hb : 0 < b) (T : Set (ℝ × ℝ)) (hT : MeasurableSet T) :
    ENNReal.ofReal (a * b * Real.pi) * (unif.prod (unif.prod unif)) (ideal a b c d ⁻¹' T) = volume (ellipse a b c d ∩ T) := by
  have hs : ideal a b c d ⁻¹' T = (Iio (1/4) ×ˢ (qmap a b c d ⁻¹' T)) ∪ ((Ico (1/4) (1/2) ×ˢ (qmap (-a) b c d ⁻¹' T)) ∪
      ((Ico (1/2) (3/4) ×ˢ (qmap (-a) (-b) c d ⁻¹' T)) ∪ (Ici (3/4) ×ˢ (qmap a (-b) c d ⁻¹' T)))) := by
    ext ⟨r, p⟩
    simp only [mem_preimage, ideal, mem_union, mem_prod, mem_Iio, mem_Ico, mem_Ici]
    split_ifs with h1 h2 h3
    all_goals grind
  have q := fun a b => qmap_meas a b c d hT
  have d1 : ∀ (s t : Set ℝ) (A B : Set (ℝ × ℝ)), Disjoint s t → Disjoint (s ×ˢ A) (t ×ˢ B) := fun s t A B h =>
    disjoint_left.2 fun p h1 h2 => disjoint_left.1 h h1.1 h2.1
  rw [hs, measure_union, measure_union, measure_union, Measure.prod_prod, Measure.prod_prod, Measure.prod_prod, Measure.prod_prod,
    unif_part (Iio (1/4)) 0 (1/4), unif_part (Ico (1/4) (1/2)) (1/4) (1/2), unif_part (Ico (1/2) (3/4)) (1/2) (3/4), unif_part (Ici (3/4)) (3/4) 1,
    square_apply _ _ _ _ T hT, square_apply _ _ _ _ T hT, square_apply _ _ _ _ T hT, square_apply _ _ _ _ T hT,
    inter_ellipse a b c d ha hb T hT, quarter_uniform _ _ _ _ ha.ne' hb.ne' T hT, quarter_uniform _ _ _ _ (neg_ne_zero.2 ha.ne') hb.ne' T hT,
    quarter_uniform _ _ _ _ (neg_ne_zero.2 ha.ne') (neg_ne_zero.2 hb.ne') T hT, quarter_uniform _ _ _ _ ha.ne' (neg_ne_zero.2 hb.ne') T hT]
  · simp only [neg_mul, mul_neg, abs_neg, neg_neg, abs_of_pos (mul_pos ha hb)]
    rw [← mul_add, ← mul_add, ← mul_add, ← mul_add, ← mul_add, ← mul_add, ← mul_assoc, ← ENNReal.ofReal_mul (by positivity)]
    congr 2
    ring
  all_goals first
    | exact measurableSet_Ici.prod (q _ _)
    | exact (measurableSet_Ico.prod (q _ _)).union (measurableSet_Ici.prod (q _ _))
    | exact (measurableSet_Ico.prod (q _ _)).union ((measurableSet_Ico.prod (q _ _)).union (measurableSet_Ici.prod (q _ _)))
    | exact measurableSet_Iio
    | exact measurableSet_Ico
    | exact measurableSet_Ici
    | (ext x; simp only [mem_inter_iff, mem_Ico, mem_Iio, mem_Ici]; constructor <;> intro h <;> (refine ⟨?_, ?_⟩ <;> first | linarith [h.1, h.2] | linarith [h.1.1, h.2] | linarith [h.1.1, h.1.2, h.2.1, h.2.2] | exact ⟨by linarith [h.1, h.2], by linarith [h.1, h.2]⟩))
    | (show (_ : ℝ) - _ = 1 / 4; norm_num)
    | skip
  · refine d1 _ _ _ _ (disjoint_left.2 fun x h1 h2 => ?_)
    simp only [mem_Ico, mem_Ici] at h1 h2; linarith [h1.2]
  · refine disjoint_union_right.2 ⟨d1 _ _ _ _ (disjoint_left.2 fun x h1 h2 => ?_), d1 _ _ _ _ (disjoint_left.2 fun x h1 h2 => ?_)⟩
    · simp only [mem_Ico] at h1 h2; linarith [h1.2, h2.1]
    · simp only [mem_Ico, mem_Ici] at h1 h2; linarith [h1.2]
  · refine disjoint_union_right.2 ⟨d1 _ _ _ _ (disjoint_left.2 fun x h1 h2 => ?_), disjoint_union_right.2
      ⟨d1 _ _ _ _ (disjoint_left.2 fun x h1 h2 => ?_), d1 _ _ _ _ (disjoint_left.2 fun x h1 h2 => ?_)⟩⟩
    · simp only [mem_Iio, mem_Ico] at h1 h2; linarith [h2.1]
    · simp only [mem_Iio, mem_Ico] at h1 h2; linarith [h2.1]
    · simp only [mem_Iio, mem_Ici] at h1 h2; linarith

/-- the area of the ellipse -/
theorem ellipse_area (a b c d : ℝ) (ha : 0 < a) (hb : 0 < b) :
    volume (ellipse a b c d) = ENNReal.ofReal (a * b * Real.pi) := by
  have := ideal_apply a b c d ha hb univ MeasurableSet.univ
  rw [inter_univ, preimage_univ, measure_univ, mul_one] at this
  exact this.symm

/-- the ellipse is covered uniformly -/
theorem ideal_law (a b c d : ℝ) (ha : 0 < a) (hb : 0 < b) :
    (unif.prod (unif.prod unif)).map (ideal a b c d) = ProbabilityTheory.cond volume (ellipse a b c d) := by
  have hpi := Real.pi_pos
  ext T hT
  rw [Measure.map_apply (ideal_meas a b c d) hT, ProbabilityTheory.cond_apply' hT, ← ideal_apply a b c d ha hb T hT,
    ellipse_area a b c d ha hb, ← mul_assoc, ENNReal.inv_mul_cancel, one_mul]
  · simpa using by positivity
  · exact ENNReal.ofReal_ne_top

end Polycap.Unif
