import Verif.Props.SourcePhoton

/-!
# C28: the direction of the photon origin as seen from the centre of the source, in all four quadrants
-/
namespace Polycap
open CNum

/-- seen from the centre of the source, `p` lies in the direction of the angle `θ` -/
def Seen (S : Src ℝ) (p : V3 ℝ) (θ : ℝ) : Prop :=
  ∃ ρ : ℝ, 0 ≤ ρ ∧ p.x = S.src_shiftx + ρ * Real.cos θ ∧ p.y = S.src_shifty + ρ * Real.sin θ

/-- **C28**, the four quadrants: the first number drawn gives the angle `φ` of a point of the quarter ellipse (the one whose
unit-disc preimage has the angle `M_PI/2·r1`), the second the quadrant into which it is put, each for a quarter of the numbers.
Together with `srcPoint_ellipse` (the third number is the squared relative distance) this determines the origin. -/
theorem source_point_quadrants (S : Src ℝ) (g : GoodSrc S) (r1 r2 r3 : ℝ) (h1 : 0 ≤ r1) (h1' : r1 < 1) :
    ∃ φ : ℝ, 0 ≤ φ ∧ φ < Real.pi / 2 ∧
      S.src_x * (Real.sin φ * Real.cos (mpi / 2 * r1)) = S.src_y * (Real.cos φ * Real.sin (mpi / 2 * r1)) ∧
      (r2 < 1 / 4 → Seen S (srcPoint S r1 r2 r3) φ) ∧
      (1 / 4 ≤ r2 → r2 < 1 / 2 → Seen S (srcPoint S r1 r2 r3) (mpi - φ)) ∧
      (1 / 2 ≤ r2 → r2 < 3 / 4 → Seen S (srcPoint S r1 r2 r3) (mpi + φ)) ∧
      (3 / 4 ≤ r2 → Seen S (srcPoint S r1 r2 r3) (-φ)) := by
  have hpi : (mpi : ℝ) < Real.pi := by
    have := Real.pi_gt_d20
    simp only [mpi, real_lit]
    refine lt_of_le_of_lt ?_ this
    norm_num
  have hpi0 : (0:ℝ) < mpi := by simp only [mpi, real_lit]; norm_num
  set t : ℝ := mpi / 2 * r1 with ht
  have ht0 : 0 ≤ t := by positivity
  have ht1 : t < Real.pi / 2 := by nlinarith
  have hc : 0 < Real.cos t := Real.cos_pos_of_mem_Ioo ⟨by linarith [Real.pi_pos], ht1⟩
  have hx := g.x
  have hy := g.y
  have harg : (2:ℝ) * mpi * r1 / 4 = t := by rw [ht]; ring
  have htan : 0 ≤ S.src_y / S.src_x * Real.tan t := by
    refine mul_nonneg (by positivity) ?_
    rw [Real.tan_eq_sin_div_cos]
    exact div_nonneg (Real.sin_nonneg_of_nonneg_of_le_pi ht0 (by linarith [Real.pi_pos])) hc.le
  have seen : ∀ θ, srcPhi S r1 r2 = θ → Seen S (srcPoint S r1 r2 r3) θ := by
    intro θ h
    refine ⟨Real.sqrt r3 * srcMaxRad S θ, ?_, ?_, ?_⟩
    · refine mul_nonneg (Real.sqrt_nonneg _) ?_
      simp only [srcMaxRad, real_mul, real_div, real_sqrt]
      exact div_nonneg (mul_pos hx hy).le (Real.sqrt_nonneg _)
    · simp only [srcPoint, h, real_mul, real_add, real_sqrt, real_cos]; ring
    · simp only [srcPoint, h, real_mul, real_add, real_sqrt, real_sin]; ring
  refine ⟨Real.arctan (S.src_y / S.src_x * Real.tan t), Real.arctan_nonneg.2 htan, Real.arctan_lt_pi_div_two _, ?_, ?_, ?_, ?_, ?_⟩
  · have hcφ := Real.cos_arctan_pos (S.src_y / S.src_x * Real.tan t)
    have := Real.tan_arctan (S.src_y / S.src_x * Real.tan t)
    rw [Real.tan_eq_sin_div_cos, div_eq_iff hcφ.ne'] at this
    rw [this, Real.tan_eq_sin_div_cos]
    field_simp
  · intro h2
    apply seen
    simp only [srcPhi, real_div, real_mul, real_sub, real_add, real_lit, real_atan, real_tan, real_lt, real_le, ge, Bool.and_eq_true, decide_eq_true_eq]
    push_cast
    rw [if_neg (by linarith), if_neg (by rintro ⟨a, _⟩; linarith), if_neg (by rintro ⟨a, _⟩; linarith), harg]
  · intro h2 h3
    apply seen
    simp only [srcPhi, real_div, real_mul, real_sub, real_add, real_lit, real_atan, real_tan, real_lt, real_le, ge, Bool.and_eq_true, decide_eq_true_eq]
    push_cast
    rw [if_neg (by linarith), if_neg (by rintro ⟨a, _⟩; linarith), if_pos ⟨h2, h3⟩, harg]
  · intro h2 h3
    apply seen
    simp only [srcPhi, real_div, real_mul, real_sub, real_add, real_lit, real_atan, real_tan, real_lt, real_le, ge, Bool.and_eq_true, decide_eq_true_eq]
    push_cast
    rw [if_neg (by linarith), if_pos ⟨h2, h3⟩, if_neg (by rintro ⟨_, a⟩; linarith), harg]
  · intro h2
    apply seen
    simp only [srcPhi, real_div, real_mul, real_sub, real_add, real_lit, real_atan, real_tan, real_lt, real_le, ge, Bool.and_eq_true, decide_eq_true_eq]
    push_cast
    rw [if_pos h2, if_neg (by rintro ⟨_, a⟩; linarith), if_neg (by rintro ⟨_, a⟩; linarith), harg]
    ring

/-- the hypotheses are met: a point of the second quadrant -/
example : ∃ φ : ℝ, 0 ≤ φ ∧ φ < Real.pi / 2 ∧ Seen exS (srcPoint exS (1/3) (3/8) (1/2)) (mpi - φ) := by
  obtain ⟨φ, h1, h2, -, -, h3, -⟩ := source_point_quadrants exS exS_good (1/3) (3/8) (1/2) (by norm_num) (by norm_num)
  exact ⟨φ, h1, h2, h3 (by norm_num) (by norm_num)⟩

end Polycap
