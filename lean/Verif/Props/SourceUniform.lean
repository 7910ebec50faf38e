import Verif.Props.SourcePolar
import Verif.Props.Draws

/-!
# C98: the photons of a source have the distribution asked for
-/
namespace Polycap.Unif
open MeasureTheory Set CNum

/-! ## The point drawn and the ideal point -/

/-- length of the stretched direction -/
noncomputable def len (a b θ : ℝ) : ℝ := Real.sqrt ((b * Real.cos θ) * (b * Real.cos θ) + (a * Real.sin θ) * (a * Real.sin θ))

theorem len_ge (a b m θ : ℝ) (hm : 0 < m) (ha : m ≤ a) (hb : m ≤ b) : m ≤ len a b θ := by
  refine Real.le_sqrt_of_sq_le ?_
  have := Real.sin_sq_add_cos_sq θ
  have h1 : m ^ 2 ≤ a ^ 2 := by nlinarith
  have h2 : m ^ 2 ≤ b ^ 2 := by nlinarith
  nlinarith [sq_nonneg (Real.sin θ), sq_nonneg (Real.cos θ)]

theorem norm_close (x y x' y' : ℝ) :
    Real.sqrt (x * x + y * y) ≤ Real.sqrt (x' * x' + y' * y') + |x - x'| + |y - y'| := by
  have hn := Real.sqrt_nonneg (x' * x' + y' * y')
  have hn2 : Real.sqrt (x' * x' + y' * y') ^ 2 = x' * x' + y' * y' := Real.sq_sqrt (by nlinarith [mul_self_nonneg x', mul_self_nonneg y'])
  set N := Real.sqrt (x' * x' + y' * y') with hN
  have hx : |x'| ≤ N := Real.abs_le_sqrt (by nlinarith [mul_self_nonneg y'])
  have hy : |y'| ≤ N := Real.abs_le_sqrt (by nlinarith [mul_self_nonneg x'])
  refine (Real.sqrt_le_left (by positivity)).2 ?_
  have e1 : |x| ≤ |x'| + |x - x'| := by
    have := abs_add_le x' (x - x')
    rwa [add_sub_cancel] at this
  have e2 : |y| ≤ |y'| + |y - y'| := by
    have := abs_add_le y' (y - y')
    rwa [add_sub_cancel] at this
  have p := abs_nonneg (x - x')
  have q := abs_nonneg (y - y')
  have s1 : x * x ≤ (|x'| + |x - x'|) ^ 2 := by rw [← abs_mul_abs_self x]; nlinarith [abs_nonneg x]
  have s2 : y * y ≤ (|y'| + |y - y'|) ^ 2 := by rw [← abs_mul_abs_self y]; nlinarith [abs_nonneg y]
  have t1 := abs_mul_abs_self x'
  have t2 := abs_mul_abs_self y'
  nlinarith [mul_nonneg p q, mul_le_mul_of_nonneg_right hx p, mul_le_mul_of_nonneg_right hy q,
    mul_nonneg hn p, mul_nonneg hn q]

theorem unit_close (x y x' y' e m : ℝ) (hm : 0 < m) (hx : |x - x'| ≤ e) (hy : |y - y'| ≤ e)
    (hn : m ≤ Real.sqrt (x * x + y * y)) (hn' : m ≤ Real.sqrt (x' * x' + y' * y')) :
    |x / Real.sqrt (x * x + y * y) - x' / Real.sqrt (x' * x' + y' * y')| ≤ 3 * (e / m) ∧
    |y / Real.sqrt (x * x + y * y) - y' / Real.sqrt (x' * x' + y' * y')| ≤ 3 * (e / m) := by
  have c1 := norm_close x y x' y'
  have c2 := norm_close x' y' x y
  rw [abs_sub_comm x' x, abs_sub_comm y' y] at c2
  have bx : |x'| ≤ Real.sqrt (x' * x' + y' * y') := Real.abs_le_sqrt (by nlinarith [mul_self_nonneg y'])
  have by' : |y'| ≤ Real.sqrt (x' * x' + y' * y') := Real.abs_le_sqrt (by nlinarith [mul_self_nonneg x'])
  set N := Real.sqrt (x * x + y * y)
  set N' := Real.sqrt (x' * x' + y' * y')
  have e0 : 0 ≤ e := le_trans (abs_nonneg _) hx
  have hd : |N' - N| ≤ 2 * e := by rw [abs_le]; constructor <;> linarith
  have hN : 0 < N := lt_of_lt_of_le hm hn
  have hN' : 0 < N' := lt_of_lt_of_le hm hn'
  have gen : ∀ z z' : ℝ, |z - z'| ≤ e → |z'| ≤ N' → |z / N - z' / N'| ≤ 3 * (e / m) := by
    intro z z' h1 h2
    have : z / N - z' / N' = (z - z') / N + z' / N' * ((N' - N) / N) := by field_simp; ring
    rw [this]
    refine le_trans (abs_add_le _ _) ?_
    rw [abs_mul, abs_div, abs_div, abs_div, abs_of_pos hN, abs_of_pos hN']
    have a1 : |z - z'| / N ≤ e / m := div_le_div₀ e0 h1 hm hn
    have a2 : |N' - N| / N ≤ 2 * e / m := div_le_div₀ (by positivity) hd hm hn
    have a3 : |z'| / N' ≤ 1 := (div_le_one hN').2 h2
    have a4 : |z'| / N' * (|N' - N| / N) ≤ 1 * (2 * e / m) := mul_le_mul a3 a2 (by positivity) (by norm_num)
    have : 2 * e / m = 2 * (e / m) := by ring
    linarith
  exact ⟨gen x x' hx bx, gen y y' hy by'⟩

/-- the direction of the drawn point barely depends on a small change of angle -/
theorem dir_close (a b θ θ' : ℝ) (ha : 0 < a) (hb : 0 < b) :
    |b * Real.cos θ / len a b θ - b * Real.cos θ' / len a b θ'| ≤ 3 * ((a / b + b / a) * |θ - θ'|) ∧
    |a * Real.sin θ / len a b θ - a * Real.sin θ' / len a b θ'| ≤ 3 * ((a / b + b / a) * |θ - θ'|) := by
  have hc := Real.abs_cos_sub_cos_le θ θ'
  have hs := Real.abs_sin_sub_sin_le θ θ'
  have hm : 0 < min a b := lt_min ha hb
  have hd := abs_nonneg (θ - θ')
  have k1 : |b * Real.cos θ - b * Real.cos θ'| ≤ max a b * |θ - θ'| := by
    rw [← mul_sub, abs_mul, abs_of_pos hb]
    exact mul_le_mul (le_max_right _ _) hc (abs_nonneg _) (le_trans ha.le (le_max_left _ _))
  have k2 : |a * Real.sin θ - a * Real.sin θ'| ≤ max a b * |θ - θ'| := by
    rw [← mul_sub, abs_mul, abs_of_pos ha]
    exact mul_le_mul (le_max_left _ _) hs (abs_nonneg _) (le_trans ha.le (le_max_left _ _))
  obtain ⟨r1, r2⟩ := unit_close _ _ _ _ _ (min a b) hm k1 k2 (len_ge a b _ θ hm (min_le_left _ _) (min_le_right _ _))
    (len_ge a b _ θ' hm (min_le_left _ _) (min_le_right _ _))
  have q : max a b * |θ - θ'| / min a b ≤ (a / b + b / a) * |θ - θ'| := by
    rw [mul_div_right_comm]
    refine mul_le_mul_of_nonneg_right ?_ hd
    have p1 : 0 < a / b := by positivity
    have p2 : 0 < b / a := by positivity
    rcases le_total a b with h | h
    · rw [max_eq_right h, min_eq_left h]; linarith
    · rw [max_eq_left h, min_eq_right h]; linarith
  have q3 : 3 * (max a b * |θ - θ'| / min a b) ≤ 3 * ((a / b + b / a) * |θ - θ'|) := by linarith
  exact ⟨le_trans r1 q3, le_trans r2 q3⟩

/-- the direction drawn in the first quarter -/
theorem dir_first (a b t : ℝ) (ha : 0 < a) (hb : 0 < b) (hc : 0 < Real.cos t) :
    b * Real.cos (Real.arctan (b / a * Real.tan t)) / len a b (Real.arctan (b / a * Real.tan t)) = Real.cos t ∧
    a * Real.sin (Real.arctan (b / a * Real.tan t)) / len a b (Real.arctan (b / a * Real.tan t)) = Real.sin t := by
  have hcφ : 0 < Real.cos (Real.arctan (b / a * Real.tan t)) := Real.cos_arctan_pos _
  have hsφ : Real.sin (Real.arctan (b / a * Real.tan t)) = b / a * Real.tan t * Real.cos (Real.arctan (b / a * Real.tan t)) := by
    have := Real.tan_arctan (b / a * Real.tan t)
    rwa [Real.tan_eq_sin_div_cos, div_eq_iff hcφ.ne'] at this
  generalize Real.arctan (b / a * Real.tan t) = φ at hcφ hsφ ⊢
  have hA : (b * Real.cos φ) * (b * Real.cos φ) + (a * Real.sin φ) * (a * Real.sin φ) = (b * Real.cos φ / Real.cos t) ^ 2 := by
    rw [hsφ, Real.tan_eq_sin_div_cos]
    have := Real.sin_sq_add_cos_sq t
    field_simp
    linarith
  have hL : len a b φ = b * Real.cos φ / Real.cos t := by
    rw [len, hA, Real.sqrt_sq (by positivity)]
  rw [hL]
  constructor
  · field_simp
  · rw [hsφ, Real.tan_eq_sin_div_cos]; field_simp

theorem len_fold (a b φ : ℝ) : len a b (Real.pi - φ) = len a b φ ∧ len a b (Real.pi + φ) = len a b φ ∧ len a b (-φ) = len a b φ := by
  refine ⟨?_, ?_, ?_⟩
  · simp only [len, Real.cos_pi_sub, Real.sin_pi_sub, mul_neg, neg_mul, neg_neg]
  · simp only [len, add_comm Real.pi, Real.cos_add_pi, Real.sin_add_pi, mul_neg, neg_mul, neg_neg]
  · simp only [len, Real.cos_neg, Real.sin_neg, mul_neg, neg_mul, neg_neg]

theorem mpi_close : 0 < Real.pi - mpi ∧ Real.pi - mpi < 1 / 10 ^ 20 := by
  have h1 := Real.pi_gt_d20
  have h2 := Real.pi_lt_d20
  simp only [mpi, real_lit]
  constructor
  · refine sub_pos.2 (lt_of_le_of_lt ?_ h1); norm_num
  · refine sub_lt_iff_lt_add.2 (lt_of_lt_of_le h2 ?_); norm_num

/-- where `polycap_source_get_photon` puts the photon, and the ideal point -/
theorem point_close (S : Src ℝ) (g : GoodSrc S) (r1 r2 r3 : ℝ) (h1 : 0 ≤ r1) (h1' : r1 < 1) (h3' : r3 < 1) :
    |(srcPoint S r1 r2 r3).x - (ideal S.src_x S.src_y S.src_shiftx S.src_shifty (r2, r1, r3)).1| ≤
      S.src_x * (S.src_x / S.src_y + S.src_y / S.src_x) / 10 ^ 19 ∧
    |(srcPoint S r1 r2 r3).y - (ideal S.src_x S.src_y S.src_shiftx S.src_shifty (r2, r1, r3)).2| ≤
      S.src_y * (S.src_x / S.src_y + S.src_y / S.src_x) / 10 ^ 19 := by
  obtain ⟨hp0, hp1⟩ := mpi_close
  have hpi0 : (0:ℝ) < mpi := by simp only [mpi, real_lit]; norm_num
  have hx := g.x
  have hy := g.y
  set a := S.src_x with ha
  set b := S.src_y with hb
  set t : ℝ := mpi / 2 * r1 with ht
  have ht0 : 0 ≤ t := by positivity
  have ht1 : t < Real.pi / 2 := by nlinarith
  have hc : 0 < Real.cos t := Real.cos_pos_of_mem_Ioo ⟨by linarith [Real.pi_pos], ht1⟩
  obtain ⟨d1, d2⟩ := dir_first a b t hx hy hc
  set φ : ℝ := Real.arctan (b / a * Real.tan t) with hφ
  obtain ⟨l1, l2, l3⟩ := len_fold a b φ
  have K : 1 ≤ a / b + b / a := by
    have p1 : 0 < a / b := by positivity
    have p2 : 0 < b / a := by positivity
    rcases le_total a b with h | h
    · have : 1 ≤ b / a := (one_le_div hx).2 h
      linarith
    · have : 1 ≤ a / b := (one_le_div hy).2 h
      linarith
  set Q := a / b + b / a with hQ
  have hq0 := Real.sqrt_nonneg r3
  have hq1 : Real.sqrt r3 ≤ 1 := Real.sqrt_le_one.2 h3'.le
  have harg : (2:ℝ) * mpi * r1 / 4 = t := by rw [ht]; ring
  -- the two coordinates in terms of the angle
  have px : ∀ θ, srcPhi S r1 r2 = θ → (srcPoint S r1 r2 r3).x = S.src_shiftx + a * (Real.sqrt r3 * (b * Real.cos θ / len a b θ)) ∧
      (srcPoint S r1 r2 r3).y = S.src_shifty + b * (Real.sqrt r3 * (a * Real.sin θ / len a b θ)) := by
    intro θ h
    simp only [srcPoint, h, srcMaxRad, real_mul, real_add, real_sqrt, real_cos, real_sin, real_div, len, ← ha, ← hb]
    constructor <;> ring
  have tc : |Real.cos t - Real.cos (Real.pi / 2 * r1)| ≤ 1 / 10 ^ 20 ∧ |Real.sin t - Real.sin (Real.pi / 2 * r1)| ≤ 1 / 10 ^ 20 := by
    have : |t - Real.pi / 2 * r1| ≤ 1 / 10 ^ 20 := by
      rw [ht, abs_le]; constructor <;> nlinarith
    exact ⟨le_trans (Real.abs_cos_sub_cos_le _ _) this, le_trans (Real.abs_sin_sub_sin_le _ _) this⟩
  -- from the directions to the points
  have fin : ∀ (k s v w : ℝ), 0 < k → |v - w| ≤ Q / 10 ^ 19 →
      |s + k * (Real.sqrt r3 * v) - (s + k * (Real.sqrt r3 * w))| ≤ k * Q / 10 ^ 19 := by
    intro k s v w hk h
    rw [show s + k * (Real.sqrt r3 * v) - (s + k * (Real.sqrt r3 * w)) = k * (Real.sqrt r3 * (v - w)) by ring, abs_mul, abs_mul,
      abs_of_pos hk, abs_of_nonneg hq0, mul_div_assoc]
    refine mul_le_mul_of_nonneg_left ?_ hk.le
    calc Real.sqrt r3 * |v - w| ≤ 1 * |v - w| := mul_le_mul_of_nonneg_right hq1 (abs_nonneg _)
      _ ≤ Q / 10 ^ 19 := by rw [one_mul]; exact h
  have small : ∀ v w x : ℝ, |v - w| ≤ 3 * (Q * (Real.pi - mpi)) → |w - x| ≤ 1 / 10 ^ 20 → |v - x| ≤ Q / 10 ^ 19 := by
    intro v w x h1 h2
    have := abs_add_le (v - w) (w - x)
    rw [sub_add_sub_cancel] at this
    have : Q * (Real.pi - mpi) ≤ Q * (1 / 10 ^ 20) := mul_le_mul_of_nonneg_left hp1.le (by linarith)
    linarith
  have same : ∀ v : ℝ, |v - v| ≤ 3 * (Q * (Real.pi - mpi)) := by
    intro v
    rw [sub_self, abs_zero]
    have : 0 ≤ Q * (Real.pi - mpi) := mul_nonneg (by linarith) hp0.le
    linarith
  have nx : ∀ v w e : ℝ, |v - w| ≤ e → |-v - -w| ≤ e := by
    intro v w e h
    rwa [show -v - -w = -(v - w) by ring, abs_neg]
  simp only [ideal]
  split_ifs with c1 c2 c3
  · have hθ : srcPhi S r1 r2 = φ := by
      simp only [srcPhi, real_div, real_mul, real_sub, real_add, real_lit, real_atan, real_tan, real_lt, real_le, ge, Bool.and_eq_true, decide_eq_true_eq]
      push_cast
      rw [if_neg (by linarith), if_neg (by rintro ⟨a, _⟩; linarith), if_neg (by rintro ⟨a, _⟩; linarith), harg]
    obtain ⟨e1, e2⟩ := px _ hθ
    rw [e1, e2, d1, d2]
    exact ⟨fin _ _ _ _ hx (small _ _ _ (same _) tc.1), fin _ _ _ _ hy (small _ _ _ (same _) tc.2)⟩
  · push Not at c1
    have hθ : srcPhi S r1 r2 = mpi - φ := by
      simp only [srcPhi, real_div, real_mul, real_sub, real_add, real_lit, real_atan, real_tan, real_lt, real_le, ge, Bool.and_eq_true, decide_eq_true_eq]
      push_cast
      rw [if_neg (by linarith), if_neg (by rintro ⟨a, _⟩; linarith), if_pos ⟨c1, c2⟩, harg]
    obtain ⟨e1, e2⟩ := px _ hθ
    obtain ⟨f1, f2⟩ := dir_close a b (mpi - φ) (Real.pi - φ) hx hy
    have hδ : |mpi - φ - (Real.pi - φ)| = Real.pi - mpi := by
      rw [show mpi - φ - (Real.pi - φ) = -(Real.pi - mpi) by ring, abs_neg, abs_of_pos hp0]
    rw [hδ, l1] at f1 f2
    rw [Real.cos_pi_sub, mul_neg, neg_div, d1] at f1
    rw [Real.sin_pi_sub, d2] at f2
    rw [e1, e2]
    have := fin _ S.src_shiftx _ _ hx (small _ _ _ f1 (nx _ _ _ tc.1))
    refine ⟨?_, fin _ _ _ _ hy (small _ _ _ f2 tc.2)⟩
    rw [show (qmap (-a) b S.src_shiftx S.src_shifty (r1, r3)).1 = S.src_shiftx + a * (Real.sqrt r3 * -Real.cos (Real.pi / 2 * r1)) by
      simp only [qmap]; ring]
    exact this
  · push Not at c1 c2
    have hθ : srcPhi S r1 r2 = mpi + φ := by
      simp only [srcPhi, real_div, real_mul, real_sub, real_add, real_lit, real_atan, real_tan, real_lt, real_le, ge, Bool.and_eq_true, decide_eq_true_eq]
      push_cast
      rw [if_neg (by linarith), if_pos ⟨c2, c3⟩, if_neg (by rintro ⟨_, a⟩; linarith), harg]
    obtain ⟨e1, e2⟩ := px _ hθ
    obtain ⟨f1, f2⟩ := dir_close a b (mpi + φ) (Real.pi + φ) hx hy
    have hδ : |mpi + φ - (Real.pi + φ)| = Real.pi - mpi := by
      rw [show mpi + φ - (Real.pi + φ) = -(Real.pi - mpi) by ring, abs_neg, abs_of_pos hp0]
    rw [hδ, l2, add_comm Real.pi φ] at f1 f2
    rw [Real.cos_add_pi, mul_neg, neg_div, d1] at f1
    rw [Real.sin_add_pi, mul_neg, neg_div, d2] at f2
    rw [e1, e2]
    have q1 := fin _ S.src_shiftx _ _ hx (small _ _ _ f1 (nx _ _ _ tc.1))
    have q2 := fin _ S.src_shifty _ _ hy (small _ _ _ f2 (nx _ _ _ tc.2))
    rw [show (qmap (-a) (-b) S.src_shiftx S.src_shifty (r1, r3)).1 = S.src_shiftx + a * (Real.sqrt r3 * -Real.cos (Real.pi / 2 * r1)) by
        simp only [qmap]; ring,
      show (qmap (-a) (-b) S.src_shiftx S.src_shifty (r1, r3)).2 = S.src_shifty + b * (Real.sqrt r3 * -Real.sin (Real.pi / 2 * r1)) by
        simp only [qmap]; ring]
    exact ⟨q1, q2⟩
  · push Not at c1 c2 c3
    have hθ : srcPhi S r1 r2 = -φ := by
      simp only [srcPhi, real_div, real_mul, real_sub, real_add, real_lit, real_atan, real_tan, real_lt, real_le, ge, Bool.and_eq_true, decide_eq_true_eq]
      push_cast
      rw [if_pos c3, if_neg (by rintro ⟨_, a⟩; linarith), if_neg (by rintro ⟨_, a⟩; linarith), harg]
      ring
    obtain ⟨e1, e2⟩ := px _ hθ
    rw [e1, e2, l3, Real.cos_neg, Real.sin_neg, mul_neg, neg_div, d1, d2]
    have q2 := fin _ S.src_shifty _ _ hy (small _ _ _ (same _) (nx _ _ _ tc.2))
    rw [show (qmap a (-b) S.src_shiftx S.src_shifty (r1, r3)).2 = S.src_shifty + b * (Real.sqrt r3 * -Real.sin (Real.pi / 2 * r1)) by
        simp only [qmap]; ring]
    exact ⟨fin _ _ _ _ hx (small _ _ _ (same _) tc.1), q2⟩

end Polycap.Unif
