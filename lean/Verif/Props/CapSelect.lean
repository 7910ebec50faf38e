import Verif.Geom
import Verif.Props.Validate

/-!
# C16, C17, C48: capillary selection and segment search
-/
namespace Polycap
open CNum

/-! ## Rounding -/

theorem round_err (x : ℝ) : |x - realRoundAway x| ≤ 1 / 2 := by
  unfold realRoundAway
  split
  · have h1 := Int.floor_le (x + 1/2)
    have h2 := Int.lt_floor_add_one (x + 1/2)
    rw [abs_le]; constructor <;> linarith
  · have h1 := Int.floor_le (-x + 1/2)
    have h2 := Int.lt_floor_add_one (-x + 1/2)
    push_cast
    rw [abs_le]; constructor <;> linarith

theorem round_le_int {x : ℝ} {n : ℤ} (h : x ≤ n + 1 / 4) : realRoundAway x ≤ n := by
  by_contra hc
  push Not at hc
  have h1 : (n : ℝ) + 1 ≤ realRoundAway x := by exact_mod_cast hc
  have := abs_le.mp (round_err x)
  linarith

theorem int_le_round {x : ℝ} {n : ℤ} (h : (n : ℝ) - 1 / 4 ≤ x) : n ≤ realRoundAway x := by
  by_contra hc
  push Not at hc
  have h1 : (realRoundAway x : ℝ) + 1 ≤ n := by exact_mod_cast hc
  have := abs_le.mp (round_err x)
  linarith

/-- Everything about one run of the cube rounding that is needed below: with `a = q - q'`,
`b = r - r'` the residuals, `|2a+b|, |a+2b|, |a-b| ≤ 1` (the Voronoi cell), and integer bounds on
the three cube coordinates are kept. -/
theorem cubeRound_facts (q r : ℝ) :
    |2 * (q - (cubeRound q r).1) + (r - (cubeRound q r).2)| ≤ 1 ∧
    |(q - (cubeRound q r).1) + 2 * (r - (cubeRound q r).2)| ≤ 1 ∧
    |(q - (cubeRound q r).1) - (r - (cubeRound q r).2)| ≤ 1 ∧
    (∀ n : ℤ, |q| ≤ n + 1 / 4 → |r| ≤ n + 1 / 4 → |q + r| ≤ n + 1 / 4 →
      |(cubeRound q r).1| ≤ n ∧ |(cubeRound q r).2| ≤ n ∧ |(cubeRound q r).1 + (cubeRound q r).2| ≤ n) := by
  have e1 := round_err q
  have e2 := round_err r
  have e3 := round_err (-1 * q - r)
  have b1 : ∀ n : ℤ, |q| ≤ n + 1 / 4 → |realRoundAway q| ≤ n := fun n h =>
    abs_le.mpr ⟨int_le_round (by push_cast; linarith [(abs_le.mp h).1]), round_le_int (abs_le.mp h).2⟩
  have b2 : ∀ n : ℤ, |r| ≤ n + 1 / 4 → |realRoundAway r| ≤ n := fun n h =>
    abs_le.mpr ⟨int_le_round (by push_cast; linarith [(abs_le.mp h).1]), round_le_int (abs_le.mp h).2⟩
  have b3 : ∀ n : ℤ, |q + r| ≤ n + 1 / 4 → |realRoundAway (-1 * q - r)| ≤ n := fun n h =>
    abs_le.mpr ⟨int_le_round (by push_cast; have := (abs_le.mp h).2; linarith),
      round_le_int (by have := (abs_le.mp h).1; linarith)⟩
  simp only [cubeRound, real_sub, real_mul, real_lit, real_roundI, real_fabs, real_ofInt, gt, real_lt]
  rw [show ((-1 : ℚ) : ℝ) = -1 by norm_num]
  generalize realRoundAway q = rq at *
  generalize realRoundAway r = rr at *
  generalize realRoundAway (-1 * q - r) = rs at *
  -- the sum of the three roundings is -1, 0 or 1
  have hN : rq + rr + rs = 0 ∨ rq + rr + rs = 1 ∨ rq + rr + rs = -1 := by
    have h1 := abs_le.mp e1
    have h2 := abs_le.mp e2
    have h3 := abs_le.mp e3
    have u : ((rq + rr + rs : ℤ) : ℝ) < 2 := by push_cast; linarith
    have l : (-2 : ℝ) < ((rq + rr + rs : ℤ) : ℝ) := by push_cast; linarith
    have u' : rq + rr + rs < 2 := by exact_mod_cast u
    have l' : -2 < rq + rr + rs := by exact_mod_cast l
    omega
  by_cases c1 : |r - rr| < |q - rq| ∧ |-1 * q - r - rs| < |q - rq|
  · simp only [c1.1, c1.2, decide_true, Bool.and_self, if_true]
    obtain ⟨c1a, c1b⟩ := c1
    push_cast
    rcases hN with hN | hN | hN
    · have hq : (rq : ℝ) = -rr - rs := by have : rq = -rr - rs := by omega
                                          exact_mod_cast this
      have hq' : -rr - rs = rq := by omega
      rw [← hq, hq']
      simp only [abs_le, abs_lt] at *
      refine ⟨⟨by linarith, by linarith⟩, ⟨by linarith, by linarith⟩, ⟨by linarith, by linarith⟩, ?_⟩
      intro n h1 h2 h3
      have a1 := b1 n h1; have a2 := b2 n h2; have a3 := b3 n h3
      omega
    all_goals
      have hs : (rs : ℝ) = -rr - rq + (rq + rr + rs : ℤ) := by push_cast; ring
      rw [hN] at hs
      push_cast at hs
      rw [hs] at e3 c1b ⊢
      rw [abs_le] at e1 e2 e3
    · have hqneg : q - rq ≤ 0 := by linarith
      have hrneg : r - rr ≤ 0 := by linarith
      have hsneg : -1 * q - r - (-rr - rq + 1) ≤ 0 := by linarith
      rw [abs_of_nonpos hqneg, abs_of_nonpos hrneg] at c1a
      rw [abs_of_nonpos hqneg, abs_of_nonpos hsneg] at c1b
      simp only [abs_le]
      refine ⟨⟨by linarith, by linarith⟩, ⟨by linarith, by linarith⟩, ⟨by linarith, by linarith⟩, ?_⟩
      intro n h1 h2 h3
      have a1 := b1 n (abs_le.mpr h1); have a2 := b2 n (abs_le.mpr h2); have a3 := b3 n (abs_le.mpr h3)
      rw [abs_le] at a1 a2 a3
      have : -n < rq := by
        by_contra hc
        have : rq = -n := by omega
        rw [this] at c1a c1b e1
        push_cast at *
        linarith [h1.1]
      omega
    · have hqneg : 0 ≤ q - rq := by linarith
      have hrneg : 0 ≤ r - rr := by linarith
      have hsneg : 0 ≤ -1 * q - r - (-rr - rq + -1) := by linarith
      rw [abs_of_nonneg hqneg, abs_of_nonneg hrneg] at c1a
      rw [abs_of_nonneg hqneg, abs_of_nonneg hsneg] at c1b
      simp only [abs_le]
      refine ⟨⟨by linarith, by linarith⟩, ⟨by linarith, by linarith⟩, ⟨by linarith, by linarith⟩, ?_⟩
      intro n h1 h2 h3
      have a1 := b1 n (abs_le.mpr h1); have a2 := b2 n (abs_le.mpr h2); have a3 := b3 n (abs_le.mpr h3)
      rw [abs_le] at a1 a2 a3
      have : rq < n := by
        by_contra hc
        have : rq = n := by omega
        rw [this] at c1a c1b e1
        linarith [h1.2]
      omega
  · have c1' : (decide (|r - rr| < |q - rq|) && decide (|-1 * q - r - rs| < |q - rq|)) = false := by
      simpa [Bool.and_eq_false_iff, not_and_or] using c1
    simp only [c1', Bool.false_eq_true, if_false]
    rw [not_and_or, not_lt, not_lt] at c1
    by_cases c2 : |-1 * q - r - rs| < |r - rr|
    · simp only [c2, decide_true, if_true]
      have c3 : |q - rq| ≤ |r - rr| := by rcases c1 with h | h; exacts [h, h.trans c2.le]
      push_cast
      rcases hN with hN | hN | hN
      · have hq : (rr : ℝ) = -rq - rs := by have : rr = -rq - rs := by omega
                                            exact_mod_cast this
        have hq' : -rq - rs = rr := by omega
        rw [← hq, hq']
        simp only [abs_le] at *
        refine ⟨⟨by linarith, by linarith⟩, ⟨by linarith, by linarith⟩, ⟨by linarith, by linarith⟩, ?_⟩
        intro n h1 h2 h3
        have a1 := b1 n h1; have a2 := b2 n h2; have a3 := b3 n h3
        omega
      all_goals
        have hs : (rs : ℝ) = -rr - rq + (rq + rr + rs : ℤ) := by push_cast; ring
        rw [hN] at hs
        push_cast at hs
        rw [hs] at e3 c2 ⊢
        rw [abs_le] at e1 e2 e3
      · have hqneg : q - rq ≤ 0 := by linarith
        have hrneg : r - rr ≤ 0 := by linarith
        have hsneg : -1 * q - r - (-rr - rq + 1) ≤ 0 := by linarith
        rw [abs_of_nonpos hqneg, abs_of_nonpos hrneg] at c3
        rw [abs_of_nonpos hrneg, abs_of_nonpos hsneg] at c2
        simp only [abs_le]
        refine ⟨⟨by linarith, by linarith⟩, ⟨by linarith, by linarith⟩, ⟨by linarith, by linarith⟩, ?_⟩
        intro n h1 h2 h3
        have a1 := b1 n (abs_le.mpr h1); have a2 := b2 n (abs_le.mpr h2); have a3 := b3 n (abs_le.mpr h3)
        rw [abs_le] at a1 a2 a3
        have : -n < rr := by
          by_contra hc
          have : rr = -n := by omega
          rw [this] at c3 c2 e2
          push_cast at *
          linarith [h2.1]
        omega
      · have hqneg : 0 ≤ q - rq := by linarith
        have hrneg : 0 ≤ r - rr := by linarith
        have hsneg : 0 ≤ -1 * q - r - (-rr - rq + -1) := by linarith
        rw [abs_of_nonneg hqneg, abs_of_nonneg hrneg] at c3
        rw [abs_of_nonneg hrneg, abs_of_nonneg hsneg] at c2
        simp only [abs_le]
        refine ⟨⟨by linarith, by linarith⟩, ⟨by linarith, by linarith⟩, ⟨by linarith, by linarith⟩, ?_⟩
        intro n h1 h2 h3
        have a1 := b1 n (abs_le.mpr h1); have a2 := b2 n (abs_le.mpr h2); have a3 := b3 n (abs_le.mpr h3)
        rw [abs_le] at a1 a2 a3
        have : rr < n := by
          by_contra hc
          have : rr = n := by omega
          rw [this] at c3 c2 e2
          linarith [h2.2]
        omega
    · simp only [c2, decide_false, Bool.false_eq_true, if_false]
      rw [not_lt] at c2
      have c3 : |q - rq| ≤ |-1 * q - r - rs| := by rcases c1 with h | h; exacts [h.trans c2, h]
      rcases hN with hN | hN | hN
      · have hs : (rs : ℝ) = -rr - rq := by have : rs = -rr - rq := by omega
                                            exact_mod_cast this
        rw [hs] at e3
        simp only [abs_le] at *
        refine ⟨⟨by linarith, by linarith⟩, ⟨by linarith, by linarith⟩, ⟨by linarith, by linarith⟩, ?_⟩
        intro n h1 h2 h3
        have a1 := b1 n h1; have a2 := b2 n h2; have a3 := b3 n h3
        omega
      all_goals
        have hs : (rs : ℝ) = -rr - rq + (rq + rr + rs : ℤ) := by push_cast; ring
        rw [hN] at hs
        push_cast at hs
        rw [hs] at e3 c2 c3
        rw [abs_le] at e1 e2 e3
      · have hqneg : q - rq ≤ 0 := by linarith
        have hrneg : r - rr ≤ 0 := by linarith
        have hsneg : -1 * q - r - (-rr - rq + 1) ≤ 0 := by linarith
        rw [abs_of_nonpos hqneg, abs_of_nonpos hsneg] at c3
        rw [abs_of_nonpos hrneg, abs_of_nonpos hsneg] at c2
        simp only [abs_le]
        refine ⟨⟨by linarith, by linarith⟩, ⟨by linarith, by linarith⟩, ⟨by linarith, by linarith⟩, ?_⟩
        intro n h1 h2 h3
        have a1 := b1 n (abs_le.mpr h1); have a2 := b2 n (abs_le.mpr h2); have a3 := b3 n (abs_le.mpr h3)
        rw [abs_le] at a1 a2 a3
        have : rq + rr ≤ n := by
          by_contra hc
          have : rq + rr = n + 1 := by omega
          have : (rq:ℝ) + rr = n + 1 := by exact_mod_cast this
          linarith [h3.2]
        omega
      · have hqneg : 0 ≤ q - rq := by linarith
        have hrneg : 0 ≤ r - rr := by linarith
        have hsneg : 0 ≤ -1 * q - r - (-rr - rq + -1) := by linarith
        rw [abs_of_nonneg hqneg, abs_of_nonneg hsneg] at c3
        rw [abs_of_nonneg hrneg, abs_of_nonneg hsneg] at c2
        simp only [abs_le]
        refine ⟨⟨by linarith, by linarith⟩, ⟨by linarith, by linarith⟩, ⟨by linarith, by linarith⟩, ?_⟩
        intro n h1 h2 h3
        have a1 := b1 n (abs_le.mpr h1); have a2 := b2 n (abs_le.mpr h2); have a3 := b3 n (abs_le.mpr h3)
        rw [abs_le] at a1 a2 a3
        have : -n ≤ rq + rr := by
          by_contra hc
          have : rq + rr = -n - 1 := by omega
          have : (rq:ℝ) + rr = -n - 1 := by exact_mod_cast this
          linarith [h3.1]
        omega

/-- A point of the Voronoi cell of 0 is at least as close to 0 as to any other lattice point. -/
theorem voronoi_min {a b : ℝ} (h1 : |2 * a + b| ≤ 1) (h2 : |a + 2 * b| ≤ 1) (h3 : |a - b| ≤ 1) (m n : ℤ) :
    a ^ 2 + a * b + b ^ 2 ≤ (a + m) ^ 2 + (a + m) * (b + n) + (b + n) ^ 2 := by
  rw [abs_le] at h1 h2 h3
  suffices h : 0 ≤ m * (2 * a + b) + n * (a + 2 * b) + ((m:ℝ) ^ 2 + m * n + n ^ 2) by nlinarith
  have key : ∀ (x : ℤ) (t : ℝ), -1 ≤ t → t ≤ 1 → 0 ≤ (x:ℝ) * t + x ^ 2 := by
    intro x t h1 h2
    rcases lt_trichotomy x 0 with hx | hx | hx
    · have : (x:ℝ) ≤ -1 := by exact_mod_cast (by omega : x ≤ -1)
      nlinarith
    · simp [hx]
    · have : (1:ℝ) ≤ x := by exact_mod_cast (by omega : 1 ≤ x)
      nlinarith
  rcases le_total 0 (m * n) with hmn | hmn
  · have e1 := key m _ h1.1 h1.2
    have e2 := key n _ h2.1 h2.2
    have : (0:ℝ) ≤ m * n := by exact_mod_cast hmn
    nlinarith
  · -- m n ≤ 0: rewrite with p = m + n
    rcases le_total |m| |n| with hab | hab
    · -- m (A - B) + m² + (m+n)(B + n)
      have e1 := key m (a - b) h3.1 h3.2
      have e2 : 0 ≤ ((m:ℝ) + n) * ((a + 2 * b) + n) := by
        rcases lt_trichotomy n 0 with hn | hn | hn
        · have : (n:ℝ) ≤ -1 := by exact_mod_cast (by omega : n ≤ -1)
          have hm : 0 ≤ m := by
            by_contra hc; push Not at hc
            nlinarith
          have : m + n ≤ 0 := by rw [abs_of_nonneg hm, abs_of_neg hn] at hab; omega
          have : (m:ℝ) + n ≤ 0 := by exact_mod_cast this
          nlinarith
        · have : m = 0 := by rw [hn] at hab; simpa using hab
          simp [this, hn]
        · have : (1:ℝ) ≤ n := by exact_mod_cast (by omega : 1 ≤ n)
          have hm : m ≤ 0 := by
            by_contra hc; push Not at hc
            nlinarith
          have : 0 ≤ m + n := by rw [abs_of_nonpos hm, abs_of_pos hn] at hab; omega
          have : 0 ≤ (m:ℝ) + n := by exact_mod_cast this
          nlinarith
      nlinarith
    · have e1 := key n (-(a - b)) (by linarith [h3.2]) (by linarith [h3.1])
      have e2 : 0 ≤ ((m:ℝ) + n) * ((2 * a + b) + m) := by
        rcases lt_trichotomy m 0 with hn | hn | hn
        · have : (m:ℝ) ≤ -1 := by exact_mod_cast (by omega : m ≤ -1)
          have hm : 0 ≤ n := by
            by_contra hc; push Not at hc
            nlinarith
          have : m + n ≤ 0 := by rw [abs_of_nonneg hm, abs_of_neg hn] at hab; omega
          have : (m:ℝ) + n ≤ 0 := by exact_mod_cast this
          nlinarith
        · have : n = 0 := by rw [hn] at hab; simpa using hab
          simp [this, hn]
        · have : (1:ℝ) ≤ m := by exact_mod_cast (by omega : 1 ≤ m)
          have hm : n ≤ 0 := by
            by_contra hc; push Not at hc
            nlinarith
          have : 0 ≤ m + n := by rw [abs_of_nonpos hm, abs_of_pos hn] at hab; omega
          have : 0 ≤ (m:ℝ) + n := by exact_mod_cast this
          nlinarith
      nlinarith

/-! ## Link to positions -/

/-- squared distance of a point to the centre of capillary `(q, r)` -/
noncomputable def dist2Centre (n : ℤ) (ext x y : ℝ) (q r : ℤ) : ℝ :=
  (x - centreX n ext q r) ^ 2 + (y - centreY n ext r) ^ 2

theorem hexFrac_real (cell x y : ℝ) :
    hexFrac cell x y = ((x / (2 * cospi6) - y / 3) / cell, y * (2/3) / cell) := by
  simp [hexFrac]

theorem hexCell_real (n : ℤ) (ext : ℝ) : hexCell n ext = ext / (2 * cospi6 * (n + 1)) := by
  simp [hexCell]

theorem hexFrac_back {n : ℤ} (hn : 0 ≤ n) {ext : ℝ} (he : 0 < ext) (x y : ℝ) :
    x = (2 * (hexFrac (hexCell n ext) x y).1 + (hexFrac (hexCell n ext) x y).2) * (ext / (2 * (n + 1))) ∧
    y = (hexFrac (hexCell n ext) x y).2 * (3 * ext / (4 * cospi6 * (n + 1))) := by
  have hc := cospi6_pos
  have hn' : (0:ℝ) < n + 1 := by
    have : (0:ℝ) ≤ n := by exact_mod_cast hn
    linarith
  rw [hexFrac_real, hexCell_real]
  constructor <;> field_simp <;> ring

theorem dist2_eq {n : ℤ} (hn : 0 ≤ n) {ext : ℝ} (he : 0 < ext) (x y : ℝ) (q r : ℤ) :
    dist2Centre n ext x y q r =
      (ext / (n + 1)) ^ 2 * (((hexFrac (hexCell n ext) x y).1 - q + ((hexFrac (hexCell n ext) x y).2 - r) / 2) ^ 2
       + 9 / (16 * cospi6 ^ 2) * ((hexFrac (hexCell n ext) x y).2 - r) ^ 2) := by
  have hc := cospi6_pos
  have hn' : (0:ℝ) < n + 1 := by
    have : (0:ℝ) ≤ n := by exact_mod_cast hn
    linarith
  obtain ⟨h1, h2⟩ := hexFrac_back hn he x y
  unfold dist2Centre centreX centreY
  generalize (hexFrac (hexCell n ext) x y).1 = a at *
  generalize (hexFrac (hexCell n ext) x y).2 = b at *
  rw [h1, h2]
  field_simp
  ring

/-- **C16.** The capillary a position is assigned to has, among all lattice capillaries, minimal
distance to that position – exactly in units of the stacking (first part: the quadratic form of an
ideal hexagonal lattice), and up to a factor `1 + 10⁻¹⁸` in Euclidean distance (second part), the slack
being the error of the 20-digit constant used for cos 30°. -/
theorem nearest_capillary (n : ℤ) (hn : 0 ≤ n) (ext : ℝ) (he : 0 < ext) (x y : ℝ) (q' r' : ℤ) :
    let qr := hexRound n ext x y
    dist2Centre n ext x y qr.1 qr.2 ≤ (1 + 1 / 10 ^ 18) * dist2Centre n ext x y q' r' := by
  intro qr
  have hc := cospi6_pos
  have hlt := cospi6_sq_lt
  have hgt := cospi6_sq_gt
  rw [dist2_eq hn he, dist2_eq hn he]
  have hqr : qr = cubeRound (hexFrac (hexCell n ext) x y).1 (hexFrac (hexCell n ext) x y).2 := rfl
  generalize (hexFrac (hexCell n ext) x y).1 = a at *
  generalize (hexFrac (hexCell n ext) x y).2 = b at *
  obtain ⟨f1, f2, f3, -⟩ := cubeRound_facts a b
  rw [← hqr] at f1 f2 f3
  have v := voronoi_min f1 f2 f3 (qr.1 - q') (qr.2 - r')
  push_cast at v
  have hK : 0 ≤ (ext / ((n:ℝ) + 1)) ^ 2 := by positivity
  rw [show (1 + 1 / 10 ^ 18) * ((ext / ((n:ℝ) + 1)) ^ 2 * ((a - q' + (b - r') / 2) ^ 2 + 9 / (16 * cospi6 ^ 2) * (b - r') ^ 2))
    = (ext / ((n:ℝ) + 1)) ^ 2 * ((1 + 1 / 10 ^ 18) * ((a - q' + (b - r') / 2) ^ 2 + 9 / (16 * cospi6 ^ 2) * (b - r') ^ 2)) by ring]
  apply mul_le_mul_of_nonneg_left _ hK
  set A := a - (qr.1 : ℝ)
  set B := b - (qr.2 : ℝ)
  rw [show a - (q' : ℝ) = A + (qr.1 - q') by simp [A], show b - (r' : ℝ) = B + (qr.2 - r') by simp [B]]
  set A' := A + ((qr.1:ℝ) - q')
  set B' := B + ((qr.2:ℝ) - r')
  -- the coefficient 9/(16 c²) is 3/4 up to 10⁻¹⁸
  have k1 : 3 / 4 ≤ 9 / (16 * (cospi6:ℝ) ^ 2) := by
    rw [div_le_div_iff₀ (by norm_num) (by positivity)]; linarith
  have k2 : 9 / (16 * (cospi6:ℝ) ^ 2) ≤ 3 / 4 * (1 + 1 / 10 ^ 18) := by
    rw [div_le_iff₀ (by positivity)]
    nlinarith
  set k := 9 / (16 * (cospi6:ℝ) ^ 2)
  nlinarith [sq_nonneg (A' + B' / 2), sq_nonneg B', sq_nonneg B, sq_nonneg (A + B / 2)]

/-- **C16**, exact form: in the coordinates of an ideal hexagonal lattice (`cos 30°` exact) the
assigned capillary is a nearest one. -/
theorem nearest_capillary_ideal (n : ℤ) (ext x y : ℝ) (q' r' : ℤ) :
    let f := hexFrac (hexCell n ext) x y
    let qr := hexRound n ext x y
    (f.1 - qr.1) ^ 2 + (f.1 - qr.1) * (f.2 - qr.2) + (f.2 - qr.2) ^ 2 ≤
      (f.1 - q') ^ 2 + (f.1 - q') * (f.2 - r') + (f.2 - r') ^ 2 := by
  intro f qr
  have hqr : qr = cubeRound f.1 f.2 := rfl
  obtain ⟨f1, f2, f3, -⟩ := cubeRound_facts f.1 f.2
  rw [← hqr] at f1 f2 f3
  have v := voronoi_min f1 f2 f3 (qr.1 - q') (qr.2 - r')
  push_cast at v
  calc _ ≤ _ := v
    _ = _ := by ring

/-- Idempotence on lattice points: the centre of a capillary is assigned to that capillary. -/
theorem centre_assigned (n : ℤ) (hn : 0 ≤ n) (ext : ℝ) (he : 0 < ext) (q r : ℤ) :
    hexRound n ext (centreX n ext q r) (centreY n ext r) = (q, r) := by
  have hd : dist2Centre n ext (centreX n ext q r) (centreY n ext r) q r = 0 := by simp [dist2Centre]
  have h := nearest_capillary n hn ext he (centreX n ext q r) (centreY n ext r) q r
  simp only [hd, mul_zero] at h
  rw [dist2_eq hn he] at hd h
  have hn' : (0:ℝ) < n + 1 := by
    have : (0:ℝ) ≤ n := by exact_mod_cast hn
    linarith
  have hc := cospi6_pos
  have hK : 0 < (ext / ((n:ℝ) + 1)) ^ 2 := by positivity
  have hk : 0 < 9 / (16 * (cospi6:ℝ) ^ 2) := by positivity
  generalize (hexFrac (hexCell n ext) (centreX n ext q r) (centreY n ext r)).1 = a at *
  generalize (hexFrac (hexCell n ext) (centreX n ext q r) (centreY n ext r)).2 = b at *
  generalize hexRound n ext (centreX n ext q r) (centreY n ext r) = qr at *
  have z : ∀ u v : ℝ, (ext / ((n:ℝ) + 1)) ^ 2 * ((u + v / 2) ^ 2 + 9 / (16 * cospi6 ^ 2) * v ^ 2) ≤ 0 → v = 0 ∧ u = 0 := by
    intro u v huv
    have : (u + v / 2) ^ 2 + 9 / (16 * cospi6 ^ 2) * v ^ 2 ≤ 0 := by
      by_contra hcon; push Not at hcon
      have := mul_pos hK hcon; linarith
    have hv : v = 0 := by
      by_contra hv
      have : 0 < v ^ 2 := by positivity
      nlinarith [sq_nonneg (u + v / 2), mul_pos hk this]
    refine ⟨hv, ?_⟩
    rw [hv] at this
    by_contra hu
    have : 0 < u ^ 2 := by positivity
    nlinarith
  obtain ⟨b1, a1⟩ := z _ _ h
  obtain ⟨b2, a2⟩ := z _ _ hd.le
  have hq : (qr.1 : ℝ) = q := by linarith
  have hr : (qr.2 : ℝ) = r := by linarith
  refine Prod.ext ?_ ?_
  · exact_mod_cast hq
  · exact_mod_cast hr

/-- a non-trivial instance: in a stacking with one shell, centre of capillary (1, -1) -/
example : hexRound 1 (1:ℝ) (centreX 1 1 1 (-1)) (centreY 1 1 (-1)) = (1, -1) :=
  centre_assigned 1 (by norm_num) 1 (by norm_num) 1 (-1)

/-! ## C17: does the selected capillary exist? -/

/-- `(q, r)` is one of the capillaries of a stacking with `n` shells. -/
def InStack (n q r : ℤ) : Prop := |q| ≤ n ∧ |r| ≤ n ∧ |q + r| ≤ n

/-- Hexagonal coordinates of a point of a hexagon of circumradius `R` centred on the axis. -/
theorem hexFrac_bound {n : ℤ} (hn : 0 ≤ n) {ext R x y : ℝ} (he : 0 < ext) (h : InHex R x y) (hR : 0 < R) :
    let f := hexFrac (hexCell n ext) x y
    |f.1| ≤ R * (n + 1) / ext * (1 + 1 / 10 ^ 17) ∧ |f.2| ≤ R * (n + 1) / ext * (1 + 1 / 10 ^ 17) ∧
      |f.1 + f.2| ≤ R * (n + 1) / ext * (1 + 1 / 10 ^ 17) := by
  intro f
  have hc := cospi6_pos
  obtain ⟨c1, c2⟩ := cospi6_near
  obtain ⟨s1, s2⟩ := sqrt3_bounds
  have hss : Real.sqrt 3 ^ 2 = 3 := Real.sq_sqrt (by norm_num)
  have hlt := cospi6_sq_lt
  have hgt := cospi6_sq_gt
  have hn' : (0:ℝ) < n + 1 := by
    have : (0:ℝ) ≤ n := by exact_mod_cast hn
    linarith
  obtain ⟨b1, b2⟩ := hexFrac_back hn he x y
  change x = (2 * f.1 + f.2) * _ at b1
  change y = f.2 * _ at b2
  obtain ⟨h1, h2, h3⟩ := h
  set K := R * ((n:ℝ) + 1) / ext
  have hK : 0 < K := by positivity
  -- rescale the three inequalities
  have e1 : |f.2| ≤ 2 * Real.sqrt 3 / 3 * cospi6 * K := by
    have : f.2 = y * (4 * cospi6 * (n + 1)) / (3 * ext) := by rw [b2]; field_simp
    rw [this, abs_div, abs_mul, abs_of_pos (show 0 < 4 * cospi6 * ((n:ℝ) + 1) by positivity),
      abs_of_pos (show (0:ℝ) < 3 * ext by positivity), div_le_iff₀ (by positivity)]
    calc |y| * (4 * cospi6 * (n + 1)) ≤ (Real.sqrt 3 / 2 * R) * (4 * cospi6 * (n + 1)) := by gcongr
      _ = _ := by simp only [K]; field_simp; ring
  have lin : ∀ s : ℝ, |cospi6 * x + s * (1 / 2) * y| ≤ Real.sqrt 3 / 2 * R →
      |cospi6 ^ 2 * (2 * f.1 + f.2) + s * (3 / 4) * f.2| ≤ Real.sqrt 3 * cospi6 * K := by
    intro s hs
    have : cospi6 ^ 2 * (2 * f.1 + f.2) + s * (3 / 4) * f.2 =
        (cospi6 * x + s * (1 / 2) * y) * (2 * cospi6 * (n + 1) / ext) := by
      rw [b1, b2]; field_simp
    rw [this, abs_mul, abs_of_pos (show 0 < 2 * cospi6 * ((n:ℝ) + 1) / ext by positivity)]
    calc _ ≤ (Real.sqrt 3 / 2 * R) * (2 * cospi6 * ((n:ℝ) + 1) / ext) := by gcongr
      _ = _ := by simp only [K]; field_simp
  have e2 := lin 1 (by rw [show cospi6 * x + 1 * (1/2) * y = cospi6 * x + y / 2 by ring]; exact h2)
  have e3 := lin (-1) (by rw [show cospi6 * x + -1 * (1/2) * y = cospi6 * x - y / 2 by ring]; exact h3)
  have k1 : Real.sqrt 3 * cospi6 ≤ 3 / 2 := by nlinarith
  have e1' : |f.2| ≤ K := by
    refine e1.trans ?_
    have : 2 * Real.sqrt 3 / 3 * cospi6 ≤ 1 := by linarith
    nlinarith
  have e2' : |cospi6 ^ 2 * (2 * f.1 + f.2) + 3 / 4 * f.2| ≤ 3 / 2 * K := by
    rw [show cospi6 ^ 2 * (2 * f.1 + f.2) + 3 / 4 * f.2 = cospi6 ^ 2 * (2 * f.1 + f.2) + 1 * (3 / 4) * f.2 by ring]
    refine e2.trans ?_
    nlinarith
  have e3' : |cospi6 ^ 2 * (2 * f.1 + f.2) - 3 / 4 * f.2| ≤ 3 / 2 * K := by
    rw [show cospi6 ^ 2 * (2 * f.1 + f.2) - 3 / 4 * f.2 = cospi6 ^ 2 * (2 * f.1 + f.2) + -1 * (3 / 4) * f.2 by ring]
    refine e3.trans ?_
    nlinarith
  rw [abs_le] at e1' e2' e3'
  -- move `c²` to 3/4: 2c² (f1 + f2) = (c²(2f1+f2) + 3/4 f2) - (3/4 - c²) f2
  have d0 : 0 < 3 / 4 - (cospi6:ℝ) ^ 2 := by linarith
  have d1 : 3 / 4 - (cospi6:ℝ) ^ 2 < 1 / 10 ^ 19 := by linarith
  have p1 : |(3 / 4 - (cospi6:ℝ) ^ 2) * f.2| ≤ 1 / 10 ^ 19 * K := by
    rw [abs_mul, abs_of_pos d0]
    exact mul_le_mul d1.le (abs_le.mpr e1') (abs_nonneg _) (by norm_num)
  rw [abs_le] at p1
  have fin : ∀ t : ℝ, |2 * cospi6 ^ 2 * t| ≤ (3 / 2 + 1 / 10 ^ 19) * K → |t| ≤ K * (1 + 1 / 10 ^ 17) := by
    intro t ht
    rw [abs_mul, abs_of_pos (by positivity : (0:ℝ) < 2 * cospi6 ^ 2)] at ht
    by_contra hcon
    push Not at hcon
    have : (2 * (3 / 4 - 1 / 10 ^ 19)) * (K * (1 + 1 / 10 ^ 17)) < 2 * (cospi6:ℝ) ^ 2 * |t| := by
      apply mul_lt_mul' (by linarith) hcon (by positivity) (by positivity)
    nlinarith
  refine ⟨fin _ ?_, ?_, fin _ ?_⟩
  · rw [show 2 * cospi6 ^ 2 * f.1 = (cospi6 ^ 2 * (2 * f.1 + f.2) - 3 / 4 * f.2) + (3 / 4 - (cospi6:ℝ) ^ 2) * f.2 by ring]
    generalize cospi6 ^ 2 * (2 * f.1 + f.2) - 3 / 4 * f.2 = u at *
    generalize (3 / 4 - (cospi6:ℝ) ^ 2) * f.2 = v at *
    rw [abs_le]; constructor <;> linarith
  · rw [abs_le]; constructor <;> linarith
  · rw [show 2 * cospi6 ^ 2 * (f.1 + f.2) = (cospi6 ^ 2 * (2 * f.1 + f.2) + 3 / 4 * f.2) - (3 / 4 - (cospi6:ℝ) ^ 2) * f.2 by ring]
    generalize cospi6 ^ 2 * (2 * f.1 + f.2) + 3 / 4 * f.2 = u at *
    generalize (3 / 4 - (cospi6:ℝ) ^ 2) * f.2 = v at *
    rw [abs_le]; constructor <;> linarith

theorem inStack_of_frac {n : ℤ} {ext x y : ℝ} (m : ℤ)
    (h1 : |(hexFrac (hexCell n ext) x y).1| ≤ m + 1 / 4) (h2 : |(hexFrac (hexCell n ext) x y).2| ≤ m + 1 / 4)
    (h3 : |(hexFrac (hexCell n ext) x y).1 + (hexFrac (hexCell n ext) x y).2| ≤ m + 1 / 4) :
    InStack m (hexRound n ext x y).1 (hexRound n ext x y).2 :=
  (cubeRound_facts _ _).2.2.2 m h1 h2 h3

/-- **C17 (partial).** Photons inside the hexagon of radius `(n + 1/5)/(n+1) · ext` are always assigned
to a capillary of the stacking (`n ≤ 10^15` shells: `n_cap` is a 64-bit integer, so at most about
`1.8 * 10^9` shells occur).  Missing for the full property: the outermost layer, see
`selected_capillary_false`; there the index is still at most one shell too far
(`selected_shell_bound`). -/
theorem selected_capillary_exists_partial (n : ℤ) (hn : 0 ≤ n) (hb : n ≤ 10 ^ 15) (ext : ℝ) (he : 0 < ext) (x y : ℝ)
    (hi : withinPcBoundary (ext * ((n + 1 / 5) / (n + 1))) x y = 1) :
    InStack n (hexRound n ext x y).1 (hexRound n ext x y).2 := by
  obtain ⟨hR, hh⟩ := (boundary_one_iff _ _ _).mp hi
  obtain ⟨b1, b2, b3⟩ := hexFrac_bound hn he hh hR
  have hn0 : (0:ℝ) ≤ n := by exact_mod_cast hn
  have hb' : (n:ℝ) ≤ 10 ^ 15 := by exact_mod_cast hb
  have hn' : (0:ℝ) < n + 1 := by linarith
  have hK : ext * ((n + 1 / 5) / (n + 1)) * ((n:ℝ) + 1) / ext = n + 1 / 5 := by field_simp
  rw [hK] at b1 b2 b3
  have : ((n:ℝ) + 1 / 5) * (1 + 1 / 10 ^ 17) ≤ n + 1 / 4 := by linarith
  exact inStack_of_frac n (b1.trans this) (b2.trans this) (b3.trans this)

/-- Anywhere inside the optic the selected index is at most one shell outside the stacking. -/
theorem selected_shell_bound (n : ℤ) (hn : 0 ≤ n) (hb : n ≤ 10 ^ 15) (ext : ℝ) (x y : ℝ)
    (hi : withinPcBoundary ext x y = 1) :
    InStack (n + 1) (hexRound n ext x y).1 (hexRound n ext x y).2 := by
  obtain ⟨he, hh⟩ := (boundary_one_iff _ _ _).mp hi
  obtain ⟨b1, b2, b3⟩ := hexFrac_bound hn he hh he
  have hn0 : (0:ℝ) ≤ n := by exact_mod_cast hn
  have hb' : (n:ℝ) ≤ 10 ^ 15 := by exact_mod_cast hb
  have hn' : (0:ℝ) < n + 1 := by linarith
  have hK : ext * ((n:ℝ) + 1) / ext = n + 1 := by field_simp
  rw [hK] at b1 b2 b3
  have : ((n:ℝ) + 1) * (1 + 1 / 10 ^ 17) ≤ ((n + 1 : ℤ):ℝ) + 1 / 4 := by push_cast; linarith
  exact inStack_of_frac (n + 1) (b1.trans this) (b2.trans this) (b3.trans this)

theorem round_of_near {x : ℝ} {n : ℤ} (h1 : (n:ℝ) - 1/4 ≤ x) (h2 : x ≤ n + 1/4) : realRoundAway x = n :=
  le_antisymm (round_le_int h2) (int_le_round h1)

/-- **C17 is false of the code.** In an optic with one shell (7 capillaries) and radius 1, the point
(0.98, 0) is inside the optic but is assigned to the non-existing capillary (2, 0). -/
theorem selected_capillary_false :
    ∃ (n : ℤ) (ext x y : ℝ), 0 ≤ n ∧ n ≤ 10 ^ 15 ∧ withinPcBoundary ext x y = 1 ∧
      hexRound n ext x y = (2, 0) ∧ ¬ InStack n 2 0 := by
  refine ⟨1, 1, 98 / 100, 0, by norm_num, by norm_num, ?_, ?_, ?_⟩
  · rw [boundary_one_iff]
    obtain ⟨c1, c2⟩ := cospi6_near
    have hc := cospi6_pos
    refine ⟨by norm_num, by simp; positivity, ?_, ?_⟩
    all_goals
      simp only [zero_div, add_zero, sub_zero]
      rw [abs_of_pos (by positivity)]; linarith
  · have hc := cospi6_pos
    have f : hexFrac (hexCell 1 (1:ℝ)) (98/100) 0 = (196/100, 0) := by
      rw [hexFrac_real, hexCell_real]
      refine Prod.ext ?_ ?_
      · simp only [zero_div, sub_zero]; field_simp; norm_num
      · simp
    have r1 : realRoundAway (196/100) = 2 := round_of_near (by norm_num) (by norm_num)
    have r2 : realRoundAway 0 = 0 := round_of_near (by norm_num) (by norm_num)
    have r3 : realRoundAway (-1 * (196/100) - 0) = -2 := round_of_near (by norm_num) (by norm_num)
    simp only [hexRound, f, cubeRound, real_sub, real_mul, real_lit, real_roundI, real_fabs, real_ofInt, gt,
      real_lt]
    rw [show ((-1 : ℚ) : ℝ) = -1 by norm_num, r1, r2, r3]
    norm_num
  · unfold InStack; norm_num

/-! ## C48: segment search and interpolation -/

/-- What the search loop returns, whatever the number type: the last index below `n` with
`z[i] <= zz`, or the initial value. -/
theorem segId_spec {α : Type} [CNum α] (z : ℕ → α) (init : ℕ) (zz : α) (n : ℕ) :
    (segIdFrom z init zz n < n ∧ (z (segIdFrom z init zz n) <=. zz) = true ∧
        ∀ j, segIdFrom z init zz n < j → j < n → (z j <=. zz) = false) ∨
      (segIdFrom z init zz n = init ∧ ∀ j < n, (z j <=. zz) = false) := by
  induction n with
  | zero => right; simp [segIdFrom]
  | succ n ih =>
    unfold segIdFrom
    by_cases h : (z n <=. zz) = true
    · left
      simp only [h, if_true]
      exact ⟨Nat.lt_succ_self _, trivial, fun j h1 h2 => by omega⟩
    · simp only [h, Bool.false_eq_true, if_false]
      rcases ih with ⟨h1, h2, h3⟩ | ⟨h1, h2⟩
      · left
        refine ⟨Nat.lt_succ_of_lt h1, h2, fun j hj hjn => ?_⟩
        by_cases hj2 : j = n
        · subst hj2; simpa using h
        · exact h3 j hj (by omega)
      · right
        refine ⟨h1, fun j hj => ?_⟩
        by_cases hj2 : j = n
        · subst hj2; simpa using h
        · exact h2 j (by omega)

/-- The index is always one that may be used together with its successor (no read beyond the
arrays), whatever the number type and whatever the position. -/
theorem segId_lt {α : Type} [CNum α] (z : ℕ → α) (init : ℕ) (zz : α) (n : ℕ) (hi : init < n) :
    segIdFrom z init zz n < n := by
  rcases segId_spec z init zz n with h | h
  · exact h.1
  · rw [h.1]; exact hi

/-- **C48.** For a position between the first and the last point, the index
found brackets the position – whatever the grid and whatever the value the index variable had before. -/
theorem segment_index_correct (z : ℕ → ℝ) (n init : ℕ) (hn : 1 ≤ n)
    (zz : ℝ) (h0 : z 0 ≤ zz) (h1 : zz ≤ z n) :
    segIdFrom z init zz n < n ∧ z (segIdFrom z init zz n) ≤ zz ∧ zz ≤ z (segIdFrom z init zz n + 1) := by
  rcases segId_spec z init zz n with ⟨a, b, c⟩ | ⟨a, b⟩
  · refine ⟨a, by simpa using b, ?_⟩
    by_cases h : segIdFrom z init zz n + 1 = n
    · rw [h]; exact h1
    · have := c (segIdFrom z init zz n + 1) (by omega) (by omega)
      simp only [real_le, decide_eq_false_iff_not, not_le] at this
      exact this.le
  · have := b 0 (by omega)
    simp only [real_le, decide_eq_false_iff_not, not_le] at this
    linarith

/-- Beyond the last point the last segment is used. -/
theorem segment_index_beyond (z : ℕ → ℝ) (n init : ℕ) (hn : 1 ≤ n)
    (hz : ∀ i < n, z i < z (i + 1)) (zz : ℝ) (h1 : z n ≤ zz) :
    segIdFrom z init zz n = n - 1 := by
  obtain ⟨m, rfl⟩ : ∃ m, n = m + 1 := ⟨n - 1, by omega⟩
  have := hz m (by omega)
  simp [segIdFrom, le_trans this.le h1]

/-- Interpolation meets both end values … -/
theorem interp_ends (z0 z1 v0 v1 : ℝ) (h : z0 < z1) :
    interp z0 z1 v0 v1 z0 = v0 ∧ interp z0 z1 v0 v1 z1 = v1 := by
  have : z1 - z0 ≠ 0 := by linarith
  constructor
  · simp [interp]
  · simp only [interp, real_add, real_mul, real_sub, real_div]; field_simp; ring

/-- … stays between them … -/
theorem interp_between (z0 z1 v0 v1 zz : ℝ) (h : z0 < z1) (h0 : z0 ≤ zz) (h1 : zz ≤ z1) :
    min v0 v1 ≤ interp z0 z1 v0 v1 zz ∧ interp z0 z1 v0 v1 zz ≤ max v0 v1 := by
  have hd : 0 < z1 - z0 := by linarith
  set t := (zz - z0) / (z1 - z0) with ht
  have t0 : 0 ≤ t := div_nonneg (by linarith) hd.le
  have t1 : t ≤ 1 := by rw [ht, div_le_one hd]; linarith
  have e : interp z0 z1 v0 v1 zz = (1 - t) * v0 + t * v1 := by
    simp only [interp, real_add, real_mul, real_sub, real_div, ht]; field_simp; ring
  rw [e]
  have m1 := min_le_left v0 v1
  have m2 := min_le_right v0 v1
  have M1 := le_max_left v0 v1
  have M2 := le_max_right v0 v1
  constructor <;> nlinarith

/-- … and the three ways the source writes it agree. -/
theorem interp_variants (z0 z1 v0 v1 zz : ℝ) (h : z0 < z1) :
    interpL z0 z1 v0 v1 zz = interp z0 z1 v0 v1 zz ∧ interp z1 z0 v1 v0 zz = interp z0 z1 v0 v1 zz := by
  have h1 : z1 - z0 ≠ 0 := by linarith
  have h2 : z0 - z1 ≠ 0 := by linarith
  have h3 : z0 - z1 = -(z1 - z0) := by ring
  simp only [interp, interpL, real_add, real_mul, real_sub, real_div]
  constructor
  · rw [h3]; field_simp; ring
  · rw [h3]; field_simp; ring

/-- **C48**, second half: the interpolated radius lies between the radii of the two neighbouring
profile points; in particular it is positive for positive radii. -/
theorem interpolated_radius_between (p : Profile ℝ) (v : ℕ → ℝ) (init : ℕ) (hn : 1 ≤ p.nmax)
    (hz : ∀ i < p.nmax, p.z i < p.z (i + 1)) (zz : ℝ) (h0 : p.z 0 ≤ zz) (h1 : zz ≤ p.z p.nmax) :
    let id := segIdFrom p.z init zz p.nmax
    min (v id) (v (id + 1)) ≤ interpAt p v id zz ∧ interpAt p v id zz ≤ max (v id) (v (id + 1)) := by
  intro id
  obtain ⟨a, b, c⟩ := segment_index_correct p.z p.nmax init hn zz h0 h1
  exact interp_between _ _ _ _ _ (hz _ a) b c

/-- The hypotheses are met by a 3-point profile; the middle position falls in the second segment. -/
example : segIdFrom (fun i : ℕ => (i:ℝ)) 0 (3/2) 2 = 1 := by
  simp only [segIdFrom, real_le]; norm_num

end Polycap
