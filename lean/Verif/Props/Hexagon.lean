import Verif.Profile
import Mathlib.Tactic.LinearCombination
import Mathlib.Tactic.FieldSimp
import Mathlib.Tactic.Linarith
import Mathlib.Tactic.Positivity

/-!
# C13, C15: shells and the hexagonal boundary test
-/
namespace Polycap
open CNum

/-! ## C13: number of shells -/

theorem nShells_iff (n : ℤ) (hn : 1 ≤ n) (N : ℤ) :
    nShells (α := ℝ) n = N ↔ 0 ≤ N ∧ 3 * N ^ 2 + 1 ≤ n ∧ n ≤ 3 * (N + 1) ^ 2 := by
  have hn' : (1 : ℝ) ≤ n := by exact_mod_cast hn
  set s := Real.sqrt (12 * n - 3) with hs
  have hs0 : 0 ≤ s := Real.sqrt_nonneg _
  have hsq : s ^ 2 = 12 * n - 3 := Real.sq_sqrt (by linarith)
  have hs3 : 3 ≤ s := by
    rw [hs]; apply Real.le_sqrt_of_sq_le; nlinarith
  have e : nShells (α := ℝ) n = ⌊s / 6⌋ := by
    have h0 : (0:ℝ) ≤ s / 6 - 1 / 2 := by linarith
    simp only [nShells, real_roundI, real_sub, real_div, real_sqrt, real_mul, real_lit, real_ofInt]
    push_cast
    rw [← hs, realRoundAway, if_pos h0]
    congr 1; ring
  rw [e, Int.floor_eq_iff]
  constructor
  · rintro ⟨h1, h2⟩
    have hN0 : 0 ≤ N := by
      have : (0:ℝ) < (N:ℝ) + 1 := lt_of_le_of_lt (by positivity) h2
      have : (0:ℤ) < N + 1 := by exact_mod_cast this
      omega
    have hN0' : (0:ℝ) ≤ N := by exact_mod_cast hN0
    refine ⟨hN0, ?_, ?_⟩
    · have h3 : 6 * (N:ℝ) ≤ s := by linarith
      have h4 : 36 * (N:ℝ)^2 ≤ 12 * n - 3 := by nlinarith
      have h5 : (36 * N^2 : ℤ) ≤ 12 * n - 3 := by exact_mod_cast h4
      omega
    · have h3 : s < 6 * (N:ℝ) + 6 := by linarith
      have h4 : 12 * (n:ℝ) - 3 < 36 * ((N:ℝ) + 1)^2 := by nlinarith
      have h5 : (12 * n - 3 : ℤ) < 36 * (N + 1)^2 := by exact_mod_cast h4
      omega
  · rintro ⟨hN0, h1, h2⟩
    have hN0' : (0:ℝ) ≤ N := by exact_mod_cast hN0
    have h1' : 3 * (N:ℝ)^2 + 1 ≤ n := by exact_mod_cast h1
    have h2' : (n:ℝ) ≤ 3 * ((N:ℝ) + 1)^2 := by exact_mod_cast h2
    constructor
    · rw [le_div_iff₀ (by norm_num)]
      rw [hs]; apply Real.le_sqrt_of_sq_le; nlinarith
    · rw [div_lt_iff₀ (by norm_num)]
      rw [hs, Real.sqrt_lt' (by positivity)]
      nlinarith

/-- **C13.**  A full stacking of `N` shells has `3N(N+1)+1` capillaries and gets shell count `N`. -/
theorem nShells_of_full_stacking (N : ℕ) : nShells (α := ℝ) (3 * N * (N + 1) + 1) = N := by
  have hN : (0:ℤ) ≤ N := by positivity
  rw [nShells_iff _ (by nlinarith)]
  refine ⟨hN, by nlinarith, by nlinarith⟩

/-- **C13.**  The shell count is defined for every `n_cap ≥ 1` as the largest `N` with
`3N²+1 ≤ n_cap`; it is non-negative and monotone in `n_cap`. -/
theorem nShells_spec (n : ℤ) (hn : 1 ≤ n) :
    0 ≤ nShells (α := ℝ) n ∧ 3 * (nShells (α := ℝ) n) ^ 2 + 1 ≤ n ∧
    n ≤ 3 * (nShells (α := ℝ) n + 1) ^ 2 :=
  (nShells_iff n hn _).mp rfl

theorem nShells_mono {m n : ℤ} (hm : 1 ≤ m) (hmn : m ≤ n) :
    nShells (α := ℝ) m ≤ nShells (α := ℝ) n := by
  obtain ⟨a0, a1, a2⟩ := nShells_spec m hm
  obtain ⟨b0, b1, b2⟩ := nShells_spec n (hm.trans hmn)
  by_contra hc
  push Not at hc
  nlinarith

/-- **C13.**  The optic is treated as a mono-capillary exactly up to three capillaries. -/
theorem nShells_zero_iff (n : ℤ) (hn : 1 ≤ n) : nShells (α := ℝ) n = 0 ↔ n ≤ 3 := by
  rw [nShells_iff n hn]; constructor
  · rintro ⟨_, _, h⟩; simpa using h
  · intro h; exact ⟨le_refl _, by simpa using hn, by simpa using h⟩

/-- **C13.**  The stacking used differs from the requested `n_cap` by at most `3N` (and not at all
for full stackings). -/
theorem nShells_gap (n : ℤ) (hn : 1 ≤ n) :
    let N := nShells (α := ℝ) n
    |n - (3 * N * (N + 1) + 1)| ≤ 3 * N + 2 := by
  intro N
  obtain ⟨a0, a1, a2⟩ := nShells_spec n hn
  have h1 : 3 * N ^ 2 + 1 ≤ n := a1
  have h2 : n ≤ 3 * (N + 1) ^ 2 := a2
  rw [abs_le]; constructor <;> nlinarith

/-! ## C15: the boundary test -/

/-- The region accepted by the boundary test, written without the model's helpers: `c` is the
library's 20-digit constant for √3/2. -/
def InHex (r x y : ℝ) : Prop :=
  let d := Real.sqrt 3 / 2 * r
  let c := (cospi6 : ℝ)
  |y| ≤ d ∧ |c * x + y / 2| ≤ d ∧ |c * x - y / 2| ≤ d

/-- The regular hexagon of circumradius `R` with two horizontal edges. -/
def RegHex (R x y : ℝ) : Prop :=
  |y| ≤ Real.sqrt 3 / 2 * R ∧ |Real.sqrt 3 / 2 * x + y / 2| ≤ Real.sqrt 3 / 2 * R ∧
  |Real.sqrt 3 / 2 * x - y / 2| ≤ Real.sqrt 3 / 2 * R

theorem sqrt_edge (r : ℝ) (hr : 0 < r) :
    Real.sqrt (r * r - r / 2 * (r / 2)) = Real.sqrt 3 / 2 * r := by
  have : r * r - r / 2 * (r / 2) = (Real.sqrt 3 / 2 * r) ^ 2 := by
    have := Real.sq_sqrt (show (0:ℝ) ≤ 3 by norm_num)
    nlinarith
  rw [this, Real.sqrt_sq (by positivity)]

theorem boundary_error_iff (r x y : ℝ) : withinPcBoundary r x y = -1 ↔ r ≤ 0 := by
  unfold withinPcBoundary
  simp only [real_le, real_lit, Rat.cast_zero, decide_eq_true_eq]
  split
  · simp [*]
  · simp only [*, iff_false]; split <;> simp

theorem boundary_one_iff (r x y : ℝ) : withinPcBoundary r x y = 1 ↔ 0 < r ∧ InHex r x y := by
  unfold withinPcBoundary InHex
  simp only [real_le, real_lit, Rat.cast_zero, decide_eq_true_eq]
  split
  · rename_i h; simp [not_lt.mpr h]
  · rename_i h
    push Not at h
    simp only [real_sqrt, real_sub, real_mul, real_div, real_fabs, real_add, real_lit, gt, real_lt]
    push_cast
    rw [sqrt_edge r h]
    simp only [zero_mul, zero_add, one_mul, h, true_and]
    rw [show (cospi6 : ℝ) * x + 1 / 2 * y = cospi6 * x + y / 2 by ring,
      show (cospi6 : ℝ) * x + -1 / 2 * y = cospi6 * x - y / 2 by ring]
    by_cases h1 : Real.sqrt 3 / 2 * r < |y| <;> by_cases h2 : Real.sqrt 3 / 2 * r < |(cospi6:ℝ) * x + y / 2| <;>
      by_cases h3 : Real.sqrt 3 / 2 * r < |(cospi6:ℝ) * x - y / 2| <;> simp [h1, h2, h3, not_le.mpr, not_lt.mp]

/-- **C15.**  Exact decision table of the boundary test: error code exactly for non-positive radius,
else 1 exactly on the hexagonal region, else 0.  (The photon's `z` does not enter at all.) -/
theorem boundary_spec (r x y : ℝ) :
    (r ≤ 0 → withinPcBoundary r x y = -1) ∧
    (0 < r → InHex r x y → withinPcBoundary r x y = 1) ∧
    (0 < r → ¬ InHex r x y → withinPcBoundary r x y = 0) := by
  refine ⟨(boundary_error_iff r x y).mpr, fun h i => (boundary_one_iff r x y).mpr ⟨h, i⟩, fun h i => ?_⟩
  have h1 : withinPcBoundary r x y ≠ 1 := fun hh => i ((boundary_one_iff r x y).mp hh).2
  have h2 : withinPcBoundary r x y ≠ -1 := fun hh => absurd ((boundary_error_iff r x y).mp hh) (not_le.mpr h)
  revert h1 h2
  unfold withinPcBoundary
  split
  · simp
  · dsimp only; split <;> simp

theorem sqrt3_bounds : (17:ℝ)/10 < Real.sqrt 3 ∧ Real.sqrt 3 < 18/10 := by
  constructor
  · rw [Real.lt_sqrt (by norm_num)]; norm_num
  · rw [Real.sqrt_lt' (by norm_num)]; norm_num

/-- the constant against √3/2 -/
theorem cospi6_near : (cospi6 : ℝ) < Real.sqrt 3 / 2 ∧ Real.sqrt 3 / 2 < cospi6 * (1 + 1 / 10 ^ 18) := by
  have h3 := Real.sq_sqrt (show (0:ℝ) ≤ 3 by norm_num)
  have hp := cospi6_pos
  have hs := Real.sqrt_nonneg 3
  constructor
  · have := cospi6_sq_lt
    nlinarith
  · have h1 : (3:ℝ) / 4 < (cospi6 * (1 + 1 / 10 ^ 18)) ^ 2 := by
      simp only [cospi6, real_lit]; norm_num
    nlinarith [mul_pos hp (show (0:ℝ) < 1 + 1/10^18 by norm_num)]

theorem abs_scale_le {c C x y d : ℝ} (hc : 0 ≤ c) (hcC : c ≤ C) (h1 : |C * x + y| ≤ d)
    (h2 : |C * x - y| ≤ d) : |c * x + y| ≤ d ∧ |c * x - y| ≤ d := by
  rw [abs_le] at *
  rw [abs_le]
  rcases le_total 0 x with hx | hx
  · have p1 := mul_le_mul_of_nonneg_right hcC hx
    have p2 := mul_nonneg hc hx
    refine ⟨⟨?_, ?_⟩, ⟨?_, ?_⟩⟩ <;> linarith
  · have p1 := mul_le_mul_of_nonpos_right hcC hx
    have p2 := mul_nonpos_of_nonneg_of_nonpos hc hx
    refine ⟨⟨?_, ?_⟩, ⟨?_, ?_⟩⟩ <;> linarith

/-- **C15.**  For a positive radius the accepted region is the regular hexagon of that circumradius,
up to a relative error of 10⁻¹⁸ in the radius: it contains the hexagon of radius `r` and is contained
in the hexagon of radius `r(1+10⁻¹⁸)`. -/
theorem boundary_regular_hexagon (r x y : ℝ) (hr : 0 < r) :
    (RegHex r x y → withinPcBoundary r x y = 1) ∧
    (withinPcBoundary r x y = 1 → RegHex (r * (1 + 1 / 10 ^ 18)) x y) := by
  obtain ⟨n1, n2⟩ := cospi6_near
  have hp := cospi6_pos
  constructor
  · rintro ⟨h1, h2, h3⟩
    rw [boundary_one_iff]
    obtain ⟨g1, g2⟩ := abs_scale_le hp.le n1.le h2 h3
    exact ⟨hr, h1, g1, g2⟩
  · intro h
    obtain ⟨_, h1, h2, h3⟩ := (boundary_one_iff _ _ _).mp h
    have hd : 0 ≤ Real.sqrt 3 / 2 * r := by positivity
    have e : (0:ℝ) ≤ 1 / 10 ^ 18 := by positivity
    have grow : Real.sqrt 3 / 2 * r ≤ Real.sqrt 3 / 2 * (r * (1 + 1 / 10 ^ 18)) := by nlinarith
    -- scale the two slanted inequalities by 1 + 1e-18
    have k : ∀ s : ℝ, |(cospi6:ℝ) * x + s * (y / 2)| ≤ Real.sqrt 3 / 2 * r →
        |(cospi6 * (1 + 1/10^18)) * x + (1 + 1/10^18) * s * (y / 2)| ≤ Real.sqrt 3 / 2 * (r * (1 + 1 / 10 ^ 18)) := by
      intro s hs
      have : (cospi6 * (1 + 1/10^18)) * x + (1 + 1/10^18) * s * (y / 2) = (1 + 1/10^18) * ((cospi6:ℝ) * x + s * (y / 2)) := by ring
      rw [this, abs_mul, abs_of_pos (by norm_num : (0:ℝ) < 1 + 1/10^18)]
      nlinarith
    have k1 := k 1 (by simpa using h2)
    have k2 := k (-1) (by simpa [sub_eq_add_neg] using h3)
    have q1 : |(cospi6 * (1 + 1/10^18)) * x + (1 + 1/10^18) * (y / 2)| ≤ Real.sqrt 3 / 2 * (r * (1 + 1 / 10 ^ 18)) := by
      simpa using k1
    have q2 : |(cospi6 * (1 + 1/10^18)) * x - (1 + 1/10^18) * (y / 2)| ≤ Real.sqrt 3 / 2 * (r * (1 + 1 / 10 ^ 18)) := by
      have e2 : (cospi6 * (1 + 1/10^18)) * x - (1 + 1/10^18) * (y / 2) = (cospi6 * (1 + 1/10^18)) * x + (1 + 1/10^18) * (-1) * (y / 2) := by ring
      rw [e2]; exact k2
    -- shrink both coefficients
    obtain ⟨p1, p2⟩ := abs_scale_le (by positivity) n2.le q1 q2
    have sw : ∀ (A B d : ℝ), |A + B| ≤ d → |A - B| ≤ d → |1 * B + A| ≤ d ∧ |1 * B - A| ≤ d := by
      intro A B d u v
      rw [one_mul]; exact ⟨by rwa [add_comm], by rwa [abs_sub_comm]⟩
    have r1 : |(1 + 1/10^18) * (y/2) + Real.sqrt 3 / 2 * x| ≤ Real.sqrt 3 / 2 * (r * (1 + 1 / 10 ^ 18)) := by rwa [add_comm]
    have r2 : |(1 + 1/10^18) * (y/2) - Real.sqrt 3 / 2 * x| ≤ Real.sqrt 3 / 2 * (r * (1 + 1 / 10 ^ 18)) := by rwa [abs_sub_comm]
    obtain ⟨s1, s2⟩ := abs_scale_le (c := 1) (by norm_num) (by norm_num) r1 r2
    refine ⟨h1.trans grow, ?_, ?_⟩
    · rw [add_comm]; simpa using s1
    · rw [abs_sub_comm]; simpa using s2

/-- **C15.**  The accepted region is symmetric under point reflection and reflection in both axes. -/
theorem boundary_symmetric (r x y : ℝ) :
    withinPcBoundary r (-x) (-y) = withinPcBoundary r x y ∧
    withinPcBoundary r x (-y) = withinPcBoundary r x y ∧
    withinPcBoundary r (-x) y = withinPcBoundary r x y := by
  have key : ∀ x' y', (InHex r x' y' ↔ InHex r x y) → withinPcBoundary r x' y' = withinPcBoundary r x y := by
    intro x' y' h
    rcases le_or_gt r 0 with hr | hr
    · rw [(boundary_spec r x' y').1 hr, (boundary_spec r x y).1 hr]
    · by_cases hi : InHex r x y
      · rw [(boundary_spec r x' y').2.1 hr (h.mpr hi), (boundary_spec r x y).2.1 hr hi]
      · rw [(boundary_spec r x' y').2.2 hr (fun hh => hi (h.mp hh)), (boundary_spec r x y).2.2 hr hi]
  refine ⟨key _ _ ?_, key _ _ ?_, key _ _ ?_⟩ <;> simp only [InHex, abs_neg]
  · rw [show (cospi6:ℝ) * -x + -y / 2 = -(cospi6 * x + y / 2) by ring,
      show (cospi6:ℝ) * -x - -y / 2 = -(cospi6 * x - y / 2) by ring, abs_neg, abs_neg]
  · rw [show (cospi6:ℝ) * x + -y / 2 = cospi6 * x - y / 2 by ring,
      show (cospi6:ℝ) * x - -y / 2 = cospi6 * x + y / 2 by ring]; tauto
  · rw [show (cospi6:ℝ) * -x + y / 2 = -(cospi6 * x - y / 2) by ring,
      show (cospi6:ℝ) * -x - y / 2 = -(cospi6 * x + y / 2) by ring, abs_neg, abs_neg]; tauto

theorem abs_convex {u v d s : ℝ} (hu : |u| ≤ d) (hv : |v| ≤ d) (s0 : 0 ≤ s) (s1 : s ≤ 1) :
    |(1 - s) * u + s * v| ≤ d := by
  rw [abs_le] at *
  constructor <;> nlinarith [mul_le_mul_of_nonneg_left hu.1 (sub_nonneg.mpr s1),
    mul_le_mul_of_nonneg_left hu.2 (sub_nonneg.mpr s1), mul_le_mul_of_nonneg_left hv.1 s0,
    mul_le_mul_of_nonneg_left hv.2 s0]

theorem inHex_convex {r x1 y1 x2 y2 s : ℝ} (h1 : InHex r x1 y1) (h2 : InHex r x2 y2) (s0 : 0 ≤ s)
    (s1 : s ≤ 1) : InHex r ((1 - s) * x1 + s * x2) ((1 - s) * y1 + s * y2) := by
  obtain ⟨a1, a2, a3⟩ := h1
  obtain ⟨b1, b2, b3⟩ := h2
  refine ⟨abs_convex a1 b1 s0 s1, ?_, ?_⟩
  · have := abs_convex a2 b2 s0 s1
    convert this using 2; ring
  · have := abs_convex a3 b3 s0 s1
    convert this using 2; ring

/-- **C15.**  The accepted region is convex. -/
theorem boundary_convex {r x1 y1 x2 y2 s : ℝ} (h1 : withinPcBoundary r x1 y1 = 1)
    (h2 : withinPcBoundary r x2 y2 = 1) (s0 : 0 ≤ s) (s1 : s ≤ 1) :
    withinPcBoundary r ((1 - s) * x1 + s * x2) ((1 - s) * y1 + s * y2) = 1 := by
  rw [boundary_one_iff] at *
  exact ⟨h1.1, inHex_convex h1.2 h2.2 s0 s1⟩

/-- **C15.**  Scaling radius and point by the same positive factor does not change the answer. -/
theorem boundary_scale (r x y k : ℝ) (hk : 0 < k) :
    withinPcBoundary (k * r) (k * x) (k * y) = withinPcBoundary r x y := by
  have hi : InHex (k * r) (k * x) (k * y) ↔ InHex r x y := by
    simp only [InHex]
    rw [show Real.sqrt 3 / 2 * (k * r) = k * (Real.sqrt 3 / 2 * r) by ring,
      show (cospi6:ℝ) * (k * x) + k * y / 2 = k * (cospi6 * x + y / 2) by ring,
      show (cospi6:ℝ) * (k * x) - k * y / 2 = k * (cospi6 * x - y / 2) by ring]
    simp only [abs_mul, abs_of_pos hk, mul_le_mul_iff_right₀ hk]
  rcases le_or_gt r 0 with hr | hr
  · rw [(boundary_spec _ _ _).1 hr, (boundary_spec _ _ _).1 (by nlinarith)]
  · have hkr : 0 < k * r := mul_pos hk hr
    by_cases h : InHex r x y
    · rw [(boundary_spec _ _ _).2.1 hr h, (boundary_spec _ _ _).2.1 hkr (hi.mpr h)]
    · rw [(boundary_spec _ _ _).2.2 hr h, (boundary_spec _ _ _).2.2 hkr (fun hh => h (hi.mp hh))]

/-- **C15.**  A point inside a smaller optic is inside a larger one. -/
theorem boundary_mono {r r' x y : ℝ} (h : withinPcBoundary r x y = 1) (hrr : r ≤ r') :
    withinPcBoundary r' x y = 1 := by
  rw [boundary_one_iff] at *
  obtain ⟨hr, h1, h2, h3⟩ := h
  have : Real.sqrt 3 / 2 * r ≤ Real.sqrt 3 / 2 * r' := by
    apply mul_le_mul_of_nonneg_left hrr; positivity
  exact ⟨hr.trans_le hrr, h1.trans this, h2.trans this, h3.trans this⟩

/-- **C15.**  The accepted region contains the disc of radius √3/2·r … -/
theorem boundary_contains_disc (r x y : ℝ) (hr : 0 < r) (h : x ^ 2 + y ^ 2 ≤ 3 / 4 * r ^ 2) :
    withinPcBoundary r x y = 1 := by
  rw [boundary_one_iff]
  have h3 := Real.sq_sqrt (show (0:ℝ) ≤ 3 by norm_num)
  have hd : 0 ≤ Real.sqrt 3 / 2 * r := by positivity
  have hc := cospi6_sq_lt
  have sq : (Real.sqrt 3 / 2 * r) ^ 2 = 3 / 4 * r ^ 2 := by
    rw [mul_pow, div_pow, h3]; ring
  refine ⟨hr, ?_, ?_, ?_⟩
  · apply abs_le_of_sq_le_sq _ hd; rw [sq]; nlinarith
  · apply abs_le_of_sq_le_sq _ hd; rw [sq]
    nlinarith [sq_nonneg ((cospi6:ℝ) * y - x / 2), sq_nonneg x, sq_nonneg y]
  · apply abs_le_of_sq_le_sq _ hd; rw [sq]
    nlinarith [sq_nonneg ((cospi6:ℝ) * y + x / 2), sq_nonneg x, sq_nonneg y]

/-- **C15.**  … and is contained in the disc of radius `r(1+10⁻¹⁸)`. -/
theorem boundary_inside_disc (r x y : ℝ) (h : withinPcBoundary r x y = 1) :
    x ^ 2 + y ^ 2 ≤ (r * (1 + 1 / 10 ^ 18)) ^ 2 := by
  have hr : 0 < r := ((boundary_one_iff _ _ _).mp h).1
  obtain ⟨h1, h2, h3⟩ := (boundary_regular_hexagon r x y hr).2 h
  set R := r * (1 + 1 / 10 ^ 18)
  have hR : 0 < R := by positivity
  set c := Real.sqrt 3 / 2 with hc
  have c2 : c ^ 2 = 3 / 4 := by rw [hc, div_pow, Real.sq_sqrt (by norm_num)]; norm_num
  have cp : 0 < c := by positivity
  -- |c x| + |y|/2 ≤ c R
  have s : c * |x| + |y| / 2 ≤ c * R := by
    rw [abs_le] at h2 h3
    rcases abs_cases x with ⟨e1, _⟩ | ⟨e1, _⟩ <;> rcases abs_cases y with ⟨e2, _⟩ | ⟨e2, _⟩ <;>
      rw [e1, e2] <;> nlinarith
  have ax : 0 ≤ |x| := abs_nonneg x
  have ay : 0 ≤ |y| := abs_nonneg y
  rw [← sq_abs x, ← sq_abs y]
  -- with X=|x|, Y=|y|:  c X ≤ c R - Y/2 and Y ≤ c R
  have q1 : (c * |x|) ^ 2 ≤ (c * R - |y| / 2) ^ 2 := by
    apply sq_le_sq' <;> nlinarith
  nlinarith [mul_nonneg ay (sub_nonneg.mpr h1)]

example : withinPcBoundary (2:ℝ) 1 1 = 1 ∧ withinPcBoundary (2:ℝ) 1 1.8 = 0 ∧
    withinPcBoundary (-1:ℝ) 0 0 = -1 := by
  refine ⟨boundary_contains_disc _ _ _ (by norm_num) (by norm_num), ?_, (boundary_spec _ _ _).1 (by norm_num)⟩
  apply (boundary_spec _ _ _).2.2 (by norm_num)
  rintro ⟨h, _⟩
  have := sqrt3_bounds.2
  rw [abs_of_pos (by norm_num)] at h
  norm_num at h
  linarith

end Polycap
