import Verif.Props.Draws
import Mathlib.Probability.StrongLaw

/-!
# C100, mathematics: averages over an endless stream of numbers
-/
namespace Polycap.Unif
open MeasureTheory Set Filter ProbabilityTheory
open scoped Topology

/-! ## Ratios -/

/-- what grows slower than `i` is below `ε * i` plus a constant -/
theorem small_le {s : ℕ → ℝ} (h : Tendsto (fun n : ℕ => s n / n) atTop (𝓝 0)) {ε : ℝ} (he : 0 < ε) : ∃ K, 0 ≤ K ∧ ∀ n, |s n| ≤ ε * n + K := by
  rw [Metric.tendsto_atTop] at h
  obtain ⟨N, hN⟩ := h ε he
  refine ⟨∑ i ∈ Finset.range (N + 1), |s i|, Finset.sum_nonneg fun _ _ => abs_nonneg _, ?_⟩
  intro n
  by_cases hn : n ≤ N
  · have := Finset.single_le_sum (f := fun i => |s i|) (fun i _ => abs_nonneg (s i)) (Finset.mem_range.2 (Nat.lt_succ_of_le hn))
    have h0 : 0 ≤ ε * n := by positivity
    linarith
  · have hpos : (0:ℝ) < n := by
      have : 0 < n := by omega
      exact_mod_cast this
    have := hN n (by omega)
    rw [Real.dist_eq, sub_zero, abs_div, abs_of_pos hpos, div_lt_iff₀ hpos] at this
    have h0 : 0 ≤ ∑ i ∈ Finset.range (N + 1), |s i| := Finset.sum_nonneg fun _ _ => abs_nonneg _
    linarith

/-- The ratio of two sums taken over several streams, each stopped anywhere, is close to the ratio of the means once the second sum is large. -/
theorem ratio_close {T : ℕ} {W C : ℕ → ℕ → ℝ} {μ q : ℝ} (hq : 0 < q)
    (hW : ∀ t < T, Tendsto (fun n : ℕ => W t n / n) atTop (𝓝 μ)) (hC : ∀ t < T, Tendsto (fun n : ℕ => C t n / n) atTop (𝓝 q)) {ε : ℝ} (he : 0 < ε) :
    ∃ B : ℝ, ∀ τ : ℕ → ℕ, B ≤ ∑ t ∈ Finset.range T, C t (τ t) →
      |(∑ t ∈ Finset.range T, W t (τ t)) / (∑ t ∈ Finset.range T, C t (τ t)) - μ / q| ≤ ε := by
  have h1 : ∀ t < T, ∃ K, 0 ≤ K ∧ ∀ n, |W t n - μ / q * C t n| ≤ (ε * q / 4) * n + K := by
    intro t ht
    refine small_le ?_ (by positivity)
    have := (hW t ht).sub ((hC t ht).const_mul (μ / q))
    rw [div_mul_cancel₀ _ hq.ne', sub_self] at this
    refine this.congr ?_
    intro n
    ring
  have h2 : ∀ t < T, ∃ K, 0 ≤ K ∧ ∀ n, |C t n - q * n| ≤ (q / 2) * n + K := by
    intro t ht
    refine small_le ?_ (by positivity)
    have := (hC t ht).sub (tendsto_const_nhds (x := q))
    rw [sub_self] at this
    refine this.congr' ?_
    filter_upwards [eventually_gt_atTop 0] with n hn
    have : (n:ℝ) ≠ 0 := by positivity
    field_simp
  choose! K1 k1 k1' using h1
  choose! K2 k2 k2' using h2
  set A := ∑ t ∈ Finset.range T, K1 t
  set A' := ∑ t ∈ Finset.range T, K2 t
  have hA : 0 ≤ A := Finset.sum_nonneg fun t ht => k1 t (Finset.mem_range.1 ht)
  have hA' : 0 ≤ A' := Finset.sum_nonneg fun t ht => k2 t (Finset.mem_range.1 ht)
  refine ⟨2 / ε * (A + ε / 2 * A') + 1, ?_⟩
  intro τ hB
  set c := ∑ t ∈ Finset.range T, C t (τ t)
  set N := ∑ t ∈ Finset.range T, (τ t : ℝ)
  have hc : 0 < c := by
    have : 0 ≤ 2 / ε * (A + ε / 2 * A') := by positivity
    linarith
  have hN : q / 2 * N ≤ c + A' := by
    have : ∑ t ∈ Finset.range T, (q / 2 * (τ t : ℝ)) ≤ ∑ t ∈ Finset.range T, (C t (τ t) + K2 t) := by
      refine Finset.sum_le_sum fun t ht => ?_
      have := abs_le.1 (k2' t (Finset.mem_range.1 ht) (τ t))
      linarith [this.1]
    rw [Finset.sum_add_distrib, ← Finset.mul_sum] at this
    exact this
  have hS : |(∑ t ∈ Finset.range T, W t (τ t)) - μ / q * c| ≤ ε * q / 4 * N + A := by
    rw [Finset.mul_sum, ← Finset.sum_sub_distrib]
    refine (Finset.abs_sum_le_sum_abs _ _).trans ?_
    rw [Finset.mul_sum, ← Finset.sum_add_distrib]
    exact Finset.sum_le_sum fun t ht => k1' t (Finset.mem_range.1 ht) (τ t)
  have e : (∑ t ∈ Finset.range T, W t (τ t)) / c - μ / q = ((∑ t ∈ Finset.range T, W t (τ t)) - μ / q * c) / c := by
    field_simp
  rw [e, abs_div, abs_of_pos hc, div_le_iff₀ hc]
  refine hS.trans ?_
  have h3 : ε * q / 4 * N ≤ ε / 2 * (c + A') := by nlinarith
  have h4 : A + ε / 2 * A' ≤ ε / 2 * c := by
    have : 2 / ε * (A + ε / 2 * A') ≤ c := by linarith
    rw [div_mul_eq_mul_div, div_le_iff₀ he] at this
    linarith
  linarith

end Polycap.Unif
