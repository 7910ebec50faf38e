import Verif.Props.UniformEllipse
import Mathlib.Probability.Independence.InfinitePi

/-!
# C98, mathematics: streams of independent uniform numbers

`draws` is the law of an endless sequence of independent numbers uniform on `[0, 1)`: what a perfect generator would give.
-/
namespace Polycap.Unif
open MeasureTheory Set

/-- an endless sequence of independent numbers, each uniform on `[0, 1)` -/
noncomputable def draws : Measure (ℕ → ℝ) := Measure.infinitePi fun _ => unif

instance : IsProbabilityMeasure draws := by unfold draws; infer_instance

/-- the sequence with `n` numbers dropped -/
def drop (n : ℕ) (u : ℕ → ℝ) : ℕ → ℝ := fun i => u (i + n)

theorem drop_meas (n : ℕ) : Measurable (drop n) := by unfold drop; fun_prop

theorem drop_law (n : ℕ) : draws.map (drop n) = draws :=
  Measure.map_infinitePi_infinitePi_of_inj (P := fun _ => unif) (f := fun i : ℕ => i + n) (fun _ _ h => by simpa using h)

/-- a number in front of a sequence -/
def front (p : ℝ × (ℕ → ℝ)) : ℕ → ℝ
  | 0 => p.1
  | i + 1 => p.2 i

theorem front_meas : Measurable front := by
  refine measurable_pi_lambda _ fun i => ?_
  cases i
  · exact measurable_fst
  · exact (measurable_pi_apply _).comp measurable_snd

theorem front_law : (unif.prod draws).map front = draws := by
  refine Measure.eq_infinitePi _ fun s t ht => ?_
  classical
  obtain ⟨N, hN⟩ : ∃ N, ∀ i ∈ s, i < N + 1 := ⟨s.sup id, fun i hi => Nat.lt_succ_of_le (Finset.le_sup (f := id) hi)⟩
  set t' : ℕ → Set ℝ := fun i => if i ∈ s then t i else univ with ht'
  have ht0 : ∀ i, MeasurableSet (t' i) := by
    intro i
    simp only [ht']
    split_ifs
    · exact ht i
    · exact MeasurableSet.univ
  have e1 : Set.pi s t = Set.pi (Finset.range (N + 1)) t' := by
    ext u
    simp only [Set.mem_pi, Finset.mem_coe, Finset.mem_range, ht']
    constructor
    · intro h i _
      split_ifs with hi
      · exact h i hi
      · trivial
    · intro h i hi
      have := h i (hN i hi)
      rwa [if_pos hi] at this
  have e2 : ∏ i ∈ s, unif (t i) = ∏ i ∈ Finset.range (N + 1), unif (t' i) := by
    rw [← Finset.prod_subset (s₁ := s) (s₂ := Finset.range (N + 1)) (f := fun i => unif (t' i))]
    · exact Finset.prod_congr rfl fun i hi => by simp only [ht', if_pos hi]
    · intro i hi; exact Finset.mem_range.2 (hN i hi)
    · intro i _ hi
      simp only [ht', if_neg hi, measure_univ]
  rw [e1, e2, Measure.map_apply front_meas (MeasurableSet.pi (Finset.countable_toSet _) fun i _ => ht0 i)]
  have e3 : front ⁻¹' Set.pi (Finset.range (N + 1)) t' = t' 0 ×ˢ Set.pi (Finset.range N) (fun i => t' (i + 1)) := by
    ext ⟨x, u⟩
    simp only [mem_preimage, Set.mem_pi, Finset.mem_coe, Finset.mem_range, mem_prod]
    constructor
    · intro h
      exact ⟨h 0 (by omega), fun i hi => h (i + 1) (by omega)⟩
    · rintro ⟨h0, h1⟩ i hi
      cases i with
      | zero => exact h0
      | succ i => exact h1 i (by omega)
  rw [e3, Measure.prod_prod, draws, Measure.infinitePi_pi _ (fun i _ => ht0 (i + 1)), Finset.prod_range_succ', mul_comm]

/-- the first number is independent of the rest -/
theorem draw_split (s : Set ℝ) (hs : MeasurableSet s) (t : Set (ℕ → ℝ)) (ht : MeasurableSet t) :
    draws {u | u 0 ∈ s ∧ drop 1 u ∈ t} = unif s * draws t := by
  have hm : MeasurableSet {u : ℕ → ℝ | u 0 ∈ s ∧ drop 1 u ∈ t} := (measurable_pi_apply 0 hs).inter (drop_meas 1 ht)
  conv_lhs => rw [← front_law]
  rw [Measure.map_apply front_meas hm, ← Measure.prod_prod]
  rfl

/-- the same with an event on both -/
theorem draw_map : draws.map (fun u => (u 0, drop 1 u)) = unif.prod draws := by
  conv_lhs => rw [← front_law]
  rw [Measure.map_map ((measurable_pi_apply 0).prodMk (drop_meas 1)) front_meas]
  exact Measure.map_id

theorem drop_drop (n m : ℕ) (u : ℕ → ℝ) : drop n (drop m u) = drop (n + m) u := by
  funext i; simp only [drop]; congr 1; omega

/-- the first two numbers and the rest -/
theorem draw_map2 : draws.map (fun u => ((u 0, u 1), drop 2 u)) = (unif.prod unif).prod draws := by
  have h1 : Measurable fun u : ℕ → ℝ => (u 0, drop 1 u) := (measurable_pi_apply 0).prodMk (drop_meas 1)
  have e : (fun u : ℕ → ℝ => ((u 0, u 1), drop 2 u)) =
      MeasurableEquiv.prodAssoc.symm ∘ (Prod.map id fun u : ℕ → ℝ => (u 0, drop 1 u)) ∘ (fun u => (u 0, drop 1 u)) := by
    funext u; rfl
  rw [e, ← Measure.map_map (by fun_prop) (by fun_prop), ← Measure.map_map (by fun_prop) h1, draw_map, ← Measure.map_prod_map _ _ measurable_id h1,
    draw_map, Measure.map_id]
  exact (measurePreserving_prodAssoc unif unif draws).symm.map_eq

/-- the first three numbers and the rest -/
theorem draw_map3 : draws.map (fun u => ((u 0, u 1, u 2), drop 3 u)) = (unif.prod (unif.prod unif)).prod draws := by
  have h1 : Measurable fun u : ℕ → ℝ => (u 0, drop 1 u) := (measurable_pi_apply 0).prodMk (drop_meas 1)
  have h2 : Measurable fun u : ℕ → ℝ => ((u 0, u 1), drop 2 u) := by
    exact ((measurable_pi_apply 0).prodMk (measurable_pi_apply 1)).prodMk (drop_meas 2)
  have e : (fun u : ℕ → ℝ => ((u 0, u 1, u 2), drop 3 u)) =
      MeasurableEquiv.prodAssoc.symm ∘ (Prod.map id fun u : ℕ → ℝ => ((u 0, u 1), drop 2 u)) ∘ (fun u => (u 0, drop 1 u)) := by
    funext u; rfl
  rw [e, ← Measure.map_map (by fun_prop) (by fun_prop), ← Measure.map_map (by fun_prop) h1, draw_map, ← Measure.map_prod_map _ _ measurable_id h2,
    draw_map2, Measure.map_id]
  exact (measurePreserving_prodAssoc unif (unif.prod unif) draws).symm.map_eq

/-! ## Drawing until accepted -/

/-- pairs are drawn until one lies in `H`; it lies in `A`, and the number drawn next in `B` -/
def hit (H A : Set (ℝ × ℝ)) (B : Set ℝ) : Set (ℕ → ℝ) :=
  {u | ∃ k, (∀ j < k, (u (2 * j), u (2 * j + 1)) ∉ H) ∧ (u (2 * k), u (2 * k + 1)) ∈ H ∧ (u (2 * k), u (2 * k + 1)) ∈ A ∧ u (2 * k + 2) ∈ B}

theorem hit_meas (H A : Set (ℝ × ℝ)) (B : Set ℝ) (hH : MeasurableSet H) (hA : MeasurableSet A) (hB : MeasurableSet B) :
    MeasurableSet (hit H A B) := by
  have m2 : ∀ i j : ℕ, Measurable fun u : ℕ → ℝ => (u i, u j) := fun i j => (measurable_pi_apply i).prodMk (measurable_pi_apply j)
  have : hit H A B = ⋃ k, (⋂ j ∈ Finset.range k, {u | (u (2 * j), u (2 * j + 1)) ∉ H}) ∩
      ({u | (u (2 * k), u (2 * k + 1)) ∈ H} ∩ ({u | (u (2 * k), u (2 * k + 1)) ∈ A} ∩ {u | u (2 * k + 2) ∈ B})) := by
    ext u; simp [hit]
  rw [this]
  refine MeasurableSet.iUnion fun k => (Finset.measurableSet_biInter _ fun j _ => (m2 _ _ hH).compl).inter
    ((m2 _ _ hH).inter ((m2 _ _ hA).inter (measurable_pi_apply _ hB)))

theorem hit_unfold (H A : Set (ℝ × ℝ)) (B : Set ℝ) :
    hit H A B = {u | (u 0, u 1) ∈ H ∩ A ∧ drop 2 u ∈ {v | v 0 ∈ B}} ∪ {u | (u 0, u 1) ∈ Hᶜ ∧ drop 2 u ∈ hit H A B} := by
  ext u
  simp only [hit, mem_union, mem_ofPred_eq, drop, mem_inter_iff, mem_compl_iff]
  constructor
  · rintro ⟨k, h1, h2, h3, h4⟩
    cases k with
    | zero => exact Or.inl ⟨⟨h2, h3⟩, h4⟩
    | succ k =>
      refine Or.inr ⟨by simpa using h1 0 (by omega), k, fun j hj => ?_, ?_, ?_, ?_⟩
      · have := h1 (j + 1) (by omega)
        rwa [show 2 * (j + 1) = 2 * j + 2 by ring, show 2 * j + 2 + 1 = 2 * j + 1 + 2 by ring] at this
      · rwa [show 2 * (k + 1) = 2 * k + 2 by ring, show 2 * k + 2 + 1 = 2 * k + 1 + 2 by ring] at h2
      · rwa [show 2 * (k + 1) = 2 * k + 2 by ring, show 2 * k + 2 + 1 = 2 * k + 1 + 2 by ring] at h3
      · rwa [show 2 * (k + 1) = 2 * k + 2 by ring] at h4
  · rintro (⟨⟨h1, h2⟩, h3⟩ | ⟨h0, k, h1, h2, h3, h4⟩)
    · exact ⟨0, by simp, h1, h2, h3⟩
    · refine ⟨k + 1, fun j hj => ?_, ?_, ?_, ?_⟩
      · cases j with
        | zero => exact h0
        | succ j =>
          have := h1 j (by omega)
          rwa [show 2 * (j + 1) = 2 * j + 2 by ring, show 2 * j + 2 + 1 = 2 * j + 1 + 2 by ring]
      · rwa [show 2 * (k + 1) = 2 * k + 2 by ring, show 2 * k + 2 + 1 = 2 * k + 1 + 2 by ring]
      · rwa [show 2 * (k + 1) = 2 * k + 2 by ring, show 2 * k + 2 + 1 = 2 * k + 1 + 2 by ring]
      · rwa [show 2 * (k + 1) = 2 * k + 2 by ring]

theorem draw_split2 (s : Set (ℝ × ℝ)) (hs : MeasurableSet s) (t : Set (ℕ → ℝ)) (ht : MeasurableSet t) :
    draws {u | (u 0, u 1) ∈ s ∧ drop 2 u ∈ t} = (unif.prod unif) s * draws t := by
  have h2 : Measurable fun u : ℕ → ℝ => ((u 0, u 1), drop 2 u) := by
    exact ((measurable_pi_apply 0).prodMk (measurable_pi_apply 1)).prodMk (drop_meas 2)
  rw [← Measure.prod_prod, ← draw_map2, Measure.map_apply h2 (hs.prod ht)]
  rfl

theorem draw_one (B : Set ℝ) (hB : MeasurableSet B) : draws {v | v 0 ∈ B} = unif B := by
  have := draw_split B hB univ MeasurableSet.univ
  simpa using this

/-- the accepted pair is distributed as one pair given that it is accepted, independently of the number drawn next -/
theorem hit_law (H A : Set (ℝ × ℝ)) (B : Set ℝ) (hH : MeasurableSet H) (hA : MeasurableSet A) (hB : MeasurableSet B)
    (h0 : (unif.prod unif) H ≠ 0) :
    draws (hit H A B) = ProbabilityTheory.cond (unif.prod unif) H A * unif B := by
  have m2 : Measurable fun u : ℕ → ℝ => (u 0, u 1) := (measurable_pi_apply 0).prodMk (measurable_pi_apply 1)
  have mB : MeasurableSet {v : ℕ → ℝ | v 0 ∈ B} := measurable_pi_apply 0 hB
  have step : draws (hit H A B) = (unif.prod unif) (H ∩ A) * unif B + (unif.prod unif) Hᶜ * draws (hit H A B) := by
    conv_lhs => rw [hit_unfold]
    rw [measure_union, draw_split2 _ (hH.inter hA) _ mB, draw_split2 _ hH.compl _ (hit_meas H A B hH hA hB), draw_one B hB]
    · exact disjoint_left.2 fun u h1 h2 => h2.1 h1.1.1
    · exact (m2 hH.compl).inter (drop_meas 2 (hit_meas H A B hH hA hB))
  have one : (unif.prod unif) H + (unif.prod unif) Hᶜ = 1 := by rw [measure_add_measure_compl hH, measure_univ]
  have fin : (unif.prod unif) Hᶜ * draws (hit H A B) ≠ ⊤ := ENNReal.mul_ne_top (measure_ne_top _ _) (measure_ne_top _ _)
  have key : (unif.prod unif) H * draws (hit H A B) = (unif.prod unif) (H ∩ A) * unif B := by
    have : (unif.prod unif) H * draws (hit H A B) + (unif.prod unif) Hᶜ * draws (hit H A B) =
        (unif.prod unif) (H ∩ A) * unif B + (unif.prod unif) Hᶜ * draws (hit H A B) := by
      rw [← add_mul, one, one_mul]; exact step
    exact (ENNReal.add_left_inj fin).1 this
  rw [ProbabilityTheory.cond_apply hH, mul_assoc, ← key, ← mul_assoc, ENNReal.inv_mul_cancel h0 (measure_ne_top _ _), one_mul]

end Polycap.Unif
