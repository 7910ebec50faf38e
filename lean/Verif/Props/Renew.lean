import Verif.Props.Lln

/-!
# C100, mathematics: averages when every photon uses as many numbers as it needs
-/
namespace Polycap.Unif
open MeasureTheory Set Filter ProbabilityTheory
open scoped Topology

/-- what depends on the first `m` numbers only is independent of the numbers after them -/
theorem past_future (m : ℕ) (E : Set (ℕ → ℝ)) (hE : MeasurableSet E) (hloc : ∀ u v : ℕ → ℝ, (∀ i < m, u i = v i) → u ∈ E → v ∈ E) (B : Set (ℕ → ℝ)) (hB : MeasurableSet B) :
    draws (E ∩ drop m ⁻¹' B) = draws E * draws B := by
  induction m generalizing E with
  | zero =>
    by_cases h : E = ∅
    · simp [h]
    · have : E = univ := by
        obtain ⟨u, hu⟩ := nonempty_iff_ne_empty.2 h
        exact eq_univ_of_forall fun v => hloc u v (by simp) hu
      rw [this, univ_inter, measure_univ, one_mul]
      rfl
  | succ m ih =>
    have hEB : MeasurableSet (E ∩ drop (m + 1) ⁻¹' B) := hE.inter (drop_meas _ hB)
    conv_lhs => rw [← front_law, Measure.map_apply front_meas hEB, Measure.prod_apply (front_meas hEB)]
    have : ∀ x : ℝ, draws (Prod.mk x ⁻¹' (front ⁻¹' (E ∩ drop (m + 1) ⁻¹' B))) = draws (Prod.mk x ⁻¹' (front ⁻¹' E)) * draws B := by
      intro x
      rw [← ih (Prod.mk x ⁻¹' (front ⁻¹' E)) (measurable_prodMk_left (front_meas hE))]
      · rfl
      · intro u v h hu
        refine hloc _ _ ?_ hu
        intro i hi
        cases i with
        | zero => rfl
        | succ i => exact h i (by omega)
    simp only [this]
    rw [lintegral_mul_const _ (measurable_measure_prodMk_left (front_meas hE)), ← Measure.prod_apply (front_meas hE), ← Measure.map_apply front_meas hE, front_law]

/-- A quantity read from the stream, and how many numbers were used for it: both are settled by the numbers used. `good` collects the streams for which reading
comes to an end. -/
structure Reader (N : (ℕ → ℝ) → ℕ) (X : (ℕ → ℝ) → ℝ) (good : Set (ℕ → ℝ)) : Prop where
  nm : Measurable N
  xm : Measurable X
  gm : MeasurableSet good
  ae : draws goodᶜ = 0
  loc : ∀ u ∈ good, ∀ v : ℕ → ℝ, (∀ i < N u, u i = v i) → v ∈ good ∧ N v = N u ∧ X v = X u

/-- the stream after the numbers used -/
def after (N : (ℕ → ℝ) → ℕ) (u : ℕ → ℝ) : ℕ → ℝ := drop (N u) u

variable {N : (ℕ → ℝ) → ℕ} {X : (ℕ → ℝ) → ℝ} {good : Set (ℕ → ℝ)}

theorem after_meas (hN : Measurable N) : Measurable (after N) := by
  intro B hB
  have : after N ⁻¹' B = ⋃ m, N ⁻¹' {m} ∩ drop m ⁻¹' B := by
    ext u; simp [after]
  rw [this]
  exact MeasurableSet.iUnion fun m => (hN (measurableSet_singleton m)).inter (drop_meas m hB)

theorem read_split (R : Reader N X good) (A : Set ℝ) (hA : MeasurableSet A) (B : Set (ℕ → ℝ)) (hB : MeasurableSet B) :
    draws (X ⁻¹' A ∩ after N ⁻¹' B) = draws (X ⁻¹' A) * draws B := by
  have cut : ∀ s : Set (ℕ → ℝ), draws s = draws (s ∩ good) := by
    intro s
    refine le_antisymm ?_ (measure_mono inter_subset_left)
    calc draws s ≤ draws ((s ∩ good) ∪ goodᶜ) := measure_mono fun u hu => by
            by_cases h : u ∈ good
            · exact Or.inl ⟨hu, h⟩
            · exact Or.inr h
      _ ≤ draws (s ∩ good) + draws goodᶜ := measure_union_le _ _
      _ = draws (s ∩ good) := by rw [R.ae, add_zero]
  set E : ℕ → Set (ℕ → ℝ) := fun m => (X ⁻¹' A ∩ good) ∩ N ⁻¹' {m} with hEd
  have hE : ∀ m, MeasurableSet (E m) := fun m => ((R.xm hA).inter R.gm).inter (R.nm (measurableSet_singleton m))
  have e1 : (X ⁻¹' A ∩ after N ⁻¹' B) ∩ good = ⋃ m, E m ∩ drop m ⁻¹' B := by
    ext u
    simp only [hEd, mem_inter_iff, mem_preimage, mem_iUnion, mem_singleton_iff, after]
    constructor
    · rintro ⟨⟨h1, h2⟩, h3⟩
      exact ⟨N u, ⟨⟨⟨h1, h3⟩, rfl⟩, h2⟩⟩
    · rintro ⟨m, ⟨⟨⟨h1, h3⟩, h4⟩, h2⟩⟩
      subst h4
      exact ⟨⟨h1, h2⟩, h3⟩
  have e2 : (X ⁻¹' A) ∩ good = ⋃ m, E m := by
    ext u
    simp [hEd]
  have hdis : Pairwise (Function.onFun Disjoint E) := by
    intro i j hij
    refine disjoint_left.2 fun u h1 h2 => hij ?_
    exact h1.2.symm.trans h2.2
  rw [cut (X ⁻¹' A ∩ after N ⁻¹' B), cut (X ⁻¹' A), e1, e2, measure_iUnion (fun i j hij => (hdis hij).mono inter_subset_left inter_subset_left)
    (fun m => (hE m).inter (drop_meas m hB)), measure_iUnion hdis hE, ← ENNReal.tsum_mul_right]
  congr 1
  funext m
  refine past_future m (E m) (hE m) ?_ B hB
  rintro u v h ⟨⟨h1, h2⟩, h3⟩
  have h3 : N u = m := h3
  obtain ⟨g1, g2, g3⟩ := R.loc u h2 v (fun i hi => h i (by omega))
  exact ⟨⟨by rw [mem_preimage, g3]; exact h1, g1⟩, by rw [mem_preimage, g2]; exact h3⟩

theorem after_law (R : Reader N X good) : MeasurePreserving (after N) draws draws := by
  refine ⟨after_meas R.nm, Measure.ext fun B hB => ?_⟩
  rw [Measure.map_apply (after_meas R.nm) hB]
  have := read_split R univ MeasurableSet.univ B hB
  simpa using this

theorem reads_indep (R : Reader N X good) {i j : ℕ} (hij : i < j) :
    IndepFun (fun u => X ((after N)^[i] u)) (fun u => X ((after N)^[j] u)) draws := by
  rw [indepFun_iff_measure_inter_preimage_eq_mul]
  intro A B hA hB
  have P := after_law R
  obtain ⟨d, rfl⟩ : ∃ d, j = d + 1 + i := ⟨j - i - 1, by omega⟩
  have hd : MeasurableSet ((after N)^[d] ⁻¹' (X ⁻¹' B)) := (P.iterate d).measurable (R.xm hB)
  have e : (fun u => X ((after N)^[i] u)) ⁻¹' A ∩ (fun u => X ((after N)^[d + 1 + i] u)) ⁻¹' B =
      (after N)^[i] ⁻¹' (X ⁻¹' A ∩ after N ⁻¹' ((after N)^[d] ⁻¹' (X ⁻¹' B))) := by
    ext u
    simp only [mem_inter_iff, mem_preimage, Function.iterate_add_apply (after N) (d + 1) i, Function.iterate_succ_apply]
  rw [e, (P.iterate i).measure_preimage ((R.xm hA).inter (P.measurable hd)).nullMeasurableSet, read_split R A hA _ hd,
    (P.iterate d).measure_preimage (R.xm hB).nullMeasurableSet]
  congr 1
  · exact ((P.iterate i).measure_preimage (R.xm hA).nullMeasurableSet).symm
  · exact ((P.iterate (d + 1 + i)).measure_preimage (R.xm hB).nullMeasurableSet).symm

/-- **The law of large numbers** for quantities read one after the other from a stream of independent uniform numbers. -/
theorem reads_average (R : Reader N X good) (hi : Integrable X draws) :
    ∀ᵐ u ∂draws, Tendsto (fun n : ℕ => (∑ i ∈ Finset.range n, X ((after N)^[i] u)) / n) atTop (𝓝 (∫ u, X u ∂draws)) := by
  have P := after_law R
  refine strong_law_ae_real (μ := draws) (fun i u => X ((after N)^[i] u)) hi (fun i j hij => ?_) fun i => ?_
  · rcases lt_or_gt_of_ne hij with h | h
    · exact reads_indep R h
    · exact (reads_indep R h).symm
  · refine ⟨(R.xm.comp (P.iterate i).measurable).aemeasurable, R.xm.aemeasurable, ?_⟩
    rw [show (fun u => X ((after N)^[i] u)) = X ∘ (after N)^[i] from rfl, ← Measure.map_map R.xm (P.iterate i).measurable, (P.iterate i).map_eq]
    rfl

end Polycap.Unif
