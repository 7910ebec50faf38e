import Verif.Props.SimOpen
import Verif.Props.DescriptionProps
import Mathlib.Analysis.Real.Pi.Bounds
import Mathlib.MeasureTheory.Measure.Lebesgue.VolumeOfBalls
import Mathlib.LinearAlgebra.Matrix.ToLin

/-!
# C101: the open share of the entrance of a polycapillary
-/
namespace Polycap
open CNum MeasureTheory Filter

namespace Mean
open Set

/-! ## Areas of periodic sets -/

/-- unit cell, and blocks of cells -/
def block (l : ℝ) : Set (ℝ × ℝ) := Ico 0 l ×ˢ Ico 0 l

theorem shift_vol (S T : Set (ℝ × ℝ)) (v : ℝ × ℝ) (h : ∀ p, p + v ∈ S ↔ p ∈ T) : volume S = volume T := by
  rw [← measure_preimage_add_right (volume : Measure (ℝ × ℝ)) v S]
  congr 1
  ext p
  exact h p

theorem block_cells (S : Set (ℝ × ℝ)) (hm : MeasurableSet S) (hp : ∀ (i j : ℕ) (p : ℝ × ℝ), p + ((i : ℝ), (j : ℝ)) ∈ S ↔ p ∈ S) (M : ℕ) :
    volume (S ∩ block M) = M ^ 2 * volume (S ∩ block 1) := by
  have hu : S ∩ block M = ⋃ x ∈ Finset.range M ×ˢ Finset.range M, S ∩ (Ico (x.1 : ℝ) (x.1 + 1) ×ˢ Ico (x.2 : ℝ) (x.2 + 1)) := by
    ext p
    simp only [block, mem_inter_iff, mem_prod, mem_Ico, Finset.mem_product, Finset.mem_range, mem_iUnion, exists_prop]
    constructor
    · rintro ⟨hS, ⟨a1, a2⟩, b1, b2⟩
      refine ⟨(⌊p.1⌋₊, ⌊p.2⌋₊), ⟨(Nat.floor_lt a1).2 a2, (Nat.floor_lt b1).2 b2⟩, hS, ⟨Nat.floor_le a1, Nat.lt_floor_add_one _⟩, Nat.floor_le b1, Nat.lt_floor_add_one _⟩
    · rintro ⟨⟨i, j⟩, ⟨hi, hj⟩, hS, ⟨a1, a2⟩, b1, b2⟩
      simp only at *
      have hi' : (i : ℝ) + 1 ≤ M := by exact_mod_cast hi
      have hj' : (j : ℝ) + 1 ≤ M := by exact_mod_cast hj
      have := Nat.cast_nonneg (α := ℝ) i
      have := Nat.cast_nonneg (α := ℝ) j
      exact ⟨hS, ⟨by linarith, by linarith⟩, by linarith, by linarith⟩
  rw [hu, measure_biUnion_finset]
  · have hc : ∀ x ∈ Finset.range M ×ˢ Finset.range M, volume (S ∩ (Ico (x.1 : ℝ) (x.1 + 1) ×ˢ Ico (x.2 : ℝ) (x.2 + 1))) = volume (S ∩ block 1) := by
      intro x _
      refine shift_vol _ _ ((x.1 : ℝ), (x.2 : ℝ)) fun p => ?_
      rw [mem_inter_iff, mem_inter_iff, hp]
      refine and_congr_right fun _ => ?_
      simp only [block, mem_prod, mem_Ico, Prod.fst_add, Prod.snd_add, le_add_iff_nonneg_left]
      constructor <;> rintro ⟨⟨a, b⟩, c, d⟩ <;> exact ⟨⟨a, by linarith⟩, c, by linarith⟩
    rw [Finset.sum_congr rfl hc, Finset.sum_const, Finset.card_product, Finset.card_range, nsmul_eq_mul]
    push_cast
    ring
  · rintro ⟨i, j⟩ _ ⟨i', j'⟩ _ hne
    refine Set.disjoint_left.2 ?_
    rintro p ⟨-, ⟨a1, a2⟩, b1, b2⟩ ⟨-, ⟨c1, c2⟩, d1, d2⟩
    simp only at *
    refine hne (Prod.ext ?_ ?_)
    · have h1 : (i : ℝ) < i' + 1 := by linarith
      have h2 : (i' : ℝ) < i + 1 := by linarith
      have h1 : i < i' + 1 := by exact_mod_cast h1
      have h2 : i' < i + 1 := by exact_mod_cast h2
      show i = i'
      omega
    · have h1 : (j : ℝ) < j' + 1 := by linarith
      have h2 : (j' : ℝ) < j + 1 := by linarith
      have h1 : j < j' + 1 := by exact_mod_cast h1
      have h2 : j' < j + 1 := by exact_mod_cast h2
      show j = j'
      omega
  · intro x _
    exact hm.inter (measurableSet_Ico.prod measurableSet_Ico)

/-- the four parts of the hexagon of a hexagonal stacking, in lattice coordinates -/
def low (l : ℝ) : Set (ℝ × ℝ) := {p | 0 ≤ p.1 ∧ 0 ≤ p.2 ∧ p.1 + p.2 < l}
def high (l : ℝ) : Set (ℝ × ℝ) := {p | p.1 < 0 ∧ p.2 < 0 ∧ -l ≤ p.1 + p.2}
def kgon (l : ℝ) : Set (ℝ × ℝ) := ((Ico 0 l ×ˢ Ico (-l) 0) ∪ (Ico (-l) 0 ×ˢ Ico 0 l)) ∪ (low l ∪ high l)

theorem low_meas (l : ℝ) : MeasurableSet (low l) :=
  (measurableSet_le measurable_const measurable_fst).inter ((measurableSet_le measurable_const measurable_snd).inter
    (measurableSet_lt (measurable_fst.add measurable_snd) measurable_const))
theorem high_meas (l : ℝ) : MeasurableSet (high l) :=
  (measurableSet_lt measurable_fst measurable_const).inter ((measurableSet_lt measurable_snd measurable_const).inter
    (measurableSet_le measurable_const (measurable_fst.add measurable_snd)))
theorem block_meas (l : ℝ) : MeasurableSet (block l) := measurableSet_Ico.prod measurableSet_Ico
theorem kgon_meas (l : ℝ) : MeasurableSet (kgon l) :=
  ((measurableSet_Ico.prod measurableSet_Ico).union (measurableSet_Ico.prod measurableSet_Ico)).union ((low_meas l).union (high_meas l))

theorem kgon_vol (S : Set (ℝ × ℝ)) (hm : MeasurableSet S) (l : ℝ) (h1 : ∀ p, p + (l, 0) ∈ S ↔ p ∈ S) (h2 : ∀ p, p + (0, l) ∈ S ↔ p ∈ S) :
    volume (S ∩ kgon l) = 3 * volume (S ∩ block l) := by
  have e1 : volume (S ∩ block l) = volume (S ∩ (Ico 0 l ×ˢ Ico (-l) 0)) := by
    refine shift_vol _ _ (0, l) fun p => ?_
    rw [mem_inter_iff, mem_inter_iff, h2]
    refine and_congr_right fun _ => ?_
    simp only [block, mem_prod, mem_Ico, Prod.fst_add, Prod.snd_add, add_zero]
    constructor <;> rintro ⟨a, c, d⟩ <;> exact ⟨a, by linarith, by linarith⟩
  have e2 : volume (S ∩ block l) = volume (S ∩ (Ico (-l) 0 ×ˢ Ico 0 l)) := by
    refine shift_vol _ _ (l, 0) fun p => ?_
    rw [mem_inter_iff, mem_inter_iff, h1]
    refine and_congr_right fun _ => ?_
    simp only [block, mem_prod, mem_Ico, Prod.fst_add, Prod.snd_add, add_zero]
    constructor <;> rintro ⟨⟨c, d⟩, a⟩ <;> exact ⟨⟨by linarith, by linarith⟩, a⟩
  have hh : ∀ p, p + (l, l) ∈ S ↔ p ∈ S := by
    intro p
    rw [show p + (l, l) = p + (l, 0) + (0, l) by ext <;> simp, h2, h1]
  have e3 : volume (S ∩ (block l \ low l)) = volume (S ∩ high l) := by
    refine shift_vol _ _ (l, l) fun p => ?_
    rw [mem_inter_iff, mem_inter_iff, hh]
    refine and_congr_right fun _ => ?_
    simp only [block, low, high, Set.mem_sdiff, mem_prod, mem_Ico, mem_ofPred_eq, Prod.fst_add, Prod.snd_add, not_and, not_lt]
    constructor
    · rintro ⟨⟨⟨a, b⟩, c, d⟩, h⟩
      exact ⟨by linarith, by linarith, by linarith [h a c]⟩
    · rintro ⟨a, b, c⟩
      exact ⟨⟨⟨by linarith, by linarith⟩, by linarith, by linarith⟩, fun _ _ => by linarith⟩
  have e4 : volume (S ∩ block l) = volume (S ∩ low l) + volume (S ∩ high l) := by
    rw [← e3]
    have hsub : low l ⊆ block l := by
      rintro p ⟨a, b, c⟩
      exact ⟨⟨a, by linarith⟩, b, by linarith⟩
    rw [← measure_union (Set.disjoint_left.2 (by rintro p ⟨-, h⟩ ⟨-, -, h'⟩; exact h' h)) (hm.inter ((block_meas l).diff (low_meas l))), ← Set.inter_union_distrib_left,
      Set.union_sdiff_cancel hsub]
  have d1 : Disjoint (S ∩ (Ico 0 l ×ˢ Ico (-l) 0)) (S ∩ (Ico (-l) 0 ×ˢ Ico 0 l)) :=
    Set.disjoint_left.2 (by rintro p ⟨-, ⟨a, -⟩, -⟩ ⟨-, ⟨-, b⟩, -⟩; linarith)
  have d2 : Disjoint (S ∩ low l) (S ∩ high l) := Set.disjoint_left.2 (by rintro p ⟨-, a, -⟩ ⟨-, b, -⟩; linarith)
  have d3 : Disjoint (S ∩ ((Ico 0 l ×ˢ Ico (-l) 0) ∪ (Ico (-l) 0 ×ˢ Ico 0 l))) (S ∩ (low l ∪ high l)) := by
    refine Set.disjoint_left.2 ?_
    rintro p ⟨-, ⟨⟨a, b⟩, c, d⟩ | ⟨⟨a, b⟩, c, d⟩⟩ ⟨-, ⟨e, f, -⟩ | ⟨e, f, -⟩⟩ <;> linarith
  rw [kgon, Set.inter_union_distrib_left, measure_union d3 (hm.inter ((low_meas l).union (high_meas l))), Set.inter_union_distrib_left, Set.inter_union_distrib_left,
    measure_union d1 (hm.inter (measurableSet_Ico.prod measurableSet_Ico)), measure_union d2 (hm.inter (high_meas l)), ← e4, ← e1, ← e2]
  ring

theorem block_vol (l : ℝ) (h : 0 ≤ l) : volume (block l) = ENNReal.ofReal (l ^ 2) := by
  rw [block, Measure.volume_eq_prod, Measure.prod_prod, Real.volume_Ico, sub_zero, ← ENNReal.ofReal_mul h]
  congr 1; ring

theorem kgon_area (l : ℝ) (h : 0 ≤ l) : volume (kgon l) = ENNReal.ofReal (3 * l ^ 2) := by
  have := kgon_vol univ MeasurableSet.univ l (by simp) (by simp)
  rw [univ_inter, univ_inter, block_vol l h] at this
  rw [this, ENNReal.ofReal_mul (by norm_num)]
  norm_num

/-- a set and its translates by whole numbers fill the unit cell with the area of the set, if they do not overlap -/
theorem cell_vol (E : Set (ℝ × ℝ)) (hm : MeasurableSet E) (hd : ∀ (v w : ℤ × ℤ) (p : ℝ × ℝ), p - ((v.1 : ℝ), (v.2 : ℝ)) ∈ E → p - ((w.1 : ℝ), (w.2 : ℝ)) ∈ E → v = w) :
    volume ({p | ∃ v : ℤ × ℤ, p - ((v.1 : ℝ), (v.2 : ℝ)) ∈ E} ∩ block 1) = volume E := by
  have hT : ∀ v : ℤ × ℤ, MeasurableSet {p : ℝ × ℝ | p - ((v.1 : ℝ), (v.2 : ℝ)) ∈ E} := fun v => (measurable_id.sub_const _) hm
  have e1 : {p | ∃ v : ℤ × ℤ, p - ((v.1 : ℝ), (v.2 : ℝ)) ∈ E} ∩ block 1 = ⋃ v : ℤ × ℤ, {p | p - ((v.1 : ℝ), (v.2 : ℝ)) ∈ E} ∩ block 1 := by
    ext p
    simp only [mem_inter_iff, mem_ofPred_eq, mem_iUnion]
    constructor
    · rintro ⟨⟨v, h⟩, h'⟩; exact ⟨v, h, h'⟩
    · rintro ⟨v, h, h'⟩; exact ⟨⟨v, h⟩, h'⟩
  have e2 : E = ⋃ v : ℤ × ℤ, E ∩ {p | p + ((v.1 : ℝ), (v.2 : ℝ)) ∈ block 1} := by
    ext p
    simp only [mem_inter_iff, mem_ofPred_eq, mem_iUnion, block, mem_prod, mem_Ico, Prod.fst_add, Prod.snd_add]
    constructor
    · intro h
      refine ⟨(-⌊p.1⌋, -⌊p.2⌋), h, ?_⟩
      push_cast
      have := Int.floor_le p.1; have := Int.lt_floor_add_one p.1; have := Int.floor_le p.2; have := Int.lt_floor_add_one p.2
      refine ⟨⟨?_, ?_⟩, ?_, ?_⟩ <;> linarith
    · rintro ⟨v, h, -⟩; exact h
  have hB : ∀ v : ℤ × ℤ, MeasurableSet {p : ℝ × ℝ | p + ((v.1 : ℝ), (v.2 : ℝ)) ∈ block 1} := fun v => (measurable_id.add_const _) (block_meas 1)
  rw [e1, measure_iUnion]
  · conv_rhs => rw [e2]
    rw [measure_iUnion]
    · refine tsum_congr fun v => ?_
      refine shift_vol _ _ ((v.1 : ℝ), (v.2 : ℝ)) fun p => ?_
      simp only [mem_inter_iff, mem_ofPred_eq, add_sub_cancel_right]
    · intro v w hne
      refine Set.disjoint_left.2 ?_
      rintro p ⟨-, h1⟩ ⟨-, h2⟩
      refine hne ?_
      simp only [mem_ofPred_eq, block, mem_prod, mem_Ico, Prod.fst_add, Prod.snd_add] at h1 h2
      obtain ⟨⟨a1, a2⟩, a3, a4⟩ := h1
      obtain ⟨⟨b1, b2⟩, b3, b4⟩ := h2
      have i1 : (v.1 : ℝ) < w.1 + 1 := by linarith
      have i2 : (w.1 : ℝ) < v.1 + 1 := by linarith
      have i3 : (v.2 : ℝ) < w.2 + 1 := by linarith
      have i4 : (w.2 : ℝ) < v.2 + 1 := by linarith
      have i1 : v.1 < w.1 + 1 := by exact_mod_cast i1
      have i2 : w.1 < v.1 + 1 := by exact_mod_cast i2
      have i3 : v.2 < w.2 + 1 := by exact_mod_cast i3
      have i4 : w.2 < v.2 + 1 := by exact_mod_cast i4
      exact Prod.ext (by omega) (by omega)
    · exact fun v => hm.inter (hB v)
  · intro v w hne
    refine Set.disjoint_left.2 ?_
    rintro p ⟨h1, -⟩ ⟨h2, -⟩
    exact hne (hd v w p h1 h2)
  · exact fun v => (hT v).inter (block_meas 1)

/-! ## Lattice coordinates -/

/-- position of the lattice coordinates `(s, t)`: `s` steps of length `p` along x, `t` steps to the next row, at height `h` -/
noncomputable def place (p h : ℝ) : (ℝ × ℝ) →ₗ[ℝ] ℝ × ℝ := Matrix.toLin (Module.Basis.finTwoProd ℝ) (Module.Basis.finTwoProd ℝ) !![p, p / 2; 0, h]

theorem place_apply (p h : ℝ) (v : ℝ × ℝ) : place p h v = (p * v.1 + p / 2 * v.2, h * v.2) := by
  simp [place, Matrix.toLin_finTwoProd_apply]

theorem place_vol (p h : ℝ) (hp : 0 < p) (hh : 0 < h) (A : Set (ℝ × ℝ)) : volume (place p h ⁻¹' A) = ENNReal.ofReal (p * h)⁻¹ * volume A := by
  have hdet : LinearMap.det (place p h) = p * h := by
    rw [place, LinearMap.det_toLin, Matrix.det_fin_two_of]; ring
  rw [Measure.addHaar_preimage_linearMap volume (by rw [hdet]; positivity) A, hdet, abs_of_pos (by positivity)]

theorem disc_vol (r : ℝ) (hr : 0 ≤ r) : volume {v : ℝ × ℝ | v.1 ^ 2 + v.2 ^ 2 ≤ r ^ 2} = ENNReal.ofReal (Real.pi * r ^ 2) := by
  have h := Complex.volume_closedBall 0 r
  rw [← Complex.volume_preserving_equiv_real_prod.symm.measure_preimage measurableSet_closedBall.nullMeasurableSet] at h
  have e : Complex.measurableEquivRealProd.symm ⁻¹' Metric.closedBall 0 r = {v : ℝ × ℝ | v.1 ^ 2 + v.2 ^ 2 ≤ r ^ 2} := by
    ext v
    simp only [mem_preimage, Metric.mem_closedBall, dist_zero_right, mem_ofPred_eq, Complex.norm_def, Complex.normSq_apply]
    rw [Real.sqrt_le_left hr]
    simp [pow_two]
  rw [e] at h
  rw [h, mul_comm, ENNReal.ofReal_mul Real.pi_pos.le, ENNReal.ofReal_pow hr]
  congr 1
  rw [ENNReal.ofReal_eq_coe_nnreal Real.pi_pos.le]
  rfl

/-- distance between two rows of capillaries, one step apart being `p` -/
noncomputable def rowH (p : ℝ) : ℝ := 3 * p / (4 * cospi6)

theorem rowH_facts (p : ℝ) (hp : 0 < p) : 0 < rowH p ∧ 3 / 4 * p ^ 2 ≤ rowH p ^ 2 := by
  have hc := cospi6_pos
  have hlt := cospi6_sq_lt
  refine ⟨by unfold rowH; positivity, ?_⟩
  unfold rowH
  rw [div_pow, le_div_iff₀ (by positivity)]
  have : (4 * (cospi6 : ℝ)) ^ 2 ≤ 12 := by nlinarith
  nlinarith [sq_nonneg p]

theorem centre_place (n : ℤ) (ext : ℝ) (hn : 0 ≤ n) (q r : ℤ) :
    (centreX n ext q r, centreY n ext r) = place (ext / (n + 1)) (rowH (ext / (n + 1))) ((q : ℝ), (r : ℝ)) := by
  have hn' : (0:ℝ) < n + 1 := by
    have : (0:ℝ) ≤ n := by exact_mod_cast hn
    linarith
  have hc := cospi6_pos
  rw [place_apply, rowH]
  simp only [centreX, centreY]
  refine Prod.ext ?_ ?_ <;> simp only <;> field_simp

theorem form_pos (i j : ℤ) (h : ¬ (i = 0 ∧ j = 0)) : (1 : ℝ) ≤ (i + j / 2) ^ 2 + 3 / 4 * j ^ 2 := by
  have h1 : (1 : ℤ) ≤ i ^ 2 + i * j + j ^ 2 := by
    by_contra hc
    have h2 : 4 * (i ^ 2 + i * j + j ^ 2) = (2 * i + j) ^ 2 + 3 * j ^ 2 := by ring
    have h3 : (2 * i + j) ^ 2 + 3 * j ^ 2 ≤ 0 := by omega
    have h4 : j = 0 := by
      have : j ^ 2 = 0 := le_antisymm (by nlinarith [sq_nonneg (2 * i + j)]) (sq_nonneg j)
      exact pow_eq_zero_iff (two_ne_zero) |>.1 this
    subst h4
    have h5 : i = 0 := by
      have : i ^ 2 = 0 := le_antisymm (by nlinarith) (sq_nonneg i)
      exact pow_eq_zero_iff (two_ne_zero) |>.1 this
    exact h ⟨h5, rfl⟩
  have h2 : (1 : ℝ) ≤ (i : ℝ) ^ 2 + i * j + j ^ 2 := by exact_mod_cast h1
  linarith

/-- two different capillary axes are at least one step apart -/
theorem axes_apart (p h : ℝ) (hh : 3 / 4 * p ^ 2 ≤ h ^ 2) (i j : ℤ) (hne : ¬ (i = 0 ∧ j = 0)) :
    p ^ 2 ≤ (place p h ((i : ℝ), (j : ℝ))).1 ^ 2 + (place p h ((i : ℝ), (j : ℝ))).2 ^ 2 := by
  rw [place_apply]
  have := form_pos i j hne
  have h1 : p ^ 2 * 1 ≤ p ^ 2 * ((i + j / 2) ^ 2 + 3 / 4 * (j : ℝ) ^ 2) := mul_le_mul_of_nonneg_left this (sq_nonneg p)
  have h2 : 3 / 4 * p ^ 2 * (j : ℝ) ^ 2 ≤ h ^ 2 * (j : ℝ) ^ 2 := mul_le_mul_of_nonneg_right hh (sq_nonneg _)
  have e : (p * (i : ℝ) + p / 2 * j) ^ 2 + (h * j) ^ 2 = p ^ 2 * (i + j / 2) ^ 2 + h ^ 2 * (j : ℝ) ^ 2 := by ring
  simp only [e]
  linarith

/-- points within `a` and `b` of two axes: the axes are within `a + b` of each other -/
theorem tri2 (x y u v a b : ℝ) (ha : 0 ≤ a) (hb : 0 ≤ b) (h1 : x ^ 2 + y ^ 2 ≤ a ^ 2) (h2 : u ^ 2 + v ^ 2 ≤ b ^ 2) : (x - u) ^ 2 + (y - v) ^ 2 ≤ (a + b) ^ 2 := by
  have hcs : (x * u + y * v) ^ 2 ≤ (a * b) ^ 2 := by
    have : (x * u + y * v) ^ 2 ≤ (x ^ 2 + y ^ 2) * (u ^ 2 + v ^ 2) := by nlinarith [sq_nonneg (x * v - y * u)]
    have h3 : (x ^ 2 + y ^ 2) * (u ^ 2 + v ^ 2) ≤ a ^ 2 * b ^ 2 := mul_le_mul h1 h2 (by positivity) (by positivity)
    nlinarith
  have := (abs_le.1 (abs_le_of_sq_le_sq hcs (by positivity))).1
  nlinarith

/-- the openings of an endless stacking -/
def bores (n : ℤ) (ext cap : ℝ) : Set (ℝ × ℝ) := {v | ∃ q r : ℤ, dist2Centre n ext v.1 v.2 q r ≤ cap ^ 2}

/-- the opening around the axis, in lattice coordinates -/
def opening (p cap : ℝ) : Set (ℝ × ℝ) := place p (rowH p) ⁻¹' {v | v.1 ^ 2 + v.2 ^ 2 ≤ cap ^ 2}

theorem bores_place (n : ℤ) (ext cap : ℝ) (hn : 0 ≤ n) :
    place (ext / (n + 1)) (rowH (ext / (n + 1))) ⁻¹' bores n ext cap = {w | ∃ v : ℤ × ℤ, w - ((v.1 : ℝ), (v.2 : ℝ)) ∈ opening (ext / (n + 1)) cap} := by
  ext w
  simp only [mem_preimage, bores, opening, mem_ofPred_eq, map_sub, Prod.fst_sub, Prod.snd_sub]
  have e : ∀ q r : ℤ, dist2Centre n ext (place (ext / (n + 1)) (rowH (ext / (n + 1))) w).1 (place (ext / (n + 1)) (rowH (ext / (n + 1))) w).2 q r =
      ((place (ext / (n + 1)) (rowH (ext / (n + 1))) w).1 - (place (ext / (n + 1)) (rowH (ext / (n + 1))) ((q : ℝ), (r : ℝ))).1) ^ 2 +
      ((place (ext / (n + 1)) (rowH (ext / (n + 1))) w).2 - (place (ext / (n + 1)) (rowH (ext / (n + 1))) ((q : ℝ), (r : ℝ))).2) ^ 2 := by
    intro q r
    rw [← centre_place n ext hn q r, dist2Centre]
  simp only [e]
  constructor
  · rintro ⟨q, r, h⟩; exact ⟨(q, r), h⟩
  · rintro ⟨⟨q, r⟩, h⟩; exact ⟨q, r, h⟩

theorem openings_apart (p cap : ℝ) (hp : 0 < p) (hc : 0 ≤ cap) (h2 : 2 * cap < p) (v w : ℤ × ℤ) (x : ℝ × ℝ)
    (h : x - ((v.1 : ℝ), (v.2 : ℝ)) ∈ opening p cap) (h' : x - ((w.1 : ℝ), (w.2 : ℝ)) ∈ opening p cap) : v = w := by
  by_contra hne
  have hij : ¬ (w.1 - v.1 = 0 ∧ w.2 - v.2 = 0) := fun h => hne (Prod.ext (by omega) (by omega))
  have ap := axes_apart p (rowH p) (rowH_facts p hp).2 (w.1 - v.1) (w.2 - v.2) hij
  simp only [opening, mem_preimage, mem_ofPred_eq] at h h'
  have t := tri2 _ _ _ _ cap cap hc hc h h'
  have e : place p (rowH p) (((w.1 - v.1 : ℤ) : ℝ), ((w.2 - v.2 : ℤ) : ℝ)) = place p (rowH p) (x - ((v.1 : ℝ), (v.2 : ℝ))) - place p (rowH p) (x - ((w.1 : ℝ), (w.2 : ℝ))) := by
    rw [← map_sub]
    congr 1
    refine Prod.ext ?_ ?_ <;> simp
  rw [e] at ap
  have : p ^ 2 ≤ (cap + cap) ^ 2 := le_trans ap t
  nlinarith

theorem opening_meas (p cap : ℝ) : MeasurableSet (opening p cap) := by
  have : opening p cap = {v | (p * v.1 + p / 2 * v.2) ^ 2 + (rowH p * v.2) ^ 2 ≤ cap ^ 2} := by
    ext v; simp only [opening, mem_preimage, mem_ofPred_eq, place_apply]
  rw [this]
  exact measurableSet_le (by fun_prop) measurable_const

theorem translates_meas (E : Set (ℝ × ℝ)) (hm : MeasurableSet E) : MeasurableSet {p : ℝ × ℝ | ∃ v : ℤ × ℤ, p - ((v.1 : ℝ), (v.2 : ℝ)) ∈ E} := by
  have : {p : ℝ × ℝ | ∃ v : ℤ × ℤ, p - ((v.1 : ℝ), (v.2 : ℝ)) ∈ E} = ⋃ v : ℤ × ℤ, {p | p - ((v.1 : ℝ), (v.2 : ℝ)) ∈ E} := by
    ext p; simp
  rw [this]
  exact MeasurableSet.iUnion fun v => (measurable_id.sub_const _) hm

theorem translates_periodic (E : Set (ℝ × ℝ)) (i j : ℤ) (p : ℝ × ℝ) :
    p + ((i : ℝ), (j : ℝ)) ∈ {p : ℝ × ℝ | ∃ v : ℤ × ℤ, p - ((v.1 : ℝ), (v.2 : ℝ)) ∈ E} ↔ p ∈ {p : ℝ × ℝ | ∃ v : ℤ × ℤ, p - ((v.1 : ℝ), (v.2 : ℝ)) ∈ E} := by
  simp only [mem_ofPred_eq]
  constructor
  · rintro ⟨v, h⟩
    refine ⟨(v.1 - i, v.2 - j), ?_⟩
    convert h using 1
    refine Prod.ext ?_ ?_ <;> simp only [Prod.fst_sub, Prod.snd_sub, Prod.fst_add, Prod.snd_add] <;> push_cast <;> ring
  · rintro ⟨v, h⟩
    refine ⟨(v.1 + i, v.2 + j), ?_⟩
    convert h using 1
    refine Prod.ext ?_ ?_ <;> simp only [Prod.fst_sub, Prod.snd_sub, Prod.fst_add, Prod.snd_add] <;> push_cast <;> ring

/-- the openings in the hexagon of `M` shells, in lattice coordinates: three for every two steps of the stacking -/
theorem kgon_bores (p cap : ℝ) (hp : 0 < p) (hc : 0 ≤ cap) (h2 : 2 * cap < p) (M : ℕ) :
    volume ({w : ℝ × ℝ | ∃ v : ℤ × ℤ, w - ((v.1 : ℝ), (v.2 : ℝ)) ∈ opening p cap} ∩ kgon M) =
      ENNReal.ofReal (3 * M ^ 2 * (Real.pi * cap ^ 2 / (p * rowH p))) := by
  have hr := (rowH_facts p hp).1
  have hm := translates_meas _ (opening_meas p cap)
  have hper := translates_periodic (opening p cap)
  rw [kgon_vol _ hm M (fun x => by simpa using hper M 0 x) (fun x => by simpa using hper 0 M x),
    block_cells _ hm (fun i j x => by simpa using hper i j x) M, cell_vol _ (opening_meas p cap) (openings_apart p cap hp hc h2), opening, place_vol p _ hp hr, disc_vol cap hc]
  rw [show (3 * (M:ℝ) ^ 2 * (Real.pi * cap ^ 2 / (p * rowH p))) = 3 * ((M:ℝ) ^ 2 * ((p * rowH p)⁻¹ * (Real.pi * cap ^ 2))) by field_simp,
    ENNReal.ofReal_mul (show (0:ℝ) ≤ 3 by norm_num), ENNReal.ofReal_mul (show (0:ℝ) ≤ (M:ℝ) ^ 2 by positivity), ENNReal.ofReal_mul (show (0:ℝ) ≤ (p * rowH p)⁻¹ by positivity),
    ENNReal.ofReal_pow (show (0:ℝ) ≤ (M:ℝ) by positivity), ENNReal.ofReal_natCast]
  norm_num

/-! ## The entrance in lattice coordinates -/

/-- the constant used for cos 30° -/
theorem const_facts : ∃ σ g : ℝ, σ = Real.sqrt 3 / 2 ∧ g = (3 - 4 * (cospi6 : ℝ) ^ 2) / (8 * cospi6) ∧ (866 / 1000 : ℝ) ≤ cospi6 ∧ (cospi6 : ℝ) ≤ σ ∧ σ ≤ cospi6 + 1 / 10 ^ 19 ∧
    σ ≤ 867 / 1000 ∧ 0 ≤ g ∧ g ≤ 1 / 10 ^ 19 ∧ σ ^ 2 = 3 / 4 := by
  have hc := cospi6_pos
  have hlt := cospi6_sq_lt
  have hgt := cospi6_sq_gt
  have h3 : (Real.sqrt 3 / 2) ^ 2 = 3 / 4 := by rw [div_pow, Real.sq_sqrt (by norm_num)]; norm_num
  have hs : 0 ≤ Real.sqrt 3 / 2 := by positivity
  have hc2 : (866 / 1000 : ℝ) ≤ cospi6 := by simp only [CNum.cospi6, real_lit]; norm_num
  refine ⟨_, _, rfl, rfl, hc2, by nlinarith, ?_, by nlinarith, by
    refine div_nonneg (by linarith) (by linarith), ?_, h3⟩
  · generalize Real.sqrt 3 / 2 = σ at *
    generalize (cospi6 : ℝ) = c at *
    by_contra hcon
    push Not at hcon
    nlinarith
  · rw [div_le_iff₀ (by positivity)]
    generalize (cospi6 : ℝ) = c at *
    nlinarith

theorem kgon_le (l : ℝ) (w : ℝ × ℝ) (h : w ∈ kgon l) : |w.1| ≤ l ∧ |w.2| ≤ l ∧ |w.1 + w.2| ≤ l := by
  simp only [abs_le]
  rcases h with (⟨⟨a, b⟩, c, d⟩ | ⟨⟨a, b⟩, c, d⟩) | (⟨a, b, c⟩ | ⟨a, b, c⟩) <;> refine ⟨⟨?_, ?_⟩, ⟨?_, ?_⟩, ?_, ?_⟩ <;> linarith

theorem kgon_of_lt (l : ℝ) (w : ℝ × ℝ) (h1 : |w.1| < l) (h2 : |w.2| < l) (h3 : |w.1 + w.2| < l) : w ∈ kgon l := by
  rw [abs_lt] at *
  by_cases a : 0 ≤ w.1
  · by_cases b : 0 ≤ w.2
    · exact Or.inr (Or.inl ⟨a, b, h3.2⟩)
    · exact Or.inl (Or.inl ⟨⟨a, h1.2⟩, h2.1.le, not_le.1 b⟩)
  · by_cases b : 0 ≤ w.2
    · exact Or.inl (Or.inr ⟨⟨h1.1.le, not_le.1 a⟩, b, h2.2⟩)
    · exact Or.inr (Or.inr ⟨not_le.1 a, not_le.1 b, h3.1.le⟩)

theorem kgon_mono {l l' : ℝ} (h : l ≤ l') : kgon l ⊆ kgon l' := by
  rintro w ((⟨⟨a, b⟩, c, d⟩ | ⟨⟨a, b⟩, c, d⟩) | (⟨a, b, c⟩ | ⟨a, b, c⟩))
  · exact Or.inl (Or.inl ⟨⟨a, by linarith⟩, by linarith, d⟩)
  · exact Or.inl (Or.inr ⟨⟨by linarith, b⟩, c, by linarith⟩)
  · exact Or.inr (Or.inl ⟨a, b, by linarith⟩)
  · exact Or.inr (Or.inr ⟨a, b, by linarith⟩)

theorem cross_terms (p s t : ℝ) : (cospi6 : ℝ) * (p * s + p / 2 * t) + rowH p * t / 2 = p * (cospi6 * (s + t) + (3 - 4 * (cospi6 : ℝ) ^ 2) / (8 * cospi6) * t) ∧
    (cospi6 : ℝ) * (p * s + p / 2 * t) - rowH p * t / 2 = p * (cospi6 * s - (3 - 4 * (cospi6 : ℝ) ^ 2) / (8 * cospi6) * t) := by
  have hc := cospi6_pos
  unfold rowH
  constructor <;> field_simp <;> ring

/-- the entrance lies between two hexagons of the stacking that differ by 10⁻¹⁸ of their size -/
theorem entrance_place (ext M : ℝ) (he : 0 < ext) (hM : 0 < M) :
    kgon ((1 - 1 / 10 ^ 18) * M) ⊆ place (ext / M) (rowH (ext / M)) ⁻¹' Unif.entrance ext ∧
    place (ext / M) (rowH (ext / M)) ⁻¹' Unif.entrance ext ⊆ kgon ((1 + 1 / 10 ^ 18) * M) := by
  obtain ⟨σ, g, hσ, hg, c0, c1, c2, c3, g0, g1, hσ2⟩ := const_facts
  have hp : 0 < ext / M := by positivity
  have hpm : ext / M * M = ext := by field_simp
  have hrow : rowH (ext / M) * cospi6 = σ ^ 2 * (ext / M) := by
    have := cospi6_pos
    rw [hσ2, rowH]; field_simp
  have hrp := (rowH_facts _ hp).1
  constructor
  · intro w hw
    obtain ⟨k1, k2, k3⟩ := kgon_le _ _ hw
    rw [mem_preimage, place_apply]
    obtain ⟨x1, x2⟩ := cross_terms (ext / M) w.1 w.2
    simp only [Unif.entrance, mem_ofPred_eq, InHex]
    rw [x1, x2, ← hσ, ← hg]
    generalize ext / M = p at *
    generalize rowH p = h at *
    generalize (cospi6 : ℝ) = c at *
    obtain ⟨s, t⟩ := w
    simp only at *
    have hL : (1 - 1 / 10 ^ 18) * M < M := by linarith
    have gt : |g * t| ≤ 1 / 10 ^ 19 * M := by
      rw [abs_mul, abs_of_nonneg g0]
      have : |t| ≤ M := le_trans k2 hL.le
      exact mul_le_mul g1 this (abs_nonneg _) (by norm_num)
    have hcs : ∀ a : ℝ, |a| ≤ (1 - 1 / 10 ^ 18) * M → |c * a| ≤ c * ((1 - 1 / 10 ^ 18) * M) := by
      intro a ha
      rw [abs_mul, abs_of_nonneg (by linarith)]
      exact mul_le_mul_of_nonneg_left ha (by linarith)
    have hσM : c * ((1 - 1 / 10 ^ 18) * M) + 1 / 10 ^ 19 * M ≤ σ * M := by
      have h0 : c * (1 - 1 / 10 ^ 18) + 1 / 10 ^ 19 ≤ σ := by linarith
      have := mul_le_mul_of_nonneg_right h0 hM.le
      linarith
    refine ⟨?_, ?_, ?_, ?_⟩
    · rw [show p * s + p / 2 * t = p * ((s + (s + t)) / 2) by ring, abs_mul, abs_of_pos hp, ← hpm]
      refine mul_lt_mul_of_pos_left ?_ hp
      have k1 := abs_le.1 k1
      have k3 := abs_le.1 k3
      rw [abs_lt]
      constructor <;> linarith
    · rw [abs_mul, abs_of_pos hrp]
      have h1 : h * |t| ≤ h * ((1 - 1 / 10 ^ 18) * M) := mul_le_mul_of_nonneg_left k2 hrp.le
      refine le_trans h1 ?_
      have h2 : h * ((1 - 1 / 10 ^ 18) * M) * c ≤ σ * ext * c := by
        rw [← hpm, show h * ((1 - 1 / 10 ^ 18) * M) * c = (h * c) * ((1 - 1 / 10 ^ 18) * M) by ring, hrow]
        have : σ * (1 - 1 / 10 ^ 18) ≤ c := by linarith
        have h3 : σ * (1 - 1 / 10 ^ 18) * (σ * (p * M)) ≤ c * (σ * (p * M)) := mul_le_mul_of_nonneg_right this (by
          have : 0 ≤ σ := by linarith
          positivity)
        rw [show σ ^ 2 * p * ((1 - 1 / 10 ^ 18) * M) = σ * (1 - 1 / 10 ^ 18) * (σ * (p * M)) by ring, show σ * (p * M) * c = c * (σ * (p * M)) by ring]
        exact h3
      exact le_of_mul_le_mul_right h2 (by linarith)
    · rw [abs_mul, abs_of_pos hp, ← hpm, show σ * (p * M) = p * (σ * M) by ring]
      refine mul_le_mul_of_nonneg_left ?_ hp.le
      refine le_trans (abs_add_le _ _) (le_trans (add_le_add (hcs _ k3) gt) hσM)
    · rw [abs_mul, abs_of_pos hp, ← hpm, show σ * (p * M) = p * (σ * M) by ring]
      refine mul_le_mul_of_nonneg_left ?_ hp.le
      refine le_trans (abs_sub _ _) (le_trans (add_le_add (hcs _ k1) gt) hσM)
  · intro w hw
    rw [mem_preimage, place_apply] at hw
    obtain ⟨x1, x2⟩ := cross_terms (ext / M) w.1 w.2
    simp only [Unif.entrance, mem_ofPred_eq, InHex] at hw
    rw [x1, x2, ← hσ, ← hg] at hw
    obtain ⟨-, h1, h2, h3⟩ := hw
    generalize ext / M = p at *
    generalize rowH p = h at *
    generalize (cospi6 : ℝ) = c at *
    obtain ⟨s, t⟩ := w
    simp only at *
    have ht : |t| ≤ M := by
      rw [abs_mul, abs_of_pos hrp, ← hpm] at h1
      have h4 : h * |t| * c ≤ σ * (p * M) * c := mul_le_mul_of_nonneg_right h1 (by linarith)
      rw [show h * |t| * c = (h * c) * |t| by ring, hrow] at h4
      have h5 : σ ^ 2 * p * |t| ≤ σ ^ 2 * p * M := by
        have : σ * (p * M) * c ≤ σ * (p * M) * σ := mul_le_mul_of_nonneg_left c1 (by
          have : 0 ≤ σ := by linarith
          positivity)
        rw [show σ ^ 2 * p * M = σ * (p * M) * σ by ring]
        exact le_trans h4 this
      exact le_of_mul_le_mul_left h5 (by rw [hσ2]; positivity)
    have gt : |g * t| ≤ 1 / 10 ^ 19 * M := by
      rw [abs_mul, abs_of_nonneg g0]
      exact mul_le_mul g1 ht (abs_nonneg _) (by norm_num)
    rw [abs_mul, abs_of_pos hp, ← hpm, show σ * (p * M) = p * (σ * M) by ring] at h2 h3
    have h2 := le_of_mul_le_mul_left h2 hp
    have h3 := le_of_mul_le_mul_left h3 hp
    have hfin : ∀ a : ℝ, c * |a| ≤ σ * M + 1 / 10 ^ 19 * M → |a| < (1 + 1 / 10 ^ 18) * M := by
      intro a ha
      have h0 : σ + 1 / 10 ^ 19 < c * (1 + 1 / 10 ^ 18) := by linarith
      have := mul_lt_mul_of_pos_right h0 hM
      have : c * |a| < c * ((1 + 1 / 10 ^ 18) * M) := by linarith
      exact lt_of_mul_lt_mul_left this (by linarith)
    refine kgon_of_lt _ _ (hfin s ?_) (lt_of_le_of_lt ht (by linarith)) (hfin (s + t) ?_)
    · have : |c * s| ≤ |c * s - g * t| + |g * t| := by
        have := abs_add_le (c * s - g * t) (g * t)
        rwa [sub_add_cancel] at this
      rw [abs_mul, abs_of_nonneg (show 0 ≤ c by linarith)] at this
      linarith
    · have : |c * (s + t)| ≤ |c * (s + t) + g * t| + |g * t| := by
        have := abs_sub (c * (s + t) + g * t) (g * t)
        rwa [add_sub_cancel_right] at this
      rw [abs_mul, abs_of_nonneg (show 0 ≤ c by linarith)] at this
      linarith

/-! ## The holes of a polycapillary -/

theorem dist_place (n : ℤ) (ext x y : ℝ) (hn : 0 ≤ n) (q r : ℤ) : dist2Centre n ext x y q r =
    (x - (place (ext / (n + 1)) (rowH (ext / (n + 1))) ((q : ℝ), (r : ℝ))).1) ^ 2 + (y - (place (ext / (n + 1)) (rowH (ext / (n + 1))) ((q : ℝ), (r : ℝ))).2) ^ 2 := by
  rw [← centre_place n ext hn q r, dist2Centre]

/-- a point inside some bore is assigned to that bore -/
theorem bore_found (n : ℤ) (hn : 0 ≤ n) (ext cap x y : ℝ) (he : 0 < ext) (hc : 0 ≤ cap) (hg : cap * (2 + 1 / 10 ^ 18) < ext / (n + 1)) (q r : ℤ)
    (h : dist2Centre n ext x y q r ≤ cap ^ 2) : hexRound n ext x y = (q, r) := by
  have near := nearest_capillary n hn ext he x y q r
  simp only at near
  generalize hexRound n ext x y = z at near ⊢
  have hp : 0 < ext / ((n:ℝ) + 1) := by
    have : (0:ℝ) ≤ n := by exact_mod_cast hn
    positivity
  have h1 : dist2Centre n ext x y z.1 z.2 ≤ ((1 + 1 / 10 ^ 18) * cap) ^ 2 := by
    refine le_trans near (le_trans (mul_le_mul_of_nonneg_left h (by norm_num)) ?_)
    have := sq_nonneg cap
    rw [mul_pow]
    refine mul_le_mul_of_nonneg_right ?_ this
    norm_num
  by_contra hne
  have hij : ¬ (z.1 - q = 0 ∧ z.2 - r = 0) := fun h => hne (Prod.ext (by omega) (by omega))
  have ap := axes_apart (ext / (n + 1)) (rowH (ext / (n + 1))) (rowH_facts _ hp).2 (z.1 - q) (z.2 - r) hij
  rw [dist_place n ext x y hn] at h h1
  have t := tri2 _ _ _ _ cap ((1 + 1 / 10 ^ 18) * cap) hc (by positivity) h h1
  have e : place (ext / (n + 1)) (rowH (ext / (n + 1))) (((z.1 - q : ℤ) : ℝ), ((z.2 - r : ℤ) : ℝ)) =
      place (ext / (n + 1)) (rowH (ext / (n + 1))) ((z.1 : ℝ), (z.2 : ℝ)) - place (ext / (n + 1)) (rowH (ext / (n + 1))) ((q : ℝ), (r : ℝ)) := by
    rw [← map_sub]
    congr 1
    refine Prod.ext ?_ ?_ <;> simp
  rw [e] at ap
  simp only [Prod.fst_sub, Prod.snd_sub] at ap
  have h3 : (ext / ((n:ℝ) + 1)) ^ 2 ≤ (cap + (1 + 1 / 10 ^ 18) * cap) ^ 2 := by
    refine le_trans ap (le_trans (le_of_eq ?_) t)
    ring
  have h4 := abs_le_of_sq_le_sq h3 (by positivity)
  rw [abs_of_pos hp] at h4
  linarith

theorem face_hex {D : Descr ℝ} (hn : ¬ D.n_cap ≤ 3) : face D = Unif.entrance (D.prof.ext 0) := by
  unfold face spot
  rw [if_neg hn]
  ext v
  simp only [mem_inter_iff, mem_ofPred_eq, Outside, if_neg hn, not_not, and_iff_left_iff_imp]
  exact fun h => h.2

theorem holes_hex {D : Descr ℝ} (hn : ¬ D.n_cap ≤ 3) (he : 0 < D.prof.ext 0) (hc : 0 ≤ D.prof.cap 0)
    (hg : D.prof.cap 0 * (2 + 1 / 10 ^ 18) < D.prof.ext 0 / ((nShells (α := ℝ) D.n_cap : ℝ) + 1)) :
    holes D = Unif.entrance (D.prof.ext 0) ∩ bores (nShells (α := ℝ) D.n_cap) (D.prof.ext 0) (D.prof.cap 0) := by
  have h0 : 0 ≤ nShells (α := ℝ) D.n_cap := ((nShells_iff D.n_cap (by omega) (nShells (α := ℝ) D.n_cap)).mp rfl).1
  unfold holes glass
  rw [face_hex hn]
  ext v
  simp only [mem_inter_iff, mem_ofPred_eq, Set.mem_sdiff, InGlass, if_neg hn, not_and, not_lt, bores]
  refine and_congr_right fun hv => ?_
  constructor
  · intro h
    exact ⟨(hexRound (nShells (α := ℝ) D.n_cap) (D.prof.ext 0) v.1 v.2).1, (hexRound (nShells (α := ℝ) D.n_cap) (D.prof.ext 0) v.1 v.2).2, (Real.sqrt_le_left hc).1 (h hv)⟩
  · rintro ⟨q, r, h⟩ -
    rw [bore_found _ h0 _ _ _ _ he hc hg q r h]
    exact (Real.sqrt_le_left hc).2 h

/-! ## The open share -/

theorem preimage_ratio (p h : ℝ) (hp : 0 < p) (hh : 0 < h) (A B : Set (ℝ × ℝ)) :
    (volume (place p h ⁻¹' A)).toReal / (volume (place p h ⁻¹' B)).toReal = (volume A).toReal / (volume B).toReal := by
  rw [place_vol p h hp hh, place_vol p h hp hh, ENNReal.toReal_mul, ENNReal.toReal_mul, ENNReal.toReal_ofReal (by positivity)]
  rw [mul_div_mul_left]
  positivity

/-- a share taken in a set squeezed between two nearby ones -/
theorem squeeze (S H : Set (ℝ × ℝ)) (M e : ℝ) (hM : 0 < M) (he0 : 0 ≤ e) (he1 : e ≤ 1)
    (h1 : kgon ((1 - 1 / 10 ^ 18) * M) ⊆ H) (h2 : H ⊆ kgon ((1 + 1 / 10 ^ 18) * M)) (hv : volume (S ∩ kgon M) = ENNReal.ofReal (3 * M ^ 2 * e)) :
    |(volume (S ∩ H)).toReal / (volume H).toReal - e| ≤ 13 / 10 ^ 18 := by
  have fin : ∀ l, 0 ≤ l → volume (kgon l) ≠ ⊤ := fun l hl => by rw [kgon_area l hl]; exact ENNReal.ofReal_ne_top
  have val : ∀ l, 0 ≤ l → (volume (kgon l)).toReal = 3 * l ^ 2 := fun l hl => by rw [kgon_area l hl, ENNReal.toReal_ofReal (by positivity)]
  have lm : 0 ≤ (1 - 1 / 10 ^ 18) * M := mul_nonneg (by norm_num) hM.le
  have lp : 0 ≤ (1 + 1 / 10 ^ 18) * M := mul_nonneg (by norm_num) hM.le
  have hHf : volume H ≠ ⊤ := ne_top_of_le_ne_top (fin _ lp) (measure_mono h2)
  have y1 : (volume H).toReal ≤ 3 * ((1 + 1 / 10 ^ 18) * M) ^ 2 := by
    rw [← val _ lp]; exact ENNReal.toReal_mono (fin _ lp) (measure_mono h2)
  have y0 : 3 * ((1 - 1 / 10 ^ 18) * M) ^ 2 ≤ (volume H).toReal := by
    rw [← val _ lm]; exact ENNReal.toReal_mono hHf (measure_mono h1)
  have k0 : volume.real (S ∩ kgon M) = 3 * M ^ 2 * e := by
    rw [Measure.real, hv, ENNReal.toReal_ofReal (by positivity)]
  have d1 : volume.real (kgon ((1 + 1 / 10 ^ 18) * M) \ kgon M) = 3 * ((1 + 1 / 10 ^ 18) * M) ^ 2 - 3 * M ^ 2 := by
    rw [measureReal_sdiff (kgon_mono (by linarith)) (kgon_meas _) (fin _ lp), Measure.real, Measure.real, val _ lp, val _ hM.le]
  have d2 : volume.real (kgon M \ kgon ((1 - 1 / 10 ^ 18) * M)) = 3 * M ^ 2 - 3 * ((1 - 1 / 10 ^ 18) * M) ^ 2 := by
    rw [measureReal_sdiff (kgon_mono (by linarith)) (kgon_meas _) (fin _ hM.le), Measure.real, Measure.real, val _ lm, val _ hM.le]
  have x1 : volume.real (S ∩ H) ≤ 3 * M ^ 2 * e + (3 * ((1 + 1 / 10 ^ 18) * M) ^ 2 - 3 * M ^ 2) := by
    rw [← k0, ← d1]
    refine le_trans (measureReal_mono ?_ ?_) (measureReal_union_le _ _)
    · rintro w ⟨a, b⟩
      by_cases c : w ∈ kgon M
      · exact Or.inl ⟨a, c⟩
      · exact Or.inr ⟨h2 b, c⟩
    · exact ne_top_of_le_ne_top (ENNReal.add_ne_top.2 ⟨ne_top_of_le_ne_top (fin _ hM.le) (measure_mono inter_subset_right), ne_top_of_le_ne_top (fin _ lp) (measure_mono sdiff_subset)⟩) (measure_union_le _ _)
  have x0 : 3 * M ^ 2 * e ≤ volume.real (S ∩ H) + (3 * M ^ 2 - 3 * ((1 - 1 / 10 ^ 18) * M) ^ 2) := by
    rw [← k0, ← d2]
    refine le_trans (measureReal_mono ?_ ?_) (measureReal_union_le _ _)
    · rintro w ⟨a, b⟩
      by_cases c : w ∈ kgon ((1 - 1 / 10 ^ 18) * M)
      · exact Or.inl ⟨a, h1 c⟩
      · exact Or.inr ⟨b, c⟩
    · exact ne_top_of_le_ne_top (ENNReal.add_ne_top.2 ⟨ne_top_of_le_ne_top hHf (measure_mono inter_subset_right), ne_top_of_le_ne_top (fin _ hM.le) (measure_mono sdiff_subset)⟩) (measure_union_le _ _)
  unfold Measure.real at x0 x1
  generalize (volume (S ∩ H)).toReal = x at *
  generalize (volume H).toReal = y at *
  have hM2 : 0 < M ^ 2 := by positivity
  rw [mul_pow] at x0 x1 y0 y1
  generalize M ^ 2 = m at *
  have hy : 0 < y := by nlinarith
  rw [div_sub' hy.ne', abs_div, abs_of_pos hy, div_le_iff₀ hy, abs_le]
  have q1 : y * e ≤ 3 * ((1 + 1 / 10 ^ 18) ^ 2 * m) * e := mul_le_mul_of_nonneg_right y1 he0
  have q0 : 3 * ((1 - 1 / 10 ^ 18) ^ 2 * m) * e ≤ y * e := mul_le_mul_of_nonneg_right y0 he0
  have me : m * e ≤ m * 1 := mul_le_mul_of_nonneg_left he1 hM2.le
  have me0 : 0 ≤ m * e := mul_nonneg hM2.le he0
  constructor <;> nlinarith

/-- the share of the plane that lies in the bores of an endless hexagonal stacking with pitch `p` -/
noncomputable def stacking (p cap : ℝ) : ℝ := Real.pi * cap ^ 2 / (Real.sqrt 3 / 2 * p ^ 2)

theorem stacking_near (p cap : ℝ) (hp : 0 < p) (hc : 0 ≤ cap) (h2 : 2 * cap ≤ p) :
    0 ≤ Real.pi * cap ^ 2 / (p * rowH p) ∧ Real.pi * cap ^ 2 / (p * rowH p) ≤ 1 ∧ |Real.pi * cap ^ 2 / (p * rowH p) - stacking p cap| ≤ 1 / 10 ^ 18 := by
  obtain ⟨σ, g, hσ, -, c0, c1, c2, c3, -, -, hσ2⟩ := const_facts
  have hcp := cospi6_pos
  have e1 : Real.pi * cap ^ 2 / (p * rowH p) = Real.pi * (cap ^ 2 / p ^ 2) * (4 * cospi6 / 3) := by
    unfold rowH; field_simp
  have hσ0 : 0 < σ := by linarith
  have e2 : stacking p cap = Real.pi * (cap ^ 2 / p ^ 2) * (4 * σ / 3) := by
    rw [stacking, ← hσ]
    have : 1 / σ = 4 * σ / 3 := by rw [div_eq_div_iff hσ0.ne' (by norm_num)]; nlinarith
    rw [← this]; field_simp
  have hx0 : 0 ≤ cap ^ 2 / p ^ 2 := by positivity
  have hx1 : cap ^ 2 / p ^ 2 ≤ 1 / 4 := by rw [div_le_iff₀ (by positivity)]; nlinarith
  have hpi := Real.pi_lt_d2
  have hpi0 := Real.pi_pos
  rw [e1, e2]
  have hy0 : 0 ≤ Real.pi * (cap ^ 2 / p ^ 2) := by positivity
  have hy1 : Real.pi * (cap ^ 2 / p ^ 2) ≤ 79 / 100 := by nlinarith
  generalize Real.pi * (cap ^ 2 / p ^ 2) = y at *
  generalize (cospi6 : ℝ) = c at *
  refine ⟨by positivity, by nlinarith, ?_⟩
  rw [abs_le]
  constructor <;> nlinarith

/-- **C101** (polycapillary).  The open share of the hexagonal entrance is that of the endless stacking. -/
theorem openFraction_hex {D : Descr ℝ} (hn : ¬ D.n_cap ≤ 3) (he : 0 < D.prof.ext 0) (hc : 0 ≤ D.prof.cap 0)
    (hg : D.prof.cap 0 * (2 + 1 / 10 ^ 18) < D.prof.ext 0 / ((nShells (α := ℝ) D.n_cap : ℝ) + 1)) :
    |openFraction D - stacking (D.prof.ext 0 / ((nShells (α := ℝ) D.n_cap : ℝ) + 1)) (D.prof.cap 0)| ≤ 1 / 10 ^ 16 := by
  have h0 : 0 ≤ nShells (α := ℝ) D.n_cap := ((nShells_iff D.n_cap (by omega) (nShells (α := ℝ) D.n_cap)).mp rfl).1
  obtain ⟨k, hk⟩ := Int.eq_ofNat_of_zero_le h0
  have hM : ((nShells (α := ℝ) D.n_cap : ℝ) + 1) = ((k + 1 : ℕ) : ℝ) := by rw [hk]; push_cast; ring
  unfold openFraction
  rw [holes_hex hn he hc hg, face_hex hn]
  have hbp := bores_place (nShells (α := ℝ) D.n_cap) (D.prof.ext 0) (D.prof.cap 0) h0
  generalize nShells (α := ℝ) D.n_cap = N at *
  generalize D.prof.ext 0 = ext at *
  generalize D.prof.cap 0 = cap at *
  rw [hM] at hg hbp ⊢
  have hMp : (0:ℝ) < ((k + 1 : ℕ) : ℝ) := by positivity
  have hp : 0 < ext / ((k + 1 : ℕ) : ℝ) := by positivity
  have h2 : 2 * cap < ext / ((k + 1 : ℕ) : ℝ) := by linarith
  obtain ⟨s0, s1, s2⟩ := stacking_near _ cap hp hc h2.le
  have hr := (rowH_facts _ hp).1
  obtain ⟨k1, k2⟩ := entrance_place ext ((k + 1 : ℕ) : ℝ) he hMp
  have sq := squeeze _ _ ((k + 1 : ℕ) : ℝ) _ hMp s0 s1 k1 k2 (kgon_bores _ cap hp hc h2 (k + 1))
  rw [← hbp, ← preimage_inter, preimage_ratio _ _ hp hr, inter_comm] at sq
  rw [abs_le] at *
  constructor <;> linarith

/-- a description's own open area is smaller than what its front face lets in: the stacking of the traced optic goes on to the rim -/
theorem openFraction_description {D : Descr ℝ} (hn : ¬ D.n_cap ≤ 3) (he : 0 < D.prof.ext 0) (hc : 0 ≤ D.prof.cap 0)
    (hg : D.prof.cap 0 * (2 + 1 / 10 ^ 18) < D.prof.ext 0 / ((nShells (α := ℝ) D.n_cap : ℝ) + 1)) :
    |openFraction D - 3 * ((nShells (α := ℝ) D.n_cap : ℝ) + 1) ^ 2 / (3 * (nShells (α := ℝ) D.n_cap : ℝ) * ((nShells (α := ℝ) D.n_cap : ℝ) + 1) + 1) *
      openArea (D.prof.cap 0) (D.prof.ext 0) D.n_cap| ≤ 1 / 10 ^ 15 := by
  have h0 : 0 ≤ nShells (α := ℝ) D.n_cap := ((nShells_iff D.n_cap (by omega) (nShells (α := ℝ) D.n_cap)).mp rfl).1
  have h0' : (0:ℝ) ≤ nShells (α := ℝ) D.n_cap := by exact_mod_cast h0
  have key := openFraction_hex hn he hc hg
  rw [openArea_spec]
  generalize (nShells (α := ℝ) D.n_cap : ℝ) = N at *
  generalize D.prof.ext 0 = ext at *
  generalize D.prof.cap 0 = cap at *
  generalize openFraction D = f at *
  have hpi1 := Real.pi_gt_d20
  have hpi2 := Real.pi_lt_d20
  have hm : |(mpi : ℝ) - Real.pi| ≤ 1 / 10 ^ 19 := by
    simp only [mpi, real_lit]
    rw [abs_le]
    constructor <;> norm_num at * <;> linarith
  have hs3 : Real.sin (Real.pi / 3) = Real.sqrt 3 / 2 := Real.sin_pi_div_three
  have hsin : |Real.sin (mpi / 3) - Real.sqrt 3 / 2| ≤ 1 / 10 ^ 19 := by
    rw [← hs3]
    refine le_trans (Real.abs_sin_sub_sin_le _ _) ?_
    rw [← sub_div, abs_div, abs_of_pos (show (0:ℝ) < 3 by norm_num)]
    linarith [abs_nonneg ((mpi : ℝ) - Real.pi)]
  obtain ⟨σ, -, hσ, -, c0, c1, c2, c3, -, -, hσ2⟩ := const_facts
  rw [← hσ] at hsin
  unfold stacking at key
  rw [← hσ] at key
  generalize Real.sin (mpi / 3) = s at *
  generalize (mpi : ℝ) = a at *
  have hs : 0 < s := by linarith [(abs_le.1 hsin).1]
  have hσ0 : 0 < σ := by linarith
  have hN : 0 < N + 1 := by linarith
  have hx0 : 0 ≤ cap ^ 2 / (ext / (N + 1)) ^ 2 := by positivity
  have hp : 0 < ext / (N + 1) := by positivity
  have hx1 : cap ^ 2 / (ext / (N + 1)) ^ 2 ≤ 1 / 4 := by
    rw [div_le_iff₀ (by positivity)]
    nlinarith
  have hD : 0 < 3 * N * (N + 1) + 1 := by positivity
  have e1 : 3 * (N + 1) ^ 2 / (3 * N * (N + 1) + 1) * ((3 * N * (N + 1) + 1) * (a * cap ^ 2) / (3 * s * ext ^ 2)) = a / s * (cap ^ 2 / (ext / (N + 1)) ^ 2) := by
    field_simp
  have e2 : Real.pi * cap ^ 2 / (σ * (ext / (N + 1)) ^ 2) = Real.pi / σ * (cap ^ 2 / (ext / (N + 1)) ^ 2) := by
    field_simp
  rw [e1]
  rw [e2] at key
  generalize cap ^ 2 / (ext / (N + 1)) ^ 2 = x at *
  have hd : |a / s - Real.pi / σ| ≤ 1 / 10 ^ 17 := by
    rw [div_sub_div _ _ hs.ne' hσ0.ne', abs_div, abs_of_pos (mul_pos hs hσ0), div_le_iff₀ (mul_pos hs hσ0)]
    have e3 : a * σ - s * Real.pi = (a - Real.pi) * σ - (s - σ) * Real.pi := by ring
    rw [e3]
    refine le_trans (abs_sub _ _) ?_
    rw [abs_mul, abs_mul, abs_of_pos hσ0, abs_of_pos Real.pi_pos]
    have f1 : |a - Real.pi| * σ ≤ 1 / 10 ^ 19 * 1 := mul_le_mul hm (by linarith) hσ0.le (by norm_num)
    have f2 : |s - σ| * Real.pi ≤ 1 / 10 ^ 19 * 4 := mul_le_mul hsin (by linarith) Real.pi_pos.le (by norm_num)
    have f3 : (1:ℝ) / 4 ≤ s * σ := by nlinarith [(abs_le.1 hsin).1]
    linarith
  have h3 : |(a / s - Real.pi / σ) * x| ≤ 1 / 10 ^ 17 * 1 := by
    rw [abs_mul, abs_of_nonneg hx0]
    exact mul_le_mul hd (by linarith) hx0 (by norm_num)
  rw [sub_mul] at h3
  rw [abs_le] at *
  constructor <;> linarith

/-- **C101** (single capillary).  Uniform illumination covers the square around the bore. -/
theorem openFraction_mono {D : Descr ℝ} (hn : D.n_cap ≤ 3) (hc : 0 < D.prof.cap 0) (he : 0 ≤ D.prof.ext 0) (h2 : 2 * D.prof.cap 0 ^ 2 ≤ D.prof.ext 0 ^ 2) : openFraction D = Real.pi / 4 := by
  have hface : face D = Unif.square (D.prof.cap 0) := by
    unfold face spot
    rw [if_pos hn]
    ext v
    simp only [mem_inter_iff, mem_ofPred_eq, Outside, if_pos hn, not_lt, and_iff_left_iff_imp, Unif.square]
    rintro ⟨a, b⟩
    rw [Real.sqrt_le_left he]
    have := sq_lt_sq' (abs_lt.1 a).1 (abs_lt.1 a).2
    have := sq_lt_sq' (abs_lt.1 b).1 (abs_lt.1 b).2
    linarith
  have hholes : holes D = Unif.square (D.prof.cap 0) ∩ {v | v.1 ^ 2 + v.2 ^ 2 ≤ D.prof.cap 0 ^ 2} := by
    unfold holes glass
    rw [hface]
    ext v
    simp only [mem_inter_iff, mem_ofPred_eq, Set.mem_sdiff, InGlass, if_pos hn, not_and, not_lt]
    refine and_congr_right fun hv => ?_
    rw [Real.sqrt_le_left hc.le]
    simp [hv]
  unfold openFraction
  rw [hface, hholes]
  generalize D.prof.cap 0 = r at *
  have hsub : Unif.ellipse r r 0 0 ⊆ Unif.square r ∩ {v | v.1 ^ 2 + v.2 ^ 2 ≤ r ^ 2} := by
    rintro ⟨x, y⟩ h
    simp only [Unif.square, Unif.ellipse, mem_inter_iff, mem_ofPred_eq, sub_zero, div_pow, ← add_div] at h ⊢
    rw [div_lt_one (by positivity)] at h
    exact ⟨⟨abs_lt_of_sq_lt_sq (by nlinarith [sq_nonneg y]) hc.le, abs_lt_of_sq_lt_sq (by nlinarith [sq_nonneg x]) hc.le⟩, h.le⟩
  have v1 : volume (Unif.square r ∩ {v : ℝ × ℝ | v.1 ^ 2 + v.2 ^ 2 ≤ r ^ 2}) = ENNReal.ofReal (Real.pi * r ^ 2) := by
    refine le_antisymm ?_ ?_
    · rw [← disc_vol r hc.le]; exact measure_mono inter_subset_right
    · refine le_trans (le_of_eq ?_) (measure_mono hsub)
      rw [Unif.ellipse_area r r 0 0 hc hc]
      congr 1; ring
  have v2 : volume (Unif.square r) = ENNReal.ofReal (4 * r ^ 2) := by
    rw [show Unif.square r = Ioo (-r) r ×ˢ Ioo (-r) r from (Unif.box_eq r r).symm, Measure.volume_eq_prod, Measure.prod_prod, Real.volume_Ioo, ← ENNReal.ofReal_mul (by linarith)]
    congr 1; ring
  rw [v1, v2, ENNReal.toReal_ofReal (by positivity), ENNReal.toReal_ofReal (by positivity)]
  field_simp

/-! ## What the simulation reports -/

/-- **C101**.  Polycapillary with uniform illumination: the reported open area and efficiencies are bounded by the open share of the endless stacking, and the open area
reaches it if every photon that arrives on the face is counted. -/
theorem simulated_open_area {lib : Xray ℝ} {S : Src ℝ} {D : Descr ℝ} (G : GoodSetup lib S D) (hs : S.src_sigx < 0 ∨ S.src_sigy < 0) (hn : ¬ D.n_cap ≤ 3) (hc : 0 ≤ D.prof.cap 0)
    (hg : D.prof.cap 0 * (2 + 1 / 10 ^ 18) < D.prof.ext 0 / ((nShells (α := ℝ) D.n_cap : ℝ) + 1))
    (mt omp : Int) (leak : Bool) (hend : leak = false ∨ ∀ᵐ u ∂Unif.draws, photonOf lib S D leak u ≠ none) (l : Nat) (hl : l < S.energies.length)
    {Ω : Type} [MeasurableSpace Ω] (P : Measure Ω) (U : ℕ → Ω → ℕ → ℝ) (hU : ∀ t, AEMeasurable (U t) P) (hlaw : ∀ t, P.map (U t) = Unif.draws) :
    ∀ᵐ ω ∂P, ∀ ε > 0, ∃ n0 : ℕ, ∀ n ≥ n0, ∀ fuel k asg m s, Distributes (simCfg lib S D (callOf S D mt leak n) omp (fun t => U t ω) fuel k) asg →
      Reach (simCfg lib S D (callOf S D mt leak n) omp (fun t => U t ω) fuel k) asg m s → s.finished (simCfg lib S D (callOf S D mt leak n) omp (fun t => U t ω) fuel k) →
      let r := results (simCfg lib S D (callOf S D mt leak n) omp (fun t => U t ω) fuel k) S.energies s
      let e := stacking (D.prof.ext 0 / ((nShells (α := ℝ) D.n_cap : ℝ) + 1)) (D.prof.cap 0)
      r.openArea ≤ e + ε + 1 / 10 ^ 16 ∧ r.effs.getD l 0 ≤ e + ε + 1 / 10 ^ 16 ∧
      ((∀ᵐ u ∂Unif.draws, ∃ a, photonOf lib S D leak u = some a ∧ (a.code = -2 ∨ Counts D (some a))) → |r.openArea - e| ≤ ε + 1 / 10 ^ 16) := by
  have key := abs_le.1 (openFraction_hex hn G.ext0 hc hg)
  filter_upwards [open_area_limit G hs (fun h => absurd h hn) mt omp leak hend l hl P U hU hlaw] with ω h
  intro ε he
  obtain ⟨n0, h⟩ := h ε he
  refine ⟨n0, ?_⟩
  intro n hn' fuel k asg m s a b c
  obtain ⟨i1, i2, i3⟩ := h n hn' fuel k asg m s a b c
  refine ⟨by linarith, by linarith, fun hall => ?_⟩
  have i3 := abs_le.1 (i3 hall)
  rw [abs_le]
  constructor <;> linarith

/-- **C101**.  Single capillary with uniform illumination: whatever the glass, the efficiencies tend to at most π/4. -/
theorem simulated_mono_efficiency {lib : Xray ℝ} {S : Src ℝ} {D : Descr ℝ} (G : GoodSetup lib S D) (hs : S.src_sigx < 0 ∨ S.src_sigy < 0) (hn : D.n_cap ≤ 3) (hc : 0 < D.prof.cap 0)
    (h2 : 2 * D.prof.cap 0 ^ 2 ≤ D.prof.ext 0 ^ 2)
    (mt omp : Int) (leak : Bool) (hend : leak = false ∨ ∀ᵐ u ∂Unif.draws, photonOf lib S D leak u ≠ none) (l : Nat) (hl : l < S.energies.length)
    {Ω : Type} [MeasurableSpace Ω] (P : Measure Ω) (U : ℕ → Ω → ℕ → ℝ) (hU : ∀ t, AEMeasurable (U t) P) (hlaw : ∀ t, P.map (U t) = Unif.draws) :
    ∀ᵐ ω ∂P, ∀ ε > 0, ∃ n0 : ℕ, ∀ n ≥ n0, ∀ fuel k asg m s, Distributes (simCfg lib S D (callOf S D mt leak n) omp (fun t => U t ω) fuel k) asg →
      Reach (simCfg lib S D (callOf S D mt leak n) omp (fun t => U t ω) fuel k) asg m s → s.finished (simCfg lib S D (callOf S D mt leak n) omp (fun t => U t ω) fuel k) →
      (results (simCfg lib S D (callOf S D mt leak n) omp (fun t => U t ω) fuel k) S.energies s).effs.getD l 0 ≤ Real.pi / 4 + ε := by
  have key := openFraction_mono hn hc G.ext0.le h2
  filter_upwards [open_area_limit G hs (fun _ => hc) mt omp leak hend l hl P U hU hlaw] with ω h
  intro ε he
  obtain ⟨n0, h⟩ := h ε he
  refine ⟨n0, ?_⟩
  intro n hn' fuel k asg m s a b c
  rw [← key]
  exact (h n hn' fuel k asg m s a b c).2.1

/-! ## The hypotheses are met -/

theorem exHex_setup : GoodSetup exLib exS exHexD where
  src := exS_good
  grid := ⟨by norm_num [exHexD], by simp [exHexD], by intro i hi; simp [exHexD]⟩
  caps := by simp [exHexD]
  ext0 := by norm_num [exHexD]
  comp := by rw [scatf_accepts_iff]; simp [exHexD, exS]; norm_num
  cs := by intro z e; simp [exLib]

theorem exHex_gap : exHexD.prof.cap 0 * (2 + 1 / 10 ^ 18) < exHexD.prof.ext 0 / ((nShells (α := ℝ) exHexD.n_cap : ℝ) + 1) := by
  rw [exHexD_shells]; norm_num [exHexD]

/-- seven bores of a tenth of the radius: the description says 8.46 %, the traced face is open to 14.5 % -/
example : openArea (exHexD.prof.cap 0) (exHexD.prof.ext 0) exHexD.n_cap < 85 / 1000 ∧ 145 / 1000 < openFraction exHexD := by
  have h := abs_le.1 (openFraction_hex (D := exHexD) (by norm_num [exHexD]) (by norm_num [exHexD]) (by norm_num [exHexD]) exHex_gap)
  have h' := abs_le.1 (openFraction_description (D := exHexD) (by norm_num [exHexD]) (by norm_num [exHexD]) (by norm_num [exHexD]) exHex_gap)
  rw [exHexD_shells] at h h'
  have e1 : exHexD.prof.ext 0 = 1 := rfl
  have e2 : exHexD.prof.cap 0 = 1 / 10 := rfl
  rw [e1, e2] at h h' ⊢
  have hst : stacking (1 / (((1:ℤ):ℝ) + 1)) (1 / 10) = Real.pi * (8 * Real.sqrt 3 / 300) := by
    unfold stacking
    have : Real.sqrt 3 * Real.sqrt 3 = 3 := Real.mul_self_sqrt (by norm_num)
    have h0 : 0 < Real.sqrt 3 := by positivity
    norm_num
    field_simp
    nlinarith
  have s1 : (1732 / 1000 : ℝ) < Real.sqrt 3 := Real.lt_sqrt_of_sq_lt (by norm_num)
  have s2 : Real.sqrt 3 < (1733 / 1000 : ℝ) := (Real.sqrt_lt' (by norm_num)).2 (by norm_num)
  have p1 := Real.pi_gt_d4
  have p2 := Real.pi_lt_d4
  rw [hst] at h
  norm_num at h' p1 p2
  constructor
  · nlinarith
  · nlinarith

/-- the theorem applied to seven capillaries under uniform illumination -/
example (mt omp : Int) {Ω : Type} [MeasurableSpace Ω] (P : Measure Ω) (U : ℕ → Ω → ℕ → ℝ) (hU : ∀ t, AEMeasurable (U t) P) (hlaw : ∀ t, P.map (U t) = Unif.draws) :=
  simulated_open_area exHex_setup (Or.inl (by norm_num [exS])) (by norm_num [exHexD]) (by norm_num [exHexD]) exHex_gap mt omp false (Or.inl rfl) 0 (by simp [exS]) P U hU hlaw

theorem exMono_setup : GoodSetup exLib exS exD where
  src := exS_good
  grid := exGrid
  caps := by simp [exD]
  ext0 := by norm_num [exD, exProf]
  comp := ex_scatf
  cs := by intro z e; simp [exLib]

/-- and to a single capillary -/
example (mt omp : Int) {Ω : Type} [MeasurableSpace Ω] (P : Measure Ω) (U : ℕ → Ω → ℕ → ℝ) (hU : ∀ t, AEMeasurable (U t) P) (hlaw : ∀ t, P.map (U t) = Unif.draws) :=
  simulated_mono_efficiency exMono_setup (Or.inl (by norm_num [exS])) (by norm_num [exD]) (by norm_num [exD, exProf]) (by norm_num [exD, exProf]) mt omp false (Or.inl rfl) 0
    (by simp [exS]) P U hU hlaw

end Mean
end Polycap
