import Verif.Props.SourceUniform

/-!
# C98: the law of the photons of a source
-/
namespace Polycap.Unif
open MeasureTheory Set CNum ProbabilityTheory

/-! ## Affine images of uniform numbers -/

theorem line_apply (e : ℝ) (he : e ≠ 0) (T : Set ℝ) (hT : MeasurableSet T) :
    unif ((fun r => (2 * r - 1) * e) ⁻¹' T) = cond volume (Ioo (-|e|) |e|) T := by
  have ha : 0 < |e| := abs_pos.2 he
  have hm : Measurable fun r : ℝ => (2 * r - 1) * e := by fun_prop
  have hI : Ioo (0:ℝ) 1 = (fun r => (2 * r - 1) * e) ⁻¹' Ioo (-|e|) |e| := by
    ext r
    simp only [mem_Ioo, mem_preimage]
    rw [← abs_lt, abs_mul, mul_lt_iff_lt_one_left ha, abs_lt]
    constructor <;> rintro ⟨h1, h2⟩ <;> constructor <;> linarith
  rw [unif_Ioo, Measure.restrict_apply (hm hT), inter_comm, hI, ← preimage_inter, cond_apply measurableSet_Ioo]
  have hp : (fun r => (2 * r - 1) * e) ⁻¹' (Ioo (-|e|) |e| ∩ T) = (fun r => (2 * e) * r) ⁻¹' ((fun y => y + -e) ⁻¹' (Ioo (-|e|) |e| ∩ T)) := by
    ext r
    simp only [mem_preimage]
    rw [show (2 * r - 1) * e = 2 * e * r + -e by ring]
  rw [hp, Real.volume_preimage_mul_left (by simpa using he), measure_preimage_add_right, Real.volume_Ioo,
    ← ENNReal.ofReal_inv_of_pos (by linarith), abs_inv, abs_mul, abs_two, show |e| - -|e| = 2 * |e| by ring]

theorem line_law (e : ℝ) (he : e ≠ 0) : unif.map (fun r => (2 * r - 1) * e) = cond volume (Ioo (-|e|) |e|) := by
  ext T hT
  rw [Measure.map_apply (by fun_prop) hT, line_apply e he T hT]

theorem cond_prod (s t : Set ℝ) (h1 : volume s ≠ 0) (h2 : volume s ≠ ⊤) :
    (cond volume s).prod (cond volume t) = cond (volume : Measure (ℝ × ℝ)) (s ×ˢ t) := by
  simp only [ProbabilityTheory.cond]
  rw [Measure.prod_smul_left, Measure.prod_smul_right, Measure.prod_restrict, smul_smul, Measure.volume_eq_prod, Measure.prod_prod,
    ENNReal.mul_inv (Or.inl h1) (Or.inl h2)]

/-- two uniform numbers spread over a rectangle around the origin -/
noncomputable def aff (e f : ℝ) (p : ℝ × ℝ) : ℝ × ℝ := ((2 * p.1 - 1) * e, (2 * p.2 - 1) * f)

theorem aff_meas (e f : ℝ) : Measurable (aff e f) := by unfold aff; fun_prop

theorem aff_law (e f : ℝ) (he : e ≠ 0) (hf : f ≠ 0) :
    (unif.prod unif).map (aff e f) = cond volume (Ioo (-|e|) |e| ×ˢ Ioo (-|f|) |f|) := by
  have h1 : ∀ x : ℝ, x ≠ 0 → volume (Ioo (-|x|) |x|) ≠ 0 := by
    intro x hx
    have := abs_pos.2 hx
    rw [Real.volume_Ioo]
    simpa using this
  have h2 : ∀ x : ℝ, volume (Ioo (-|x|) |x|) ≠ ⊤ := by
    intro x; rw [Real.volume_Ioo]; exact ENNReal.ofReal_ne_top
  rw [← cond_prod _ _ (h1 e he) (h2 e), ← line_law e he, ← line_law f hf, Measure.map_prod_map _ _ (by fun_prop) (by fun_prop)]
  rfl

/-! ## Polarisation -/

theorem rate (c : ℝ) (h0 : 0 ≤ c) (h1 : c ≤ 1) : unif {r | |r| ≤ c} = ENNReal.ofReal c ∧ unif {r | |r| ≤ c}ᶜ = ENNReal.ofReal (1 - c) := by
  have hm : MeasurableSet {r : ℝ | |r| ≤ c} := measurableSet_le (by fun_prop) measurable_const
  have e : unif {r | |r| ≤ c} = ENNReal.ofReal c := by
    rw [unif, Measure.restrict_apply hm]
    refine le_antisymm ?_ ?_
    · refine le_trans (measure_mono (t := Icc 0 c) ?_) (by rw [Real.volume_Icc, sub_zero])
      rintro r ⟨h, h', _⟩
      exact ⟨h', le_trans (le_abs_self r) h⟩
    · refine le_trans (by rw [Real.volume_Ico, sub_zero]) (measure_mono (s := Ico 0 c) ?_)
      rintro r ⟨h, h'⟩
      exact ⟨by show |r| ≤ c; rw [abs_of_nonneg h]; exact h'.le, h, lt_of_lt_of_le h' h1⟩
  refine ⟨e, ?_⟩
  rw [prob_compl_eq_one_sub hm, e, ← ENNReal.ofReal_one, ← ENNReal.ofReal_sub _ h0]

/-- the electric vector of a photon lies in the half plane of its direction on the side of `ax` -/
def Along (ax : V3 ℝ) (P : Photon ℝ) : Prop :=
  ∃ a b : ℝ, 0 < a ∧ P.startE = ⟨a * ax.x + b * P.startD.x, a * ax.y + b * P.startD.y, a * ax.z + b * P.startD.z⟩

theorem along_iff (S : Src ℝ) (g : GoodSrc S) (D : Descr ℝ) (u : Nat → ℝ) (hu : ∀ i, 0 ≤ u i) (fuel n : Nat)
    (x : SrcPhoton ℝ) (m : Nat) (h : getPhoton S D u fuel n = .ok (x, m)) :
    (Along ⟨1, 0, 0⟩ x.photon ↔ |u (m - 1)| ≤ (1 + S.hor_pol) / 2) ∧ (Along ⟨0, 1, 0⟩ x.photon ↔ ¬ |u (m - 1)| ≤ (1 + S.hor_pol) / 2) := by
  obtain ⟨_, _, a, b, ha, hx, hy⟩ := source_photon_polarisation S g D u hu fuel n x m h
  obtain ⟨c, d, m', haim, _, _, _, hd, _⟩ := getPhoton_ok S D u fuel n x m h
  obtain ⟨_, dz, _⟩ := srcAim_ok S g _ _ _ u fuel _ _ c d m' haim
  rw [← hd] at dz
  rw [abs_of_nonneg (hu _)]
  by_cases hp : u (m - 1) ≤ (1 + S.hor_pol) / 2
  · have e := hx hp
    constructor
    · simp only [hp, iff_true]
      exact ⟨a, b, ha, by rw [e]; simp⟩
    · simp only [hp, not_true_eq_false, iff_false]
      rintro ⟨a', b', ha', e'⟩
      rw [e] at e'
      simp only [V3.mk.injEq, mul_zero, mul_one, zero_add] at e'
      have : b = b' := mul_right_cancel₀ dz.ne' e'.2.2
      subst this
      linarith [e'.1]
  · have e := hy (not_le.1 hp)
    constructor
    · simp only [hp, iff_false]
      rintro ⟨a', b', ha', e'⟩
      rw [e] at e'
      simp only [V3.mk.injEq, mul_zero, mul_one, zero_add] at e'
      have : b = b' := mul_right_cancel₀ dz.ne' e'.2.2
      subst this
      linarith [e'.1]
    · simp only [hp, not_false_eq_true, iff_true]
      exact ⟨a, b, ha, by rw [e]; simp⟩

/-! ## The rejection loop -/

theorem rej_fwd (r : ℝ) (u : Nat → ℝ) : ∀ (fuel n : Nat) (x y : ℝ) (m : Nat), rejLoop r u fuel n = .ok (x, y, m) →
    ∃ k, m = n + 2 * k + 2 ∧ (∀ j < k, withinPcBoundary r (aff r r (u (n + 2 * j), u (n + 2 * j + 1))).1 (aff r r (u (n + 2 * j), u (n + 2 * j + 1))).2 = 0) ∧
      withinPcBoundary r (aff r r (u (n + 2 * k), u (n + 2 * k + 1))).1 (aff r r (u (n + 2 * k), u (n + 2 * k + 1))).2 ≠ 0 ∧
      (x, y) = aff r r (u (n + 2 * k), u (n + 2 * k + 1))
  | 0, n, x, y, m, h => by simp [rejLoop] at h
  | f + 1, n, x, y, m, h => by
    have e : ∀ i, (aff r r (u i, u (i + 1))) = ((lit 2 *. u i -. lit 1) *. r, (lit 2 *. u (i + 1) -. lit 1) *. r) := by
      intro i
      simp only [aff, real_mul, real_sub, real_lit]
      push_cast
      rfl
    simp only [rejLoop] at h
    split at h
    · rename_i hb
      obtain ⟨k, h1, h2, h3, h4⟩ := rej_fwd r u f (n + 2) x y m h
      refine ⟨k + 1, by omega, fun j hj => ?_, ?_, ?_⟩
      · cases j with
        | zero => simpa [e] using hb
        | succ j =>
          have := h2 j (by omega)
          rwa [show n + 2 + 2 * j = n + 2 * (j + 1) by ring] at this
      · rwa [show n + 2 + 2 * k = n + 2 * (k + 1) by ring] at h3
      · rwa [show n + 2 + 2 * k = n + 2 * (k + 1) by ring] at h4
    · rename_i hb
      injection h with h
      injection h with h1 h
      injection h with h2 h3
      subst h1 h2 h3
      refine ⟨0, by omega, by simp, ?_, ?_⟩
      · simpa [e] using hb
      · simpa using (e n).symm

theorem rej_bwd (r : ℝ) (u : Nat → ℝ) : ∀ (k n : Nat),
    (∀ j < k, withinPcBoundary r (aff r r (u (n + 2 * j), u (n + 2 * j + 1))).1 (aff r r (u (n + 2 * j), u (n + 2 * j + 1))).2 = 0) →
      withinPcBoundary r (aff r r (u (n + 2 * k), u (n + 2 * k + 1))).1 (aff r r (u (n + 2 * k), u (n + 2 * k + 1))).2 ≠ 0 →
      ∃ fuel, rejLoop r u fuel n = .ok ((aff r r (u (n + 2 * k), u (n + 2 * k + 1))).1, (aff r r (u (n + 2 * k), u (n + 2 * k + 1))).2, n + 2 * k + 2)
  | k, n, h1, h2 => by
    have e : ∀ i, (aff r r (u i, u (i + 1))) = ((lit 2 *. u i -. lit 1) *. r, (lit 2 *. u (i + 1) -. lit 1) *. r) := by
      intro i
      simp only [aff, real_mul, real_sub, real_lit]
      push_cast
      rfl
    cases k with
    | zero =>
      refine ⟨1, ?_⟩
      have : withinPcBoundary r ((lit 2 *. u n -. lit 1) *. r) ((lit 2 *. u (n + 1) -. lit 1) *. r) ≠ 0 := by simpa [e] using h2
      simp only [rejLoop]
      rw [if_neg this]
      simp [e]
    | succ k =>
      obtain ⟨f, hf⟩ := rej_bwd r u k (n + 2) (fun j hj => by
        have := h1 (j + 1) (by omega)
        rwa [show n + 2 + 2 * j = n + 2 * (j + 1) by ring]) (by rwa [show n + 2 + 2 * k = n + 2 * (k + 1) by ring])
      refine ⟨f + 1, ?_⟩
      have h0 : withinPcBoundary r ((lit 2 *. u n -. lit 1) *. r) ((lit 2 *. u (n + 1) -. lit 1) *. r) = 0 := by
        simpa [e] using h1 0 (by omega)
      simp only [rejLoop]
      rw [if_pos h0, hf, show n + 2 + 2 * k = n + 2 * (k + 1) by ring]

/-! ## The regions -/

/-- the entrance of a polycapillary: what the boundary test accepts (see C15) of the square in which points are drawn -/
def entrance (r : ℝ) : Set (ℝ × ℝ) := {p | |p.1| < r ∧ InHex r p.1 p.2}

/-- the square around a circle of radius `r` -/
def square (r : ℝ) : Set (ℝ × ℝ) := {p | |p.1| < r ∧ |p.2| < r}

/-- the slopes within the divergence -/
def slopes (sx sy : ℝ) : Set (ℝ × ℝ) := {p | |p.1| < sx ∧ |p.2| < sy}

theorem inHex_meas (r : ℝ) : MeasurableSet {p : ℝ × ℝ | InHex r p.1 p.2} := by
  have h : ∀ (f : ℝ × ℝ → ℝ) (d : ℝ), Measurable f → MeasurableSet {p | |f p| ≤ d} := fun f d hf =>
    measurableSet_le (by fun_prop) measurable_const
  exact (h (fun p => p.2) _ (by fun_prop)).inter ((h (fun p => (cospi6 : ℝ) * p.1 + p.2 / 2) _ (by fun_prop)).inter
    (h (fun p => (cospi6 : ℝ) * p.1 - p.2 / 2) _ (by fun_prop)))

theorem box_eq (e f : ℝ) : Ioo (-e) e ×ˢ Ioo (-f) f = {p : ℝ × ℝ | |p.1| < e ∧ |p.2| < f} := by
  ext p
  simp only [mem_prod, mem_Ioo, mem_ofPred_eq, abs_lt]

theorem entrance_eq (r : ℝ) (hr : 0 < r) : (Ioo (-r) r ×ˢ Ioo (-r) r) ∩ {p | InHex r p.1 p.2} = entrance r := by
  ext p
  rw [box_eq]
  simp only [entrance, mem_inter_iff, mem_ofPred_eq]
  constructor
  · rintro ⟨⟨h1, _⟩, h2⟩; exact ⟨h1, h2⟩
  · rintro ⟨h1, h2⟩
    refine ⟨⟨h1, lt_of_le_of_lt h2.1 ?_⟩, h2⟩
    nlinarith [sqrt3_bounds.2]

theorem entrance_pos (r : ℝ) (hr : 0 < r) : volume (entrance r) ≠ 0 := by
  have hsub : Ioo (-(r/2)) (r/2) ×ˢ Ioo (-(r/2)) (r/2) ⊆ entrance r := by
    rw [box_eq]
    rintro ⟨x, y⟩ ⟨h1, h2⟩
    simp only at h1 h2
    refine ⟨by simp only; linarith, ?_⟩
    refine ((boundary_one_iff r x y).1 (boundary_contains_disc r x y hr ?_)).2
    rw [abs_lt] at h1 h2
    nlinarith
  refine fun h => ?_
  have := measure_mono_null hsub h
  rw [Measure.volume_eq_prod, Measure.prod_prod, Real.volume_Ioo] at this
  simp only [mul_eq_zero, or_self, ENNReal.ofReal_eq_zero] at this
  linarith

/-- the accepted pair is uniform over the entrance -/
theorem entrance_cond (r : ℝ) (hr : 0 < r) (A : Set (ℝ × ℝ)) (hA : MeasurableSet A) :
    (unif.prod unif) (aff r r ⁻¹' {p | InHex r p.1 p.2}) ≠ 0 ∧
    ProbabilityTheory.cond (unif.prod unif) (aff r r ⁻¹' {p | InHex r p.1 p.2}) (aff r r ⁻¹' A) = ProbabilityTheory.cond volume (entrance r) A := by
  have hm := aff_meas r r
  have hH := inHex_meas r
  have hl := aff_law r r hr.ne' hr.ne'
  rw [abs_of_pos hr] at hl
  have hb : MeasurableSet (Ioo (-r) r ×ˢ Ioo (-r) r) := measurableSet_Ioo.prod measurableSet_Ioo
  have v0 : volume (Ioo (-r) r ×ˢ Ioo (-r) r : Set (ℝ × ℝ)) ≠ ⊤ := by
    rw [Measure.volume_eq_prod, Measure.prod_prod, Real.volume_Ioo]
    exact ENNReal.mul_ne_top ENNReal.ofReal_ne_top ENNReal.ofReal_ne_top
  have e : ProbabilityTheory.cond (unif.prod unif) (aff r r ⁻¹' {p | InHex r p.1 p.2}) (aff r r ⁻¹' A) =
      ProbabilityTheory.cond ((unif.prod unif).map (aff r r)) {p | InHex r p.1 p.2} A := by
    rw [cond_apply hH, cond_apply (hm hH), Measure.map_apply hm hH, Measure.map_apply hm (hH.inter hA), preimage_inter]
  constructor
  · rw [← Measure.map_apply hm hH, hl, cond_apply hb, entrance_eq r hr]
    exact mul_ne_zero (ENNReal.inv_ne_zero.2 v0) (entrance_pos r hr)
  · rw [e, hl, cond_cond_eq_cond_inter' hb hH v0, entrance_eq r hr]

/-! ## Streams -/

theorem draws_range : ∀ᵐ u ∂draws, ∀ i, 0 ≤ u i ∧ u i < 1 := by
  rw [ae_all_iff]
  intro i
  have h : ∀ᵐ r ∂unif, 0 ≤ r ∧ r < 1 := ae_restrict_mem measurableSet_Ico
  exact (measurePreserving_eval_infinitePi (fun _ : ℕ => unif) i).quasiMeasurePreserving.ae h

theorem swap_law : (unif.prod (unif.prod unif)).map (fun p : ℝ × ℝ × ℝ => (p.2.1, p.1, p.2.2)) = unif.prod (unif.prod unif) := by
  have e : (fun p : ℝ × ℝ × ℝ => (p.2.1, p.1, p.2.2)) = MeasurableEquiv.prodAssoc ∘ Prod.map Prod.swap id ∘ MeasurableEquiv.prodAssoc.symm := by
    funext p; rfl
  rw [e, ← Measure.map_map (by fun_prop) (by fun_prop), ← Measure.map_map (by fun_prop) (by fun_prop),
    (measurePreserving_prodAssoc unif unif unif).symm.map_eq, ← Measure.map_prod_map _ _ measurable_swap measurable_id,
    Measure.prod_swap, Measure.map_id]
  exact (measurePreserving_prodAssoc unif unif unif).map_eq

theorem source_then_rest (n : ℕ) (a b c d : ℝ) (ha : 0 < a) (hb : 0 < b) (C : Set (ℝ × ℝ)) (hC : MeasurableSet C) (X : Set (ℕ → ℝ)) (hX : MeasurableSet X) :
    draws {u | ideal a b c d (u (n + 1), u n, u (n + 2)) ∈ C ∧ drop (n + 3) u ∈ X} = ProbabilityTheory.cond volume (ellipse a b c d) C * draws X := by
  have m3 : Measurable fun u : ℕ → ℝ => ((u 0, u 1, u 2), drop 3 u) :=
    ((measurable_pi_apply 0).prodMk ((measurable_pi_apply 1).prodMk (measurable_pi_apply 2))).prodMk (drop_meas 3)
  have ms : Measurable fun p : ℝ × ℝ × ℝ => (p.2.1, p.1, p.2.2) := by fun_prop
  have mi := ideal_meas a b c d
  have e : {u | ideal a b c d (u (n + 1), u n, u (n + 2)) ∈ C ∧ drop (n + 3) u ∈ X} =
      drop n ⁻¹' ((fun u : ℕ → ℝ => ((u 0, u 1, u 2), drop 3 u)) ⁻¹' (((fun p : ℝ × ℝ × ℝ => (p.2.1, p.1, p.2.2)) ⁻¹' (ideal a b c d ⁻¹' C)) ×ˢ X)) := by
    ext u
    simp only [mem_ofPred_eq, mem_preimage, mem_prod, drop_drop, drop]
    rw [show 1 + n = n + 1 by ring, show 2 + n = n + 2 by ring, zero_add, show 3 + n = n + 3 by ring]
  have mp : MeasurableSet (((fun p : ℝ × ℝ × ℝ => (p.2.1, p.1, p.2.2)) ⁻¹' (ideal a b c d ⁻¹' C)) ×ˢ X) := (ms (mi hC)).prod hX
  rw [e, ← Measure.map_apply (drop_meas n) (m3 mp), drop_law, ← Measure.map_apply m3 mp, draw_map3, Measure.prod_prod,
    ← Measure.map_apply ms (mi hC), swap_law, ← Measure.map_apply mi hC, ideal_law a b c d ha hb]

/-! ## The law of a photon -/

/-- **Specification.**  A photon asked for when `n` numbers of the generator have been used has the law wanted: with an ideal
generator there is a point `q`, uniform over the source ellipse, from which the photon's origin differs by less than a 10⁻¹⁹th of the source
size times its aspect ratio; the quantity `aim` is uniform over the region `R`; the electric vector is on the side of the x axis with
probability `(1 + hor_pol)/2` and on that of the y axis otherwise; and the three are independent. -/
def Law (S : Src ℝ) (D : Descr ℝ) (n : Nat) (aim : SrcPhoton ℝ → ℝ × ℝ) (R : Set (ℝ × ℝ)) : Prop :=
  ∃ q : (ℕ → ℝ) → ℝ × ℝ,
    (∀ u, (∀ i, 0 ≤ u i ∧ u i < 1) → ∀ fuel x m, getPhoton S D u fuel n = .ok (x, m) →
      |x.src.x - (q u).1| ≤ S.src_x * (S.src_x / S.src_y + S.src_y / S.src_x) / 10 ^ 19 ∧
      |x.src.y - (q u).2| ≤ S.src_y * (S.src_x / S.src_y + S.src_y / S.src_x) / 10 ^ 19) ∧
    ∀ C A : Set (ℝ × ℝ), MeasurableSet C → MeasurableSet A →
      draws {u | q u ∈ C ∧ ∃ fuel x m, getPhoton S D u fuel n = .ok (x, m) ∧ aim x ∈ A} =
        ProbabilityTheory.cond volume (ellipse S.src_x S.src_y S.src_shiftx S.src_shifty) C * ProbabilityTheory.cond volume R A ∧
      draws {u | q u ∈ C ∧ ∃ fuel x m, getPhoton S D u fuel n = .ok (x, m) ∧ aim x ∈ A ∧ Along ⟨1, 0, 0⟩ x.photon} =
        ProbabilityTheory.cond volume (ellipse S.src_x S.src_y S.src_shiftx S.src_shifty) C * ProbabilityTheory.cond volume R A *
          ENNReal.ofReal ((1 + S.hor_pol) / 2) ∧
      draws {u | q u ∈ C ∧ ∃ fuel x m, getPhoton S D u fuel n = .ok (x, m) ∧ aim x ∈ A ∧ Along ⟨0, 1, 0⟩ x.photon} =
        ProbabilityTheory.cond volume (ellipse S.src_x S.src_y S.src_shiftx S.src_shifty) C * ProbabilityTheory.cond volume R A *
          ENNReal.ofReal ((1 - S.hor_pol) / 2)

theorem law_of (S : Src ℝ) (g : GoodSrc S) (D : Descr ℝ) (n : Nat) (aim : SrcPhoton ℝ → ℝ × ℝ) (R H : Set (ℝ × ℝ))
    (f : ℝ × ℝ → ℝ × ℝ) (hf : Measurable f) (hH : MeasurableSet H) (h0 : (unif.prod unif) H ≠ 0)
    (hchar : ∀ u : ℕ → ℝ, (∀ i, 0 ≤ u i ∧ u i < 1) → ∀ (A : Set (ℝ × ℝ)) (B : Set ℝ),
      (∃ fuel x m, getPhoton S D u fuel n = .ok (x, m) ∧ aim x ∈ A ∧ u (m - 1) ∈ B) ↔ drop (n + 3) u ∈ hit H (f ⁻¹' A) B)
    (hcond : ∀ A, MeasurableSet A → ProbabilityTheory.cond (unif.prod unif) H (f ⁻¹' A) = ProbabilityTheory.cond volume R A) :
    Law S D n aim R := by
  refine ⟨fun u => ideal S.src_x S.src_y S.src_shiftx S.src_shifty (u (n + 1), u n, u (n + 2)), ?_, ?_⟩
  · intro u hu fuel x m h
    obtain ⟨_, _, _, _, _, hs, _⟩ := getPhoton_ok S D u fuel n x m h
    rw [hs]
    exact point_close S g _ _ _ (hu n).1 (hu n).2 (hu (n + 2)).2
  · intro C A hC hA
    have hpol := abs_le.1 g.pol
    obtain ⟨r1, r2⟩ := rate ((1 + S.hor_pol) / 2) (by linarith) (by linarith)
    have hB : MeasurableSet {r : ℝ | |r| ≤ (1 + S.hor_pol) / 2} := measurableSet_le (by fun_prop) measurable_const
    have key : ∀ (ax : SrcPhoton ℝ → Prop) (B : Set ℝ), MeasurableSet B →
        (∀ u : ℕ → ℝ, (∀ i, 0 ≤ u i ∧ u i < 1) → ∀ fuel x m, getPhoton S D u fuel n = .ok (x, m) → (ax x ↔ u (m - 1) ∈ B)) →
        draws {u | ideal S.src_x S.src_y S.src_shiftx S.src_shifty (u (n + 1), u n, u (n + 2)) ∈ C ∧
            ∃ fuel x m, getPhoton S D u fuel n = .ok (x, m) ∧ aim x ∈ A ∧ ax x} =
          ProbabilityTheory.cond volume (ellipse S.src_x S.src_y S.src_shiftx S.src_shifty) C * ProbabilityTheory.cond volume R A * unif B := by
      intro ax B hB hax
      have e : {u | ideal S.src_x S.src_y S.src_shiftx S.src_shifty (u (n + 1), u n, u (n + 2)) ∈ C ∧
            ∃ fuel x m, getPhoton S D u fuel n = .ok (x, m) ∧ aim x ∈ A ∧ ax x} =ᵐ[draws]
          ({u | ideal S.src_x S.src_y S.src_shiftx S.src_shifty (u (n + 1), u n, u (n + 2)) ∈ C ∧ drop (n + 3) u ∈ hit H (f ⁻¹' A) B} : Set (ℕ → ℝ)) := by
        refine Filter.eventuallyEq_set.2 ?_
        filter_upwards [draws_range] with u hu
        refine and_congr_right fun _ => ?_
        rw [← hchar u hu A B]
        constructor
        · rintro ⟨fuel, x, m, h1, h2, h3⟩; exact ⟨fuel, x, m, h1, h2, (hax u hu fuel x m h1).1 h3⟩
        · rintro ⟨fuel, x, m, h1, h2, h3⟩; exact ⟨fuel, x, m, h1, h2, (hax u hu fuel x m h1).2 h3⟩
      rw [measure_congr e, source_then_rest n _ _ _ _ g.x g.y C hC _ (hit_meas H _ B hH (hf hA) hB), hit_law H _ B hH (hf hA) hB h0, hcond A hA, mul_assoc]
    refine ⟨?_, ?_, ?_⟩
    · have := key (fun _ => True) univ MeasurableSet.univ (fun u hu fuel x m h => by simp)
      simpa only [and_true, measure_univ, mul_one] using this
    · rw [← r1]
      exact key (fun x => Along ⟨1, 0, 0⟩ x.photon) _ hB fun u hu fuel x m h => (along_iff S g D u (fun i => (hu i).1) fuel n x m h).1
    · rw [show (1 - S.hor_pol) / 2 = 1 - (1 + S.hor_pol) / 2 by ring, ← r2]
      exact key (fun x => Along ⟨0, 1, 0⟩ x.photon) _ hB.compl fun u hu fuel x m h => (along_iff S g D u (fun i => (hu i).1) fuel n x m h).2

theorem photon_of_aim (S : Src ℝ) (g : GoodSrc S) (D : Descr ℝ) (u : ℕ → ℝ) (fuel n : Nat) (a : V3 ℝ × V3 ℝ × Nat)
    (h : srcAim S D.n_cap (D.prof.cap 0) (D.prof.ext 0) u fuel (n + 3) (srcPoint S (u n) (u (n + 1)) (u (n + 2))) = .ok a) :
    ∃ x, getPhoton S D u fuel n = .ok (x, a.2.2 + 1) := by
  have hs := source_photon_safe S g D u fuel n
  simp only [getPhoton, h, Out.bind_ok] at hs ⊢
  split
  · rename_i e; rw [e] at hs; exact absurd rfl hs
  · exact ⟨_, rfl⟩

theorem hit_univ (A : Set (ℝ × ℝ)) (B : Set ℝ) (u : ℕ → ℝ) : u ∈ hit univ A B ↔ (u 0, u 1) ∈ A ∧ u 2 ∈ B := by
  simp only [hit, mem_univ, not_true_eq_false, imp_false, mem_ofPred_eq, true_and]
  constructor
  · rintro ⟨k, h1, h2, h3⟩
    have : k = 0 := by
      cases k with
      | zero => rfl
      | succ k => exact absurd (Nat.zero_lt_succ k) (h1 0)
    subst this
    exact ⟨h2, h3⟩
  · rintro ⟨h1, h2⟩
    exact ⟨0, by simp, h1, h2⟩

theorem neg_iff (a b : ℝ) : (CNum.lt a (lit 0) || CNum.lt b (lit 0)) = true ↔ (a < 0 ∨ b < 0) := by
  simp only [real_lt, real_lit, Rat.cast_zero, Bool.or_eq_true, decide_eq_true_eq]

/-- **C98**, uniform illumination of a polycapillary: the photons start uniformly over the entrance. -/
theorem polycapillary_illumination_law (S : Src ℝ) (g : GoodSrc S) (hs : S.src_sigx < 0 ∨ S.src_sigy < 0) (D : Descr ℝ)
    (hn : nShells (α := ℝ) D.n_cap ≠ 0) (he : 0 < D.prof.ext 0) (n : Nat) :
    Law S D n (fun x => (x.photon.startC.x, x.photon.startC.y)) (entrance (D.prof.ext 0)) := by
  have hb : ∀ p : ℝ × ℝ, withinPcBoundary (D.prof.ext 0) p.1 p.2 ≠ 0 ↔ InHex (D.prof.ext 0) p.1 p.2 := by
    intro p
    obtain ⟨_, h2, h3⟩ := boundary_spec (D.prof.ext 0) p.1 p.2
    by_cases h : InHex (D.prof.ext 0) p.1 p.2
    · simp [h, h2 he h]
    · simp [h, h3 he h]
  refine law_of S g D n _ _ (aff (D.prof.ext 0) (D.prof.ext 0) ⁻¹' {p | InHex (D.prof.ext 0) p.1 p.2}) (aff (D.prof.ext 0) (D.prof.ext 0))
    (aff_meas _ _) (aff_meas _ _ (inHex_meas _)) (entrance_cond _ he univ MeasurableSet.univ).1 ?_ (fun A hA => (entrance_cond _ he A hA).2)
  intro u _ A B
  have hd : ∀ k, (drop (n + 3) u (2 * k), drop (n + 3) u (2 * k + 1)) = (u (n + 3 + 2 * k), u (n + 3 + 2 * k + 1)) := by
    intro k; simp only [drop]
    rw [show 2 * k + (n + 3) = n + 3 + 2 * k by ring, show 2 * k + 1 + (n + 3) = n + 3 + 2 * k + 1 by ring]
  have hl : ∀ k, drop (n + 3) u (2 * k + 2) = u (n + 3 + 2 * k + 2) := by
    intro k; simp only [drop]; congr 1; omega
  simp only [hit, mem_ofPred_eq, hd, hl, mem_preimage]
  simp only [← hb]
  constructor
  · rintro ⟨fuel, x, m, h, hA, hB⟩
    obtain ⟨c, d, m', ha, hm, _, hc, _⟩ := getPhoton_ok S D u fuel n x m h
    simp only [srcAim] at ha
    rw [if_pos ((neg_iff _ _).2 hs), if_neg hn, Out.bind_eq_ok] at ha
    obtain ⟨⟨px, py, pm⟩, hr, ha⟩ := ha
    injection ha with ha
    injection ha with e1 ha
    injection ha with e2 e3
    obtain ⟨k, h1, h2, h3, h4⟩ := rej_fwd _ u fuel (n + 3) px py pm hr
    refine ⟨k, fun j hj => not_not.2 (h2 j hj), h3, ?_, ?_⟩
    · rw [← h4]
      rw [hc, ← e1] at hA
      exact hA
    · rw [← h1, show pm = m - 1 by have e4 : pm = m' := e3; omega]; exact hB
  · rintro ⟨k, h1, h2, h3, h4⟩
    obtain ⟨fuel, hr⟩ := rej_bwd _ u k (n + 3) (fun j hj => not_not.1 (h1 j hj)) h2
    have ha : ∃ d, srcAim S D.n_cap (D.prof.cap 0) (D.prof.ext 0) u fuel (n + 3) (srcPoint S (u n) (u (n + 1)) (u (n + 2))) =
        .ok (⟨(aff (D.prof.ext 0) (D.prof.ext 0) (u (n + 3 + 2 * k), u (n + 3 + 2 * k + 1))).1,
          (aff (D.prof.ext 0) (D.prof.ext 0) (u (n + 3 + 2 * k), u (n + 3 + 2 * k + 1))).2, lit 0⟩, d, n + 3 + 2 * k + 2) := by
      simp only [srcAim]
      rw [if_pos ((neg_iff _ _).2 hs), if_neg hn, hr]
      exact ⟨_, rfl⟩
    obtain ⟨d, ha⟩ := ha
    obtain ⟨x, hx⟩ := photon_of_aim S g D u fuel n _ ha
    refine ⟨fuel, x, _, hx, ?_, h4⟩
    obtain ⟨c, d', m', ha', _, _, hc, _⟩ := getPhoton_ok S D u fuel n x _ hx
    rw [ha] at ha'
    injection ha' with ha'
    injection ha' with e1 _
    rw [hc, ← e1]
    exact h3

/-- a pair that is used as drawn -/
theorem law_of_pair (S : Src ℝ) (g : GoodSrc S) (D : Descr ℝ) (n : Nat) (aim : SrcPhoton ℝ → ℝ × ℝ) (e f : ℝ) (he : e ≠ 0) (hf : f ≠ 0)
    (ha : ∀ u : ℕ → ℝ, ∃ c d, srcAim S D.n_cap (D.prof.cap 0) (D.prof.ext 0) u 0 (n + 3) (srcPoint S (u n) (u (n + 1)) (u (n + 2))) = .ok (c, d, n + 5))
    (hx : ∀ u : ℕ → ℝ, (∀ i, 0 ≤ u i ∧ u i < 1) → ∀ fuel x m, getPhoton S D u fuel n = .ok (x, m) → m = n + 6 ∧ aim x = aff e f (u (n + 3), u (n + 4))) :
    Law S D n aim {p | |p.1| < |e| ∧ |p.2| < |f|} := by
  refine law_of S g D n aim _ univ (aff e f) (aff_meas e f) MeasurableSet.univ (by simp) ?_ ?_
  · intro u hu A B
    rw [hit_univ]
    simp only [drop]
    rw [show 0 + (n + 3) = n + 3 by ring, show 1 + (n + 3) = n + 4 by ring, show 2 + (n + 3) = n + 5 by ring]
    constructor
    · rintro ⟨fuel, x, m, h, hA, hB⟩
      obtain ⟨h1, h2⟩ := hx u hu fuel x m h
      subst h1
      rw [h2] at hA
      exact ⟨hA, hB⟩
    · rintro ⟨hA, hB⟩
      obtain ⟨c, d, h⟩ := ha u
      obtain ⟨x, h'⟩ := photon_of_aim S g D u 0 n _ h
      refine ⟨0, x, _, h', ?_, hB⟩
      rw [(hx u hu _ _ _ h').2]
      exact hA
  · intro A hA
    rw [cond_univ, ← Measure.map_apply (aff_meas e f) hA, aff_law e f he hf, box_eq]

/-- **C98**, uniform illumination of a single capillary: the photons start uniformly over the *square* around its bore (so almost a quarter
of them outside the bore). -/
theorem capillary_illumination_law (S : Src ℝ) (g : GoodSrc S) (hs : S.src_sigx < 0 ∨ S.src_sigy < 0) (D : Descr ℝ)
    (hn : nShells (α := ℝ) D.n_cap = 0) (he : 0 < D.prof.cap 0) (n : Nat) :
    Law S D n (fun x => (x.photon.startC.x, x.photon.startC.y)) (square (D.prof.cap 0)) := by
  have hl := law_of_pair S g D n (fun x => (x.photon.startC.x, x.photon.startC.y)) (D.prof.cap 0) (D.prof.cap 0) he.ne' he.ne' ?_ ?_
  · rw [abs_of_pos he] at hl; exact hl
  · intro u
    simp only [srcAim]
    rw [if_pos ((neg_iff _ _).2 hs), if_pos hn]
    exact ⟨_, _, rfl⟩
  · intro u hu fuel x m h
    obtain ⟨c, d, m', ha, hm, _, hc, _⟩ := getPhoton_ok S D u fuel n x m h
    obtain ⟨_, _, _, _, _, hb, _⟩ := srcAim_ok S g _ _ _ u fuel _ _ c d m' ha
    obtain ⟨e1, e2⟩ := hb hs hn
    simp only [srcAim] at ha
    rw [if_pos ((neg_iff _ _).2 hs), if_pos hn] at ha
    injection ha with ha
    injection ha with _ ha
    injection ha with _ e3
    refine ⟨by omega, ?_⟩
    simp only [hc, e1, e2, aff]

/-- **C98**, divergent source: the slopes of the directions are uniform within the divergence. -/
theorem divergent_source_law (S : Src ℝ) (g : GoodSrc S) (hx : 0 < S.src_sigx) (hy : 0 < S.src_sigy) (D : Descr ℝ) (n : Nat) :
    Law S D n (fun x => (x.photon.startD.x / x.photon.startD.z, x.photon.startD.y / x.photon.startD.z)) (slopes S.src_sigx S.src_sigy) := by
  have hs : ¬ (CNum.lt S.src_sigx (lit 0) || CNum.lt S.src_sigy (lit 0)) = true := by
    rw [neg_iff]; rintro (h | h) <;> linarith
  have hl := law_of_pair S g D n (fun x => (x.photon.startD.x / x.photon.startD.z, x.photon.startD.y / x.photon.startD.z)) (-S.src_sigx) (-S.src_sigy)
    (neg_ne_zero.2 hx.ne') (neg_ne_zero.2 hy.ne') ?_ ?_
  · rw [abs_neg, abs_neg, abs_of_pos hx, abs_of_pos hy] at hl; exact hl
  · intro u
    simp only [srcAim]
    rw [if_neg hs]
    exact ⟨_, _, rfl⟩
  · intro u hu fuel x m h
    obtain ⟨c, d, m', ha, hm, _, _, hd, _⟩ := getPhoton_ok S D u fuel n x m h
    obtain ⟨_, dz, _, _, _, _, hb⟩ := srcAim_ok S g _ _ _ u fuel _ _ c d m' ha
    obtain ⟨e1, e2⟩ := hb hx.le hy.le
    simp only [srcAim] at ha
    rw [if_neg hs] at ha
    injection ha with ha
    injection ha with _ ha
    injection ha with _ e3
    refine ⟨by omega, ?_⟩
    have z := dz.ne'
    simp only [hd, e1, e2, aff, abs_of_nonneg (hu (n + 3)).1, abs_of_nonneg (hu (n + 3 + 1)).1, show n + 3 + 1 = n + 4 from rfl, mul_div_cancel_right₀ _ z]
    congr 1 <;> ring

/-- finding: with uniform illumination of a single capillary a photon starts inside the bore with probability π/4 only -/
theorem capillary_illumination_miss (S : Src ℝ) (g : GoodSrc S) (hs : S.src_sigx < 0 ∨ S.src_sigy < 0) (D : Descr ℝ)
    (hn : nShells (α := ℝ) D.n_cap = 0) (he : 0 < D.prof.cap 0) (n : Nat) :
    draws {u | ∃ fuel x m, getPhoton S D u fuel n = .ok (x, m) ∧ x.photon.startC.x ^ 2 + x.photon.startC.y ^ 2 < D.prof.cap 0 ^ 2} =
      ENNReal.ofReal (Real.pi / 4) := by
  obtain ⟨q, _, h⟩ := capillary_illumination_law S g hs D hn he n
  set r := D.prof.cap 0 with hr
  have hm : MeasurableSet {p : ℝ × ℝ | p.1 ^ 2 + p.2 ^ 2 < r ^ 2} := measurableSet_lt (by fun_prop) measurable_const
  have e := (h univ _ MeasurableSet.univ hm).1
  have hE : volume (ellipse S.src_x S.src_y S.src_shiftx S.src_shifty) ≠ 0 := by
    rw [ellipse_area _ _ _ _ g.x g.y]
    have := g.x; have := g.y; have := Real.pi_pos
    simpa using by positivity
  have hE' : volume (ellipse S.src_x S.src_y S.src_shiftx S.src_shifty) ≠ ⊤ := by
    rw [ellipse_area _ _ _ _ g.x g.y]; exact ENNReal.ofReal_ne_top
  have c1 : ProbabilityTheory.cond volume (ellipse S.src_x S.src_y S.src_shiftx S.src_shifty) univ = 1 := by
    rw [cond_apply' MeasurableSet.univ, inter_univ, ENNReal.inv_mul_cancel hE hE']
  have hsq : square r = Ioo (-r) r ×ˢ Ioo (-r) r := (box_eq r r).symm
  have hdisc : square r ∩ {p : ℝ × ℝ | p.1 ^ 2 + p.2 ^ 2 < r ^ 2} = ellipse r r 0 0 := by
    ext ⟨x, y⟩
    simp only [square, ellipse, mem_inter_iff, mem_ofPred_eq, sub_zero, div_pow, ← add_div]
    rw [div_lt_one (by positivity)]
    constructor
    · exact fun h => h.2
    · intro h
      exact ⟨⟨abs_lt_of_sq_lt_sq (by nlinarith [sq_nonneg y]) he.le, abs_lt_of_sq_lt_sq (by nlinarith [sq_nonneg x]) he.le⟩, h⟩
  rw [c1, one_mul, cond_apply' hm, hdisc, ellipse_area r r 0 0 he he, hsq, Measure.volume_eq_prod, Measure.prod_prod, Real.volume_Ioo,
    ← ENNReal.ofReal_mul (by linarith), ← ENNReal.ofReal_inv_of_pos (by nlinarith), ← ENNReal.ofReal_mul (by
      have : 0 ≤ ((r - -r) * (r - -r)) := mul_self_nonneg _
      positivity)] at e
  simp only [mem_univ, true_and] at e
  refine Eq.trans e ?_
  congr 1
  field_simp
  ring

/-- the hypotheses are met -/
example : Law exS exHexD 0 (fun x => (x.photon.startC.x, x.photon.startC.y)) (entrance 1) :=
  polycapillary_illumination_law exS exS_good (Or.inl (by norm_num [exS])) exHexD (by rw [exHexD_shells]; decide) (by norm_num [exHexD]) 0

/-- a divergent source -/
noncomputable def divS : Src ℝ := ⟨10, 1, 2, 1/100, 1/50, 3, 0, -1/2, [10]⟩

example : Law divS exHexD 4 (fun x => (x.photon.startD.x / x.photon.startD.z, x.photon.startD.y / x.photon.startD.z)) (slopes (1/100) (1/50)) :=
  divergent_source_law divS ⟨by norm_num [divS], by norm_num [divS], by norm_num [divS], by norm_num [divS, abs_le]⟩
    (by norm_num [divS]) (by norm_num [divS]) exHexD 4

/-- a single capillary -/
noncomputable def oneD : Descr ℝ := ⟨5, 1, [14], [1], 2.2, ⟨2, fun i => i, fun _ => 1/10, fun _ => 1⟩⟩

example : draws {u | ∃ fuel x m, getPhoton exS oneD u fuel 0 = .ok (x, m) ∧ x.photon.startC.x ^ 2 + x.photon.startC.y ^ 2 < (1 / 10) ^ 2} =
    ENNReal.ofReal (Real.pi / 4) :=
  capillary_illumination_miss exS exS_good (Or.inl (by norm_num [exS])) oneD
    (by have := nShells_of_full_stacking 0; norm_num at this; exact this) (by norm_num [oneD]) 0

end Polycap.Unif
