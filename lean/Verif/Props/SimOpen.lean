import Verif.Props.SimMean

/-!
# C101: the open area a simulation reports, and the efficiencies it allows
-/
namespace Polycap
open CNum MeasureTheory Filter
open scoped Topology

namespace Mean

/-! ## Specification -/

/-- the part of the entrance plane a source with uniform illumination aims at: the hexagon of a polycapillary, the square around the bore of a single capillary -/
def spot (D : Descr ℝ) : Set (ℝ × ℝ) := if D.n_cap ≤ 3 then Unif.square (D.prof.cap 0) else Unif.entrance (D.prof.ext 0)

/-- the part of it that is on the front face of the optic -/
def face (D : Descr ℝ) : Set (ℝ × ℝ) := spot D ∩ {p | ¬ Outside D.n_cap (D.prof.ext 0) ⟨p.1, p.2, 0⟩}

/-- the part of it that is glass -/
def glass (D : Descr ℝ) : Set (ℝ × ℝ) := face D ∩ {p | InGlass D.n_cap (D.prof.ext 0) (D.prof.cap 0) ⟨p.1, p.2, 0⟩}

/-- the part of it that is open -/
def holes (D : Descr ℝ) : Set (ℝ × ℝ) := face D \ glass D

/-- the open share of the illuminated front face -/
noncomputable def openFraction (D : Descr ℝ) : ℝ := (volume (holes D)).toReal / (volume (face D)).toReal

open Classical in
/-- 1 for the photons that are let in and counted: transmitted, or absorbed -/
noncomputable def entered (D : Descr ℝ) (o : Option (Attempt ℝ)) : ℝ := if ∃ a, o = some a ∧ (simCode D a = 1 ∨ a.code = 0) then 1 else 0

open Classical in
/-- 1 for the photons stopped by the front face -/
noncomputable def stopped (o : Option (Attempt ℝ)) : ℝ := if ∃ a, o = some a ∧ a.code = 2 then 1 else 0

noncomputable def enteredShare (lib : Xray ℝ) (S : Src ℝ) (D : Descr ℝ) (leak : Bool) : ℝ := ∫ u, entered D (photonOf lib S D leak u) ∂Unif.draws

/-! ## Convergence -/

theorem code_of_sim {D : Descr ℝ} {a : Attempt ℝ} (h : simCode D a = 1) : a.code = 1 := by
  by_contra hc
  unfold simCode at h
  rw [if_neg hc] at h
  exact hc h

theorem counted_split (D : Descr ℝ) (o : Option (Attempt ℝ)) : counted D o = entered D o + stopped o := by
  cases o with
  | none => simp [counted, Counts, entered, stopped]
  | some a =>
    by_cases h1 : simCode D a = 1
    · simp [counted, Counts, entered, stopped, h1, code_of_sim h1]
    · by_cases h0 : a.code = 0
      · simp [counted, Counts, entered, stopped, h1, h0]
      · by_cases h2 : a.code = 2 <;> simp [counted, Counts, entered, stopped, h1, h0, h2]

theorem entered_meas (lib : Xray ℝ) (S : Src ℝ) (D : Descr ℝ) (leak : Bool) : Measurable fun u => entered D (photonOf lib S D leak u) := by
  refine photonOf_meas lib S D leak _ (by simp [entered]) fun a ha => ?_
  obtain ⟨c, hc⟩ := ha.code
  have e : ∀ u, (a u).code = c := fun u => congrFun hc u
  have : ∀ u, entered D (some (a u)) = if (simCode D (a u) = 1 ∨ c = 0) then (1:ℝ) else 0 := by
    intro u; simp [entered, e]
  simp only [this]
  exact Meas.PW.iteInt (Meas.pw_simCode D ha) (fun x => x = 1 ∨ c = 0) (Meas.PW.real measurable_const) (Meas.PW.real measurable_const)

theorem stopped_meas (lib : Xray ℝ) (S : Src ℝ) (D : Descr ℝ) (leak : Bool) : Measurable fun u => stopped (photonOf lib S D leak u) := by
  refine photonOf_meas lib S D leak _ (by simp [stopped]) fun a ha => ?_
  obtain ⟨c, hc⟩ := ha.code
  have e : ∀ u, (a u).code = c := fun u => congrFun hc u
  simp only [stopped, Option.some.injEq, exists_eq_left', e]
  exact Meas.PW.real measurable_const

theorem entered_bounds (D : Descr ℝ) (o : Option (Attempt ℝ)) : 0 ≤ entered D o ∧ entered D o ≤ 1 := by
  unfold entered; split_ifs <;> simp
theorem stopped_bounds (o : Option (Attempt ℝ)) : 0 ≤ stopped o ∧ stopped o ≤ 1 := by
  unfold stopped; split_ifs <;> simp

theorem integrable_of_unit {f : (ℕ → ℝ) → ℝ} (hm : Measurable f) (h : ∀ u, 0 ≤ f u ∧ f u ≤ 1) : Integrable f Unif.draws := by
  refine Integrable.of_bound hm.aestronglyMeasurable 1 ?_
  filter_upwards with u
  rw [Real.norm_eq_abs, abs_of_nonneg (h u).1]
  exact (h u).2

/-- sums over the photons of all threads, compared with the number of photons counted -/
theorem ratio_converges {lib : Xray ℝ} {S : Src ℝ} {D : Descr ℝ} (G : GoodSetup lib S D) (T : ℕ) (leak : Bool) (φ : Option (Attempt ℝ) → ℝ)
    (hφ : Measurable fun u => φ (photonOf lib S D leak u)) (hi : Integrable (fun u => φ (photonOf lib S D leak u)) Unif.draws)
    {Ω : Type} [MeasurableSpace Ω] (P : Measure Ω) (U : ℕ → Ω → ℕ → ℝ) (hU : ∀ t, AEMeasurable (U t) P) (hlaw : ∀ t, P.map (U t) = Unif.draws) :
    ∀ᵐ ω ∂P, ∀ ε > 0, ∃ n0 : ℕ, 1 ≤ n0 ∧ ∀ n ≥ n0, ∀ τ : ℕ → ℕ,
      (n : ℝ) ≤ ∑ t ∈ Finset.range T, ∑ i ∈ Finset.range (τ t), counted D (photonOf lib S D leak ((Unif.after (used S D))^[i] (U t ω))) →
      |(∑ t ∈ Finset.range T, ∑ i ∈ Finset.range (τ t), φ (photonOf lib S D leak ((Unif.after (used S D))^[i] (U t ω)))) /
        (∑ t ∈ Finset.range T, ∑ i ∈ Finset.range (τ t), counted D (photonOf lib S D leak ((Unif.after (used S D))^[i] (U t ω)))) -
        (∫ u, φ (photonOf lib S D leak u) ∂Unif.draws) / countShare lib S D leak| ≤ ε := by
  have hiC : Integrable (fun u => counted D (photonOf lib S D leak u)) Unif.draws :=
    integrable_of_unit (counted_meas lib S D leak) fun u => counted_bounds _ _
  have RC := reader G leak (counted D) (counted_meas lib S D leak)
  rcases (countShare_nonneg lib S D leak).eq_or_lt with hq | hq
  · have h0 : ∀ᵐ u ∂Unif.draws, counted D (photonOf lib S D leak u) = 0 :=
      (integral_eq_zero_iff_of_nonneg (fun u => (counted_bounds D (photonOf lib S D leak u)).1) hiC).1 hq.symm
    have h1 : ∀ᵐ u ∂Unif.draws, ∀ i : ℕ, counted D (photonOf lib S D leak ((Unif.after (used S D))^[i] u)) = 0 := by
      rw [ae_all_iff]
      intro i
      exact ((Unif.after_law RC).iterate i).quasiMeasurePreserving.ae h0
    have key : ∀ᵐ ω ∂P, ∀ t, ∀ i : ℕ, counted D (photonOf lib S D leak ((Unif.after (used S D))^[i] (U t ω))) = 0 := by
      rw [ae_all_iff]
      intro t
      rw [← hlaw t] at h1
      exact ae_of_ae_map (hU t) h1
    filter_upwards [key] with ω hω
    intro ε _
    refine ⟨1, le_refl _, ?_⟩
    intro n hn τ h2
    simp only [hω, Finset.sum_const_zero] at h2
    have : (1:ℝ) ≤ n := by exact_mod_cast hn
    linarith
  have hW := Unif.reads_average (reader G leak φ hφ) hi
  have hC := Unif.reads_average RC hiC
  have e2 : ∫ u, counted D (photonOf lib S D leak u) ∂Unif.draws = countShare lib S D leak := rfl
  rw [e2] at hC
  clear e2
  generalize (∫ u, φ (photonOf lib S D leak u) ∂Unif.draws) = w at hW ⊢
  generalize countShare lib S D leak = q at hC hq ⊢
  have key : ∀ᵐ ω ∂P, ∀ t, Tendsto (fun n : ℕ => (∑ i ∈ Finset.range n, φ (photonOf lib S D leak ((Unif.after (used S D))^[i] (U t ω)))) / n) atTop (𝓝 w) ∧
      Tendsto (fun n : ℕ => (∑ i ∈ Finset.range n, counted D (photonOf lib S D leak ((Unif.after (used S D))^[i] (U t ω)))) / n) atTop (𝓝 q) := by
    rw [ae_all_iff]
    intro t
    have h := hW.and hC
    rw [← hlaw t] at h
    exact ae_of_ae_map (hU t) h
  filter_upwards [key] with ω hω
  intro ε he
  obtain ⟨B, hB⟩ := Unif.ratio_close (T := T)
    (W := fun t n => ∑ i ∈ Finset.range n, φ (photonOf lib S D leak ((Unif.after (used S D))^[i] (U t ω))))
    (C := fun t n => ∑ i ∈ Finset.range n, counted D (photonOf lib S D leak ((Unif.after (used S D))^[i] (U t ω)))) hq (fun t _ => (hω t).1) (fun t _ => (hω t).2) he
  refine ⟨max 1 ⌈B⌉₊, le_max_left _ _, ?_⟩
  intro n hn τ h2
  refine hB τ ?_
  refine le_trans ?_ h2
  have : (⌈B⌉₊ : ℝ) ≤ n := by exact_mod_cast le_trans (le_max_right _ _) hn
  exact (Nat.le_ceil B).trans this

theorem hist_entered {D : Descr ℝ} (H : List (Nat × Attempt ℝ)) :
    ((exitsOf D H).length + H.countP (fun x => decide (x.2.code = 0)) : ℕ) = (H.map (fun x => entered D (some x.2))).sum := by
  induction H with
  | nil => simp [exitsOf]
  | cons x H ih =>
    have hcd : entered D (some x.2) = ((if simCode D x.2 = 1 then 1 else 0) + (if x.2.code = 0 then 1 else 0) : ℕ) := by
      by_cases hc : simCode D x.2 = 1
      · simp [entered, hc, code_of_sim hc]
      · by_cases h0 : x.2.code = 0 <;> simp [entered, hc, h0]
    simp only [List.map_cons, List.sum_cons, ← ih, hcd, exitsOf, List.filter_cons, List.countP_cons, decide_eq_true_eq]
    by_cases hc : simCode D x.2 = 1
    · simp only [hc, if_true, List.length_cons]
      push_cast
      ring
    · simp only [hc, if_false]
      push_cast
      ring

/-- the reported open area as a ratio of sums over the streams of the threads -/
theorem openArea_ratio {lib : Xray ℝ} {S : Src ℝ} {D : Descr ℝ} (mt omp : Int) (leak : Bool) (fuel k : Nat)
    {n : Nat} {u : ℕ → ℕ → ℝ} {asg : Nat → List Nat} (hd : Distributes (simCfg lib S D (callOf S D mt leak n) omp u fuel k) asg)
    {m : Nat} {s : St ℝ} (hr : Reach (simCfg lib S D (callOf S D mt leak n) omp u fuel k) asg m s) (hf : s.finished (simCfg lib S D (callOf S D mt leak n) omp u fuel k)) :
    ∃ τ : ℕ → ℕ, (results (simCfg lib S D (callOf S D mt leak n) omp u fuel k) S.energies s).openArea =
        (∑ t ∈ Finset.range (threadsUsed mt omp).toNat, ∑ i ∈ Finset.range (τ t), entered D (photonOf lib S D leak ((Unif.after (used S D))^[i] (u t)))) /
        (∑ t ∈ Finset.range (threadsUsed mt omp).toNat, ∑ i ∈ Finset.range (τ t), counted D (photonOf lib S D leak ((Unif.after (used S D))^[i] (u t)))) ∧
      (n : ℝ) ≤ ∑ t ∈ Finset.range (threadsUsed mt omp).toNat, ∑ i ∈ Finset.range (τ t), counted D (photonOf lib S D leak ((Unif.after (used S D))^[i] (u t))) := by
  set C := simCfg lib S D (callOf S D mt leak n) omp u fuel k with hC
  have F := final_of_finished hr hf
  have R := simulation_reports hd hr hf S.energies
  have hCn : C.n = n := by simp [hC, simCfg, callOf]
  have hrun : ∀ t < C.T, (s.thr t).hist.map (fun x => some x.2) =
      (List.range (s.thr t).hist.length).map (fun m => photonOf lib S D leak ((Unif.after (used S D))^[0 + m] (u t))) := by
    intro t ht
    obtain ⟨p, hp⟩ := F.runs t ht
    exact (run_photons (f := fun i => photonOf lib S D leak ((Unif.after (used S D))^[i] (u t))) (at_ := fun i p => Unif.drop p (u t) = (Unif.after (used S D))^[i] (u t))
      (fun i p a p' e h => by
        obtain ⟨g1, g2⟩ := attempt_step h
        rw [e] at g1 g2
        exact ⟨by rw [g2, Function.iterate_succ_apply'], g1⟩) hp 0 rfl).1
  have hsum : ∀ φ : Option (Attempt ℝ) → ℝ, ((allHist C (fun t => (s.thr t).hist)).map (fun x => φ (some x.2))).sum =
      ∑ t ∈ Finset.range (threadsUsed mt omp).toNat, ∑ i ∈ Finset.range (s.thr t).hist.length, φ (photonOf lib S D leak ((Unif.after (used S D))^[i] (u t))) := by
    intro φ
    unfold allHist
    rw [List.map_flatMap, sum_flatMap_real, sum_list_range]
    refine Finset.sum_congr rfl fun t ht => ?_
    rw [Finset.mem_range] at ht
    have := hrun t ht
    rw [sum_photons (f := fun i => photonOf lib S D leak ((Unif.after (used S D))^[i] (u t))) this]
  obtain ⟨-, c2⟩ := hist_counts (D := D) S.energies.length 0 (allHist C (fun t => (s.thr t).hist))
  have c3 := hist_entered (D := D) (allHist C (fun t => (s.thr t).hist))
  have hex : (exitsOf D (allHist C (fun t => (s.thr t).hist))).length = n := by
    have := R.slots.length_eq
    rw [List.length_map, List.length_range, hCn] at this
    exact this
  have hst : ((results C S.energies s).iStart : ℝ) = ((allHist C (fun t => (s.thr t).hist)).map (fun x => counted D (some x.2))).sum := by
    rw [← c2, R.iStart, hex, hCn]
  refine ⟨fun t => (s.thr t).hist.length, ?_, ?_⟩
  · rw [R.openArea, ← hsum, ← hsum, ← hst, ← c3, hex, hCn]
    simp only [real_div, real_ofInt]
    push_cast
    rfl
  · rw [← hsum, ← c2, hex]
    push_cast
    have h1 : (0:ℝ) ≤ (List.countP (fun x => decide (x.2.code = 2)) (allHist C (fun t => (s.thr t).hist)) : ℝ) := by positivity
    have h2 : (0:ℝ) ≤ (List.countP (fun x => decide (x.2.code = 0)) (allHist C (fun t => (s.thr t).hist)) : ℝ) := by positivity
    linarith

/-- The reported open area converges to the share of the photons counted that are let in, for any source. -/
theorem openArea_converges {lib : Xray ℝ} {S : Src ℝ} {D : Descr ℝ} (G : GoodSetup lib S D) (mt omp : Int) (leak : Bool)
    {Ω : Type} [MeasurableSpace Ω] (P : Measure Ω) (U : ℕ → Ω → ℕ → ℝ) (hU : ∀ t, AEMeasurable (U t) P) (hlaw : ∀ t, P.map (U t) = Unif.draws) :
    ∀ᵐ ω ∂P, ∀ ε > 0, ∃ n0 : ℕ, ∀ n ≥ n0, ∀ fuel k asg m s, Distributes (simCfg lib S D (callOf S D mt leak n) omp (fun t => U t ω) fuel k) asg →
      Reach (simCfg lib S D (callOf S D mt leak n) omp (fun t => U t ω) fuel k) asg m s → s.finished (simCfg lib S D (callOf S D mt leak n) omp (fun t => U t ω) fuel k) →
      |(results (simCfg lib S D (callOf S D mt leak n) omp (fun t => U t ω) fuel k) S.energies s).openArea -
        enteredShare lib S D leak / countShare lib S D leak| ≤ ε := by
  filter_upwards [ratio_converges G (threadsUsed mt omp).toNat leak (entered D) (entered_meas lib S D leak)
    (integrable_of_unit (entered_meas lib S D leak) fun u => entered_bounds _ _) P U hU hlaw] with ω hω
  intro ε he
  obtain ⟨n0, -, h⟩ := hω ε he
  refine ⟨n0, ?_⟩
  intro n hn fuel k asg m s hd hr hf
  obtain ⟨τ, h1, h2⟩ := openArea_ratio mt omp leak fuel k hd hr hf
  rw [h1]
  exact h n hn τ h2

/-! ## Uniform illumination -/

theorem outside_meas (n : Int) (R : ℝ) : MeasurableSet {p : ℝ × ℝ | Outside n R ⟨p.1, p.2, 0⟩} := by
  unfold Outside
  by_cases h : n ≤ 3
  · simp only [h, if_true]
    exact measurableSet_lt measurable_const (by fun_prop)
  · simp only [h, if_false]
    exact (Unif.inHex_meas R).compl

theorem inGlass_meas (n : Int) (R rad : ℝ) : MeasurableSet {p : ℝ × ℝ | InGlass n R rad ⟨p.1, p.2, 0⟩} := by
  unfold InGlass
  by_cases h : n ≤ 3
  · simp only [h, if_true]
    exact measurableSet_lt measurable_const (by fun_prop)
  · simp only [h, if_false]
    refine measurableSet_lt measurable_const (Measurable.sqrt (Meas.PW.measurable ?_))
    refine Meas.PW.bind (f := fun p : ℝ × ℝ => hexRound (nShells (α := ℝ) n) R p.1 p.2) (k := fun p qr => dist2Centre (nShells (α := ℝ) n) R p.1 p.2 qr.1 qr.2)
      (Meas.pw_hexRound (Ω := ℝ × ℝ) (f := fun _ => R) (g := fun p => p.1) (h := fun p => p.2) _ measurable_const measurable_fst measurable_snd) ?_
    rintro g ⟨⟨q, hq⟩, ⟨r, hr⟩⟩
    have e : ∀ p, g p = (q, r) := fun p => Prod.ext (congrFun hq p) (congrFun hr p)
    simp only [e]
    unfold dist2Centre
    exact Meas.PW.real (by fun_prop)

theorem spot_meas (D : Descr ℝ) : MeasurableSet (spot D) := by
  unfold spot Unif.square Unif.entrance
  split
  · exact (measurableSet_lt (f := fun p : ℝ × ℝ => |p.1|) (by fun_prop) measurable_const).inter (measurableSet_lt (f := fun p : ℝ × ℝ => |p.2|) (by fun_prop) measurable_const)
  · exact (measurableSet_lt (f := fun p : ℝ × ℝ => |p.1|) (by fun_prop) measurable_const).inter (Unif.inHex_meas _)

theorem face_meas (D : Descr ℝ) : MeasurableSet (face D) := (spot_meas D).inter (outside_meas _ _).compl
theorem glass_meas (D : Descr ℝ) : MeasurableSet (glass D) := (face_meas D).inter (inGlass_meas _ _ _)

/-- the start point of a uniformly illuminating source is uniform over the spot -/
theorem start_law {S : Src ℝ} (g : GoodSrc S) (hs : S.src_sigx < 0 ∨ S.src_sigy < 0) {D : Descr ℝ} (hn : 1 ≤ D.n_cap) (hc : D.n_cap ≤ 3 → 0 < D.prof.cap 0)
    (he : 0 < D.prof.ext 0) (A : Set (ℝ × ℝ)) (hA : MeasurableSet A) :
    Unif.draws {u | ∃ fuel x m, getPhoton S D u fuel 0 = .ok (x, m) ∧ (x.photon.startC.x, x.photon.startC.y) ∈ A} = ProbabilityTheory.cond volume (spot D) A := by
  have hL : Unif.Law S D 0 (fun x => (x.photon.startC.x, x.photon.startC.y)) (spot D) := by
    unfold spot
    split
    · rename_i h
      exact Unif.capillary_illumination_law S g hs D ((nShells_zero_iff _ hn).2 h) (hc h) 0
    · rename_i h
      exact Unif.polycapillary_illumination_law S g hs D (fun h0 => h ((nShells_zero_iff _ hn).1 h0)) he 0
  obtain ⟨q, -, hq⟩ := hL
  have h1 := (hq Set.univ A MeasurableSet.univ hA).1
  have c1 : ProbabilityTheory.cond volume (Unif.ellipse S.src_x S.src_y S.src_shiftx S.src_shifty) Set.univ = 1 := by
    rw [← Unif.ideal_law _ _ _ _ g.x g.y, Measure.map_apply (Unif.ideal_meas _ _ _ _) MeasurableSet.univ, Set.preimage_univ, measure_univ]
  rw [c1, one_mul] at h1
  simpa only [Set.mem_univ, true_and] using h1

theorem getPhoton_unique {S : Src ℝ} {D : Descr ℝ} {u : ℕ → ℝ} {f f' : Nat} {x x' : SrcPhoton ℝ} {m m' : Nat} (h : getPhoton S D u f 0 = .ok (x, m))
    (h' : getPhoton S D u f' 0 = .ok (x', m')) : x = x' := by
  have a := (photon_from_stream S D u f 0 x m h).2.2 (max f f') (le_max_left _ _)
  have b := (photon_from_stream S D u f' 0 x' m' h').2.2 (max f f') (le_max_right _ _)
  rw [a] at b
  injection b with b
  injection b

/-- what the start point says about the outcome -/
theorem outcome_of_start {lib : Xray ℝ} {S : Src ℝ} {D : Descr ℝ} (G : GoodSetup lib S D) {leak : Bool} {u : ℕ → ℝ} (hu : ∀ i, 0 ≤ u i ∧ u i < 1)
    {f : Nat} {x : SrcPhoton ℝ} {m : Nat} (hx : getPhoton S D u f 0 = .ok (x, m)) :
    (∀ a, photonOf lib S D leak u = some a → (a.code = -2 ↔ Outside D.n_cap (D.prof.ext 0) ⟨x.photon.startC.x, x.photon.startC.y, 0⟩) ∧
      (¬ Outside D.n_cap (D.prof.ext 0) ⟨x.photon.startC.x, x.photon.startC.y, 0⟩ →
        (a.code = 2 ↔ InGlass D.n_cap (D.prof.ext 0) (D.prof.cap 0) ⟨x.photon.startC.x, x.photon.startC.y, 0⟩))) ∧
    (leak = false → ¬ Outside D.n_cap (D.prof.ext 0) ⟨x.photon.startC.x, x.photon.startC.y, 0⟩ →
      InGlass D.n_cap (D.prof.ext 0) (D.prof.cap 0) ⟨x.photon.startC.x, x.photon.startC.y, 0⟩ → photonOf lib S D leak u ≠ none) := by
  obtain ⟨h0, -⟩ := source_photon_geometry S G.src D u (fun i => ⟨(hu i).1, (hu i).2.le⟩) f 0 x m hx
  obtain ⟨-, -, hes, hb, -⟩ := (scatf_accepts_iff D S.energies).mp G.comp
  have hz : D.prof.z 0 ≤ D.prof.z D.prof.nmax := mono_of_step G.grid.inc (Nat.zero_le _) (le_refl _)
  rw [G.grid.start] at hz
  have hv : ∀ v : Nat → ℝ, ValueAt D.prof v 0 (v 0) := fun v =>
    ⟨0, by have := G.grid.two; omega, by rw [G.grid.start], by have := G.grid.inc 0 (by have := G.grid.two; omega); rw [G.grid.start] at this; exact this.le,
      by rw [linAt, G.grid.start]; simp⟩
  have hc : (⟨x.photon.startC.x, x.photon.startC.y, 0⟩ : V3 ℝ) = x.photon.startC := by rw [← h0]
  rw [hc]
  constructor
  · intro a ha
    obtain ⟨f', k, m', ha⟩ := photonOf_ok ha
    obtain ⟨x', hx', -, hl⟩ := attempt_ok ha
    have := getPhoton_unique hx hx'
    subst this
    have ho := launch_outside_iff lib D leak f' k x.photon S.energies hes hb G.grid G.caps (by rw [h0]) (by rw [h0]; exact hz) (D.prof.ext 0) (by rw [h0]; exact hv _) G.ext0 _ _ _ hl
    refine ⟨ho, fun hin => ?_⟩
    obtain ⟨g1, g2, -, -⟩ := launch_glass lib D leak f' k x.photon S.energies hes hb G.grid G.caps (by rw [h0]) (by rw [h0]; exact hz) (D.prof.ext 0) (D.prof.cap 0)
      (by rw [h0]; exact hv _) (by rw [h0]; exact hv _) G.ext0 hin _ _ _ hl
    exact ⟨g1, fun h => g2 h (Or.inr h0)⟩
  · rintro rfl hin hgl
    obtain ⟨qr, hq⟩ : ∃ qr, launchCap D x.photon.startC = some qr := by
      cases h : launchCap D x.photon.startC with
      | some qr => exact ⟨qr, rfl⟩
      | none =>
        have e : launchExt D.prof x.photon.startC.z = D.prof.ext 0 :=
          (launchExt_value G.grid (by rw [h0]) (by rw [h0]; exact hz)).unique G.grid (by rw [h0]; exact hv _)
        refine absurd ((launchCap_none G.caps (by rw [e]; exact G.ext0)).1 h) ?_
        rw [e]; exact hin
    have hw := (startsInWall_iff G.grid G.caps (by rw [h0]) (by rw [h0]; exact hz) (by rw [h0]; exact hv D.prof.ext) (by rw [h0]; exact hv _) hq).2 hgl
    obtain ⟨D', P'', es', e1, e2, e3, -, -, -, h'⟩ :=
      launch_valid lib (some D) false f 0 (some x.photon) (some S.energies) true (not_argsBad hes hb)
    injection e1 with e1; injection e2 with e2; injection e3 with e3; subst e1 e2 e3
    have hbody : ∃ P', launchBody lib D false f 0 x.photon S.energies = .ok (2, .uninit, P') := by
      unfold launchBody
      have hi : (launchInit lib D S.energies x.photon).startC = x.photon.startC := rfl
      simp only [hi, hq, hw, Bool.false_and, Bool.false_eq_true, if_false, if_true]
      exact ⟨_, rfl⟩
    obtain ⟨P', hP'⟩ := hbody
    rw [hP', Out.bind_ok] at h'
    have : attempt lib S D false f 0 u 0 = .ok (⟨2, x.src, P', .uninit⟩, m) := by
      unfold attempt
      rw [hx, Out.bind_ok, h', Out.bind_ok]
    rw [photonOf_some this]
    simp

theorem spot_size {D : Descr ℝ} (hc : D.n_cap ≤ 3 → 0 < D.prof.cap 0) (he : 0 < D.prof.ext 0) : volume (spot D) ≠ 0 ∧ volume (spot D) ≠ ⊤ := by
  have box : ∀ r : ℝ, 0 < r → volume (Unif.square r) = ENNReal.ofReal ((2 * r) * (2 * r)) := by
    intro r hr
    have hsq : Unif.square r = Set.Ioo (-r) r ×ˢ Set.Ioo (-r) r := (Unif.box_eq r r).symm
    rw [hsq, Measure.volume_eq_prod, Measure.prod_prod, Real.volume_Ioo, ← ENNReal.ofReal_mul (by linarith)]
    congr 1; ring
  unfold spot
  split
  · rename_i h
    rw [box _ (hc h)]
    have := hc h
    exact ⟨by simpa using by positivity, ENNReal.ofReal_ne_top⟩
  · refine ⟨Unif.entrance_pos _ he, ?_⟩
    refine ne_top_of_le_ne_top (b := volume (Unif.square (D.prof.ext 0))) (by rw [box _ he]; exact ENNReal.ofReal_ne_top) (measure_mono ?_)
    rintro p hp
    have := (Unif.entrance_eq (D.prof.ext 0) he).symm ▸ hp
    rw [Unif.box_eq] at this
    exact this.1

/-- the share of the spot covered by a part of it -/
theorem spot_share {D : Descr ℝ} (A B : Set (ℝ × ℝ)) (hA : MeasurableSet A) (hB : B = spot D ∩ A) :
    (ProbabilityTheory.cond volume (spot D) A).toReal = (volume B).toReal / (volume (spot D)).toReal := by
  rw [ProbabilityTheory.cond_apply' hA, ← hB, ENNReal.toReal_mul, ENNReal.toReal_inv, div_eq_inv_mul]

/-- a photon stopped by the front face: with the probability of the glass, exactly -/
theorem stopped_share {lib : Xray ℝ} {S : Src ℝ} {D : Descr ℝ} (G : GoodSetup lib S D) (hs : S.src_sigx < 0 ∨ S.src_sigy < 0) (hc : D.n_cap ≤ 3 → 0 < D.prof.cap 0)
    (leak : Bool) (hend : leak = false ∨ ∀ᵐ u ∂Unif.draws, photonOf lib S D leak u ≠ none) :
    ∫ u, stopped (photonOf lib S D leak u) ∂Unif.draws = (volume (glass D)).toReal / (volume (spot D)).toReal := by
  set A : Set (ℝ × ℝ) := {p | ¬ Outside D.n_cap (D.prof.ext 0) ⟨p.1, p.2, 0⟩} ∩ {p | InGlass D.n_cap (D.prof.ext 0) (D.prof.cap 0) ⟨p.1, p.2, 0⟩} with hAd
  have hA : MeasurableSet A := (outside_meas _ _).compl.inter (inGlass_meas _ _ _)
  have hB : glass D = spot D ∩ A := by rw [glass, face, Set.inter_assoc]
  rw [← spot_share A _ hA hB, ← start_law G.src hs G.caps hc G.ext0 A hA]
  have hm : MeasurableSet {u | stopped (photonOf lib S D leak u) = 1} := stopped_meas lib S D leak (measurableSet_singleton 1)
  have e1 : ∀ u, stopped (photonOf lib S D leak u) = Set.indicator {u | stopped (photonOf lib S D leak u) = 1} (fun _ => (1:ℝ)) u := by
    intro u
    by_cases h : stopped (photonOf lib S D leak u) = 1
    · rw [Set.indicator_of_mem (by exact h), h]
    · rw [Set.indicator_of_notMem (by exact h)]
      unfold stopped at h ⊢
      split_ifs at h ⊢ with h1
      · exact absurd rfl h
      · rfl
  rw [integral_congr_ae (Eventually.of_forall e1), integral_indicator_const _ hm, smul_eq_mul, mul_one, Measure.real]
  congr 1
  refine measure_congr (Filter.eventuallyEq_set.2 ?_)
  have hend' : ∀ᵐ u ∂Unif.draws, leak = false ∨ photonOf lib S D leak u ≠ none := by
    rcases hend with h | h
    · exact Eventually.of_forall fun u => Or.inl h
    · filter_upwards [h] with u hu using Or.inr hu
  filter_upwards [Unif.draws_range, hend', used_ae G.src G.ext0] with u hu he hus
  obtain ⟨f, x, hx⟩ := used_pos hus
  obtain ⟨o1, o2⟩ := outcome_of_start (lib := lib) (leak := leak) G hu hx
  constructor
  · intro h
    simp only [stopped] at h
    split_ifs at h with h1
    · obtain ⟨a, ha, h2⟩ := h1
      obtain ⟨p1, p2⟩ := o1 a ha
      have hin : ¬ Outside D.n_cap (D.prof.ext 0) ⟨x.photon.startC.x, x.photon.startC.y, 0⟩ := fun h => by
        rw [p1.2 h] at h2; norm_num at h2
      exact ⟨f, x, _, hx, hin, (p2 hin).1 h2⟩
    · norm_num at h
  · rintro ⟨f', x', m', hx', hin, hgl⟩
    have := getPhoton_unique hx hx'
    subst this
    have hne : photonOf lib S D leak u ≠ none := by
      rcases he with h | h
      · exact o2 h hin hgl
      · exact h
    obtain ⟨a, ha⟩ := Option.ne_none_iff_exists'.1 hne
    have h2 := ((o1 a ha).2 hin).2 hgl
    show stopped (photonOf lib S D leak u) = 1
    simp [stopped, ha, h2]

/-- only photons that reach the front face count -/
theorem count_le {lib : Xray ℝ} {S : Src ℝ} {D : Descr ℝ} (G : GoodSetup lib S D) (hs : S.src_sigx < 0 ∨ S.src_sigy < 0) (hc : D.n_cap ≤ 3 → 0 < D.prof.cap 0) (leak : Bool) :
    countShare lib S D leak ≤ (volume (face D)).toReal / (volume (spot D)).toReal ∧
    ((∀ᵐ u ∂Unif.draws, ∃ a, photonOf lib S D leak u = some a ∧ (a.code = -2 ∨ Counts D (some a))) →
      countShare lib S D leak = (volume (face D)).toReal / (volume (spot D)).toReal) := by
  set A : Set (ℝ × ℝ) := {p | ¬ Outside D.n_cap (D.prof.ext 0) ⟨p.1, p.2, 0⟩} with hAd
  have hA : MeasurableSet A := (outside_meas _ _).compl
  rw [← spot_share A (face D) hA rfl, ← start_law G.src hs G.caps hc G.ext0 A hA]
  have hm : MeasurableSet {u | counted D (photonOf lib S D leak u) = 1} := counted_meas lib S D leak (measurableSet_singleton 1)
  have e1 : ∀ u, counted D (photonOf lib S D leak u) = Set.indicator {u | counted D (photonOf lib S D leak u) = 1} (fun _ => (1:ℝ)) u := by
    intro u
    by_cases h : counted D (photonOf lib S D leak u) = 1
    · rw [Set.indicator_of_mem (by exact h), h]
    · rw [Set.indicator_of_notMem (by exact h)]
      unfold counted at h ⊢
      split_ifs at h ⊢ with h1
      · exact absurd rfl h
      · rfl
  have hfwd : ∀ᵐ u ∂Unif.draws, counted D (photonOf lib S D leak u) = 1 → ∃ fuel x m, getPhoton S D u fuel 0 = .ok (x, m) ∧ (x.photon.startC.x, x.photon.startC.y) ∈ A := by
    filter_upwards [Unif.draws_range, used_ae G.src G.ext0] with u hu hus
    intro h
    obtain ⟨f, x, hx⟩ := used_pos hus
    obtain ⟨o1, -⟩ := outcome_of_start (lib := lib) (leak := leak) G hu hx
    refine ⟨f, x, _, hx, ?_⟩
    simp only [counted] at h
    split_ifs at h with h1
    · obtain ⟨a, ha, h2⟩ := h1
      intro ho
      have hcode := (o1 a ha).1.2 ho
      rcases h2 with h2 | h2 | h2
      · have := code_of_sim h2; rw [hcode] at this; norm_num at this
      · rw [hcode] at h2; norm_num at h2
      · rw [hcode] at h2; norm_num at h2
    · norm_num at h
  rw [countShare, integral_congr_ae (Eventually.of_forall e1), integral_indicator_const _ hm, smul_eq_mul, mul_one, Measure.real]
  refine ⟨ENNReal.toReal_mono (measure_ne_top _ _) (measure_mono_ae ?_), fun hall => ?_⟩
  · filter_upwards [hfwd] with u hu using hu
  · congr 1
    refine measure_congr (Filter.eventuallyEq_set.2 ?_)
    filter_upwards [hfwd, hall, Unif.draws_range] with u h1 ⟨a, ha, h2⟩ hu
    refine ⟨h1, ?_⟩
    rintro ⟨f, x, m, hx, hin⟩
    obtain ⟨o1, -⟩ := outcome_of_start (lib := lib) (leak := leak) G hu hx
    show counted D (photonOf lib S D leak u) = 1
    rcases h2 with h2 | h2
    · exact absurd ((o1 a ha).1.1 h2) hin
    · rw [ha, counted, if_pos h2]

theorem open_split (D : Descr ℝ) (hv : volume (spot D) ≠ ⊤) : (volume (holes D)).toReal = (volume (face D)).toReal - (volume (glass D)).toReal := by
  have h1 : glass D ⊆ face D := Set.inter_subset_left
  have hf : volume (face D) ≠ ⊤ := ne_top_of_le_ne_top hv (measure_mono Set.inter_subset_left)
  have hg : volume (glass D) ≠ ⊤ := ne_top_of_le_ne_top hf (measure_mono h1)
  rw [holes, measure_sdiff h1 (glass_meas D).nullMeasurableSet hg, ENNReal.toReal_sub_of_le (measure_mono h1) hf]

theorem entered_eq (lib : Xray ℝ) (S : Src ℝ) (D : Descr ℝ) (leak : Bool) :
    enteredShare lib S D leak = countShare lib S D leak - ∫ u, stopped (photonOf lib S D leak u) ∂Unif.draws := by
  have h : countShare lib S D leak = enteredShare lib S D leak + ∫ u, stopped (photonOf lib S D leak u) ∂Unif.draws := by
    rw [countShare, enteredShare, ← integral_add (integrable_of_unit (entered_meas lib S D leak) fun u => entered_bounds _ _)
      (integrable_of_unit (stopped_meas lib S D leak) fun u => stopped_bounds _)]
    exact integral_congr_ae (Eventually.of_forall fun u => counted_split D _)
  linarith

theorem entered_le {lib : Xray ℝ} {S : Src ℝ} {D : Descr ℝ} (G : GoodSetup lib S D) (hs : S.src_sigx < 0 ∨ S.src_sigy < 0) (hc : D.n_cap ≤ 3 → 0 < D.prof.cap 0)
    (leak : Bool) (hend : leak = false ∨ ∀ᵐ u ∂Unif.draws, photonOf lib S D leak u ≠ none) :
    enteredShare lib S D leak / countShare lib S D leak ≤ openFraction D ∧
    ((∀ᵐ u ∂Unif.draws, ∃ a, photonOf lib S D leak u = some a ∧ (a.code = -2 ∨ Counts D (some a))) →
      enteredShare lib S D leak / countShare lib S D leak = openFraction D) := by
  obtain ⟨v0, v1⟩ := spot_size hc G.ext0
  have hv : 0 < (volume (spot D)).toReal := ENNReal.toReal_pos v0 v1
  have hst := stopped_share G hs hc leak hend
  obtain ⟨c1, c2⟩ := count_le G hs hc leak
  have c0 := countShare_nonneg lib S D leak
  have hg0 : 0 ≤ (volume (glass D)).toReal := ENNReal.toReal_nonneg
  have hf0 : 0 ≤ (volume (face D)).toReal := ENNReal.toReal_nonneg
  have ho0 : 0 ≤ openFraction D := by unfold openFraction; positivity
  rw [entered_eq, hst]
  unfold openFraction at ho0 ⊢
  rw [open_split D v1] at ho0 ⊢
  generalize countShare lib S D leak = c at *
  generalize (volume (glass D)).toReal = g at *
  generalize (volume (face D)).toReal = f at *
  generalize (volume (spot D)).toReal = v at *
  constructor
  · rcases c0.eq_or_lt with h | h
    · rw [← h, div_zero]; exact ho0
    · have hf : 0 < f := by
        have := lt_of_lt_of_le h c1
        rcases hf0.eq_or_lt with h' | h'
        · rw [← h', zero_div] at this; exact absurd this (lt_irrefl _)
        · exact h'
      rw [sub_div, sub_div, div_self h.ne', div_self hf.ne']
      have : g / f ≤ g / v / c := by
        rw [div_div]
        refine div_le_div_of_nonneg_left hg0 (by positivity) ?_
        rw [le_div_iff₀ hv] at c1
        linarith
      linarith
  · intro hall
    rw [c2 hall]
    rcases hf0.eq_or_lt with h | h
    · rw [← h]; simp
    · field_simp

theorem delivered_le {lib : Xray ℝ} {S : Src ℝ} {D : Descr ℝ} (G : GoodSetup lib S D) (leak : Bool) (l : Nat) :
    meanWeight lib S D leak l ≤ enteredShare lib S D leak := by
  refine integral_mono_ae ?_ (integrable_of_unit (entered_meas lib S D leak) fun u => entered_bounds _ _) ?_
  · refine Integrable.of_bound (delivered_meas lib S D leak _ l).aestronglyMeasurable 1 ?_
    filter_upwards [Unif.draws_range] with u hu
    exact wtsOf_bounds G hu l
  · filter_upwards [Unif.draws_range] with u hu
    have hb := (abs_le.1 (wtsOf_bounds (lib := lib) (leak := leak) G hu l)).2
    cases h : photonOf lib S D leak u with
    | none => simp [delivered, entered]
    | some a =>
      rw [h] at hb
      by_cases h1 : simCode D a = 1
      · have : entered D (some a) = 1 := by simp [entered, h1]
        simp only [this]; exact hb
      · have : delivered D S.energies.length l (some a) = 0 := by simp [delivered, h1]
        simp only [this]
        exact (entered_bounds _ _).1

/-- **C101.** Uniform illumination, perfect generators. With probability one, as the number of photons grows, every completed simulation reports an open area that
exceeds the open share of the illuminated front face by arbitrarily little, and no efficiency above it; and if every photon that reaches the front face counts (none
is lost behind the exit window), the open area reported comes arbitrarily close to that share. -/
theorem open_area_limit {lib : Xray ℝ} {S : Src ℝ} {D : Descr ℝ} (G : GoodSetup lib S D) (hs : S.src_sigx < 0 ∨ S.src_sigy < 0) (hc : D.n_cap ≤ 3 → 0 < D.prof.cap 0)
    (mt omp : Int) (leak : Bool) (hend : leak = false ∨ ∀ᵐ u ∂Unif.draws, photonOf lib S D leak u ≠ none) (l : Nat) (hl : l < S.energies.length)
    {Ω : Type} [MeasurableSpace Ω] (P : Measure Ω) (U : ℕ → Ω → ℕ → ℝ) (hU : ∀ t, AEMeasurable (U t) P) (hlaw : ∀ t, P.map (U t) = Unif.draws) :
    ∀ᵐ ω ∂P, ∀ ε > 0, ∃ n0 : ℕ, ∀ n ≥ n0, ∀ fuel k asg m s, Distributes (simCfg lib S D (callOf S D mt leak n) omp (fun t => U t ω) fuel k) asg →
      Reach (simCfg lib S D (callOf S D mt leak n) omp (fun t => U t ω) fuel k) asg m s → s.finished (simCfg lib S D (callOf S D mt leak n) omp (fun t => U t ω) fuel k) →
      let r := results (simCfg lib S D (callOf S D mt leak n) omp (fun t => U t ω) fuel k) S.energies s
      r.openArea ≤ openFraction D + ε ∧ r.effs.getD l 0 ≤ openFraction D + ε ∧
      ((∀ᵐ u ∂Unif.draws, ∃ a, photonOf lib S D leak u = some a ∧ (a.code = -2 ∨ Counts D (some a))) → |r.openArea - openFraction D| ≤ ε) := by
  obtain ⟨e1, e2⟩ := entered_le G hs hc leak hend
  have e3 : meanWeight lib S D leak l / countShare lib S D leak ≤ openFraction D :=
    le_trans (div_le_div_of_nonneg_right (delivered_le G leak l) (countShare_nonneg _ _ _ _)) e1
  filter_upwards [openArea_converges G mt omp leak P U hU hlaw, efficiency_converges G mt omp leak l hl P U hU hlaw] with ω h1 h2
  intro ε he
  obtain ⟨n1, h1⟩ := h1 ε he
  obtain ⟨n2, h2⟩ := h2 ε he
  refine ⟨max n1 n2, ?_⟩
  intro n hn fuel k asg m s a b c
  have i1 := h1 n (le_trans (le_max_left _ _) hn) fuel k asg m s a b c
  have i2 := h2 n (le_trans (le_max_right _ _) hn) fuel k asg m s a b c
  refine ⟨by linarith [(abs_le.1 i1).2], by linarith [(abs_le.1 i2).2], fun hall => ?_⟩
  rw [← e2 hall]
  exact i1

end Mean
end Polycap
