import Verif.Props.SimOpen

/-!
# C107: the image a simulation reports
-/
namespace Polycap
open CNum MeasureTheory Filter
open scoped Topology

namespace Mean

/-! ## Specification -/

/-- what the results tell about one transmitted photon: where it was emitted, where it entered, where it left, its direction there, the number of its
reflections and the distance it travelled -/
abbrev Ray : Type := (ℝ × ℝ) × (ℝ × ℝ) × (ℝ × ℝ) × (ℝ × ℝ) × ℤ × ℝ

/-- the ray reported at position `j` of the result arrays -/
def rayAt (r : TE ℝ) (j : ℕ) : Option Ray :=
  match r.start j, r.exit j with
  | some s, some e => some ((s.srcX, s.srcY), (s.x, s.y), (e.x, e.y), (e.dirX, e.dirY), e.n_refl, e.d_travel)
  | _, _ => none

open Classical in
/-- how many of the `n` reported rays are in `A` -/
noncomputable def raysIn (r : TE ℝ) (n : ℕ) (A : Set Ray) : ℝ := ∑ j ∈ Finset.range n, if ∃ y, rayAt r j = some y ∧ y ∈ A then 1 else 0

open Classical in
/-- the sum of their reported weights at energy number `l` of `ne` -/
noncomputable def fluxIn (r : TE ℝ) (n ne l : ℕ) (A : Set Ray) : ℝ :=
  ∑ j ∈ Finset.range n, if ∃ y, rayAt r j = some y ∧ y ∈ A then (r.exitW (j * ne + l)).getD 0 else 0

/-- the ray of a photon that was launched -/
noncomputable def rayOf (D : Descr ℝ) (a : Attempt ℝ) : Ray :=
  ((a.src.x, a.src.y), (a.ph.startC.x, a.ph.startC.y), ((exitAt D.prof a.ph).x, (exitAt D.prof a.ph).y), (a.ph.exitD.x, a.ph.exitD.y), a.ph.i_refl,
    a.ph.d_travel + Real.sqrt (((exitAt D.prof a.ph).x - a.ph.exitC.x) ^ 2 + ((exitAt D.prof a.ph).y - a.ph.exitC.y) ^ 2 + (D.prof.z D.prof.nmax - a.ph.exitC.z) ^ 2))

open Classical in
/-- 1 for the photons that leave the optic through the exit window on a ray in `A` -/
noncomputable def seen (D : Descr ℝ) (A : Set Ray) (o : Option (Attempt ℝ)) : ℝ :=
  match o with
  | some a => if simCode D a = 1 then (if rayOf D a ∈ A then 1 else 0) else 0
  | none => 0

open Classical in
/-- the weight with which they do so -/
noncomputable def seenWeight (D : Descr ℝ) (ne l : Nat) (A : Set Ray) (o : Option (Attempt ℝ)) : ℝ :=
  match o with
  | some a => if simCode D a = 1 then (if rayOf D a ∈ A then (wtsOf ne a).getD l 0 else 0) else 0
  | none => 0

/-- the probability that a photon leaves on a ray in `A`, and the mean weight delivered on such rays -/
noncomputable def seenShare (lib : Xray ℝ) (S : Src ℝ) (D : Descr ℝ) (leak : Bool) (A : Set Ray) : ℝ := ∫ u, seen D A (photonOf lib S D leak u) ∂Unif.draws
noncomputable def seenMean (lib : Xray ℝ) (S : Src ℝ) (D : Descr ℝ) (leak : Bool) (l : Nat) (A : Set Ray) : ℝ :=
  ∫ u, seenWeight D S.energies.length l A (photonOf lib S D leak u) ∂Unif.draws

/-! ## Measurability -/

theorem rayOf_meas (D : Descr ℝ) {Ω : Type} [MeasurableSpace Ω] {a : Ω → Attempt ℝ} (ha : Meas.NAttempt a) : Measurable fun ω => rayOf D (a ω) := by
  obtain ⟨c, hc⟩ := ha.ph.i_refl
  have e : ∀ ω, (a ω).ph.i_refl = c := fun ω => congrFun hc ω
  have h0 := ha.src
  have h1 := ha.ph.exitC
  have h2 := ha.ph.exitD
  have h3 := ha.ph.startC
  have h4 := ha.ph.d_travel
  have hv : Measurable fun ω => exitAt D.prof (a ω).ph := by unfold exitAt; fun_prop
  unfold rayOf
  simp only [e]
  fun_prop

theorem seen_meas (lib : Xray ℝ) (S : Src ℝ) (D : Descr ℝ) (leak : Bool) {A : Set Ray} (hA : MeasurableSet A) : Measurable fun u => seen D A (photonOf lib S D leak u) := by
  classical
  refine photonOf_meas lib S D leak _ rfl fun a ha => ?_
  refine Meas.PW.iteInt (Meas.pw_simCode D ha) (fun c => c = 1) ?_ (Meas.PW.real measurable_const)
  exact Meas.PW.real (Measurable.ite (rayOf_meas D ha hA) measurable_const measurable_const)

theorem wts_pw (ne l : Nat) {Ω : Type} [MeasurableSpace Ω] {a : Ω → Attempt ℝ} (ha : Meas.NAttempt a) : Meas.PW fun ω => (wtsOf ne (a ω)).getD l 0 := by
  rcases ha.wts with h | h | ⟨L, ⟨L', hL, hL'⟩, h⟩
  · have : ∀ u, (a u).wts = .untouched := fun u => congrFun h u
    simp only [wtsOf, this]
    exact Meas.PW.real measurable_const
  · have : ∀ u, (a u).wts = .uninit := fun u => congrFun h u
    simp only [wtsOf, this]
    exact Meas.PW.real measurable_const
  · have : ∀ u, (a u).wts = .filled (L'.map (· u)) := fun u => by rw [show (a u).wts = .filled (L u) from congrFun h u, hL']
    simp only [wtsOf, this, ← List.map_take, List.getD_eq_getElem?_getD, List.getElem?_map]
    cases hx : (L'.take ne)[l]? with
    | none => exact Meas.PW.real measurable_const
    | some g => exact Meas.PW.real (hL g (List.mem_of_mem_take (List.mem_of_getElem? hx)))

theorem seenWeight_meas (lib : Xray ℝ) (S : Src ℝ) (D : Descr ℝ) (leak : Bool) (ne l : Nat) {A : Set Ray} (hA : MeasurableSet A) :
    Measurable fun u => seenWeight D ne l A (photonOf lib S D leak u) := by
  classical
  refine photonOf_meas lib S D leak _ rfl fun a ha => ?_
  refine Meas.PW.iteInt (Meas.pw_simCode D ha) (fun c => c = 1) ?_ (Meas.PW.real measurable_const)
  exact Meas.PW.iteSet (rayOf_meas D ha hA) (wts_pw ne l ha) (Meas.PW.real measurable_const)

theorem seen_bounds (D : Descr ℝ) (A : Set Ray) (o : Option (Attempt ℝ)) : 0 ≤ seen D A o ∧ seen D A o ≤ 1 := by
  unfold seen
  cases o with
  | none => simp
  | some a => dsimp only; split_ifs <;> simp

theorem seenWeight_le (D : Descr ℝ) (ne l : Nat) (A : Set Ray) (o : Option (Attempt ℝ)) : |seenWeight D ne l A o| ≤ |delivered D ne l o| := by
  unfold seenWeight delivered
  cases o with
  | none => simp
  | some a => dsimp only; split_ifs <;> simp

/-! ## The reported sums are sums over the photons of the threads -/

theorem sum_perm {β : Type} {L : List (ℕ × β)} {n : ℕ} (h : (L.map Prod.fst).Perm (List.range n)) (F : ℕ → ℝ) (φ : β → ℝ) (hF : ∀ x ∈ L, F x.1 = φ x.2) :
    ∑ j ∈ Finset.range n, F j = (L.map fun x => φ x.2).sum := by
  have e : (L.map fun x => φ x.2) = (L.map Prod.fst).map F := by
    rw [List.map_map]
    exact List.map_congr_left fun x hx => (hF x hx).symm
  rw [e, (h.map F).sum_eq, sum_list_range]

theorem sum_exits {D : Descr ℝ} (φ : Attempt ℝ → ℝ) (H : List (Nat × Attempt ℝ)) :
    ((exitsOf D H).map fun x => φ x.2).sum = (H.map fun x => if simCode D x.2 = 1 then φ x.2 else 0).sum := by
  induction H with
  | nil => rfl
  | cons x H ih =>
    simp only [exitsOf, List.filter_cons, List.map_cons, List.sum_cons] at ih ⊢
    by_cases hc : simCode D x.2 = 1
    · simp only [hc, decide_true, if_true, List.map_cons, List.sum_cons, ih]
    · simp only [hc, decide_false, Bool.false_eq_true, if_false, ih, zero_add]

theorem rayAt_slot {C : Cfg ℝ} {H : List (Nat × Attempt ℝ)} {r : TE ℝ} (R : Reports C H r) {j : ℕ} {a : Attempt ℝ} (h : (j, a) ∈ exitsOf C.D H) (hj : j < C.n) :
    rayAt r j = some (rayOf C.D a) ∧ ∀ l < C.ne, (r.exitW (j * C.ne + l)).getD 0 = (wtsOf C.ne a).getD l 0 := by
  obtain ⟨h1, h2⟩ := List.mem_filter.1 h
  obtain ⟨a', -, -, hu, hs, he, -, hw⟩ := R.slot j hj
  obtain rfl := hu a h1 (by simpa using h2)
  refine ⟨?_, fun l hl => ?_⟩
  · unfold rayAt
    rw [hs, he]
    simp only [startRec, exitRec, rayOf, real_add, real_sub, real_mul, real_sqrt, ← pow_two]
  · rw [hw l hl, List.getD_eq_getElem?_getD]

theorem image_sums {lib : Xray ℝ} {S : Src ℝ} {D : Descr ℝ} (mt omp : Int) (leak : Bool) (fuel k l : Nat) (hl : l < S.energies.length) (A : Set Ray)
    {n : Nat} {u : ℕ → ℕ → ℝ} {asg : Nat → List Nat} (hd : Distributes (simCfg lib S D (callOf S D mt leak n) omp u fuel k) asg)
    {m : Nat} {s : St ℝ} (hr : Reach (simCfg lib S D (callOf S D mt leak n) omp u fuel k) asg m s) (hf : s.finished (simCfg lib S D (callOf S D mt leak n) omp u fuel k)) :
    ∃ τ : ℕ → ℕ, let r := results (simCfg lib S D (callOf S D mt leak n) omp u fuel k) S.energies s
      let tot := fun φ : Option (Attempt ℝ) → ℝ => ∑ t ∈ Finset.range (threadsUsed mt omp).toNat, ∑ i ∈ Finset.range (τ t), φ (photonOf lib S D leak ((Unif.after (used S D))^[i] (u t)))
      raysIn r n A = tot (seen D A) ∧ fluxIn r n S.energies.length l A = tot (seenWeight D S.energies.length l A) ∧
        (n : ℝ) = tot (seen D Set.univ) ∧ (r.iStart : ℝ) = tot (counted D) ∧ (n : ℝ) ≤ tot (counted D) := by
  classical
  set C := simCfg lib S D (callOf S D mt leak n) omp u fuel k with hC
  have F := final_of_finished hr hf
  have R := simulation_reports hd hr hf S.energies
  have hCn : C.n = n := by simp [hC, simCfg, callOf]
  have hCe : C.ne = S.energies.length := by simp [hC, simCfg]
  have hCD : C.D = D := by simp [hC, simCfg]
  have hrun : ∀ t < C.T, (s.thr t).hist.map (fun x => some x.2) =
      (List.range (s.thr t).hist.length).map (fun m => photonOf lib S D leak ((Unif.after (used S D))^[0 + m] (u t))) := by
    intro t ht
    obtain ⟨p, hp⟩ := F.runs t ht
    exact (run_photons (f := fun i => photonOf lib S D leak ((Unif.after (used S D))^[i] (u t))) (at_ := fun i p => Unif.drop p (u t) = (Unif.after (used S D))^[i] (u t))
      (fun i p a p' e h => by
        obtain ⟨g1, g2⟩ := attempt_step h
        rw [e] at g1 g2
        exact ⟨by rw [g2, Function.iterate_succ_apply'], g1⟩) hp 0 rfl).1
  have hsum : ∀ φ : Option (Attempt ℝ) → ℝ, ((allHist C (fun t => (s.thr t).hist)).map (fun x => φ (some x.2))).sum =
      ∑ t ∈ Finset.range (threadsUsed mt omp).toNat, ∑ i ∈ Finset.range (s.thr t).hist.length, φ (photonOf lib S D leak ((Unif.after (used S D))^[i] (u t))) := by
    intro φ
    unfold allHist
    rw [List.map_flatMap, sum_flatMap_real, sum_list_range]
    refine Finset.sum_congr rfl fun t ht => ?_
    rw [Finset.mem_range] at ht
    have := hrun t ht
    rw [sum_photons (f := fun i => photonOf lib S D leak ((Unif.after (used S D))^[i] (u t))) this]
  have c2 := (hist_counts (D := D) S.energies.length 0 (allHist C (fun t => (s.thr t).hist))).2
  have hsl := R.slots
  have hslot := fun j a h hj => rayAt_slot (j := j) (a := a) R h hj
  have hex : (exitsOf D (allHist C (fun t => (s.thr t).hist))).length = n := by
    have := hsl.length_eq
    rw [List.length_map, List.length_range, hCn] at this
    exact this
  have hst : ((results C S.energies s).iStart : ℝ) = ((allHist C (fun t => (s.thr t).hist)).map (fun x => counted D (some x.2))).sum := by
    rw [← c2, R.iStart, hex, hCn]
  rw [hCD, hCn] at hsl
  rw [hCD, hCe] at hslot
  generalize hH : allHist C (fun t => (s.thr t).hist) = H at *
  generalize hrr : results C S.energies s = r at *
  have hlt : ∀ x ∈ exitsOf D H, x.1 < n := fun x hx => by
    have := hsl.mem_iff.1 (List.mem_map_of_mem (f := Prod.fst) hx)
    exact List.mem_range.1 this
  refine ⟨fun t => (s.thr t).hist.length, ?_⟩
  dsimp only
  refine ⟨?_, ?_, ?_, ?_, ?_⟩
  · rw [← hsum]
    unfold raysIn
    rw [sum_perm hsl _ (fun a => if rayOf D a ∈ A then (1:ℝ) else 0) (fun x hx => by
      have := (hslot x.1 x.2 hx (by rw [hCn]; exact hlt x hx)).1
      simp [this])]
    refine (sum_exits (D := D) (fun a => if rayOf D a ∈ A then (1:ℝ) else 0) H).trans ?_
    congr 1
  · rw [← hsum]
    unfold fluxIn
    rw [sum_perm hsl _ (fun a => if rayOf D a ∈ A then (wtsOf S.energies.length a).getD l 0 else 0) (fun x hx => by
      obtain ⟨e1, e2⟩ := hslot x.1 x.2 hx (by rw [hCn]; exact hlt x hx)
      simp [e1, e2 l hl])]
    refine (sum_exits (D := D) (fun a => if rayOf D a ∈ A then (wtsOf S.energies.length a).getD l 0 else 0) H).trans ?_
    congr 1
  · rw [← hsum]
    have := sum_exits (D := D) (fun _ => (1:ℝ)) H
    simp only [List.map_const', List.sum_replicate, nsmul_eq_mul, mul_one] at this
    rw [hex] at this
    rw [this]
    congr 1
    refine List.map_congr_left fun x _ => ?_
    simp only [seen, Set.mem_univ, if_true]
  · rw [hst, hsum]
  · rw [← hsum, ← c2, hex]
    push_cast
    have h1 : (0:ℝ) ≤ (List.countP (fun x => decide (x.2.code = 2)) H : ℝ) := by positivity
    have h2 : (0:ℝ) ≤ (List.countP (fun x => decide (x.2.code = 0)) H : ℝ) := by positivity
    linarith

/-! ## Convergence -/

/-- `ratio_converges` with the photons of another kind as the denominator -/
theorem share_converges {lib : Xray ℝ} {S : Src ℝ} {D : Descr ℝ} (G : GoodSetup lib S D) (T : ℕ) (leak : Bool) (φ ψ : Option (Attempt ℝ) → ℝ)
    (hφ : Measurable fun u => φ (photonOf lib S D leak u)) (hi : Integrable (fun u => φ (photonOf lib S D leak u)) Unif.draws)
    (hψ : Measurable fun u => ψ (photonOf lib S D leak u)) (hb : ∀ o, 0 ≤ ψ o ∧ ψ o ≤ 1)
    {Ω : Type} [MeasurableSpace Ω] (P : Measure Ω) (U : ℕ → Ω → ℕ → ℝ) (hU : ∀ t, AEMeasurable (U t) P) (hlaw : ∀ t, P.map (U t) = Unif.draws) :
    ∀ᵐ ω ∂P, ∀ ε > 0, ∃ n0 : ℕ, 1 ≤ n0 ∧ ∀ n ≥ n0, ∀ τ : ℕ → ℕ,
      (n : ℝ) ≤ ∑ t ∈ Finset.range T, ∑ i ∈ Finset.range (τ t), ψ (photonOf lib S D leak ((Unif.after (used S D))^[i] (U t ω))) →
      |(∑ t ∈ Finset.range T, ∑ i ∈ Finset.range (τ t), φ (photonOf lib S D leak ((Unif.after (used S D))^[i] (U t ω)))) /
        (∑ t ∈ Finset.range T, ∑ i ∈ Finset.range (τ t), ψ (photonOf lib S D leak ((Unif.after (used S D))^[i] (U t ω)))) -
        (∫ u, φ (photonOf lib S D leak u) ∂Unif.draws) / (∫ u, ψ (photonOf lib S D leak u) ∂Unif.draws)| ≤ ε := by
  have hiC : Integrable (fun u => ψ (photonOf lib S D leak u)) Unif.draws := integrable_of_unit hψ fun u => hb _
  have RC := reader G leak ψ hψ
  have hq0 : 0 ≤ ∫ u, ψ (photonOf lib S D leak u) ∂Unif.draws := integral_nonneg fun _ => (hb _).1
  rcases hq0.eq_or_lt with hq | hq
  · have h0 : ∀ᵐ u ∂Unif.draws, ψ (photonOf lib S D leak u) = 0 := (integral_eq_zero_iff_of_nonneg (fun u => (hb (photonOf lib S D leak u)).1) hiC).1 hq.symm
    have h1 : ∀ᵐ u ∂Unif.draws, ∀ i : ℕ, ψ (photonOf lib S D leak ((Unif.after (used S D))^[i] u)) = 0 := by
      rw [ae_all_iff]
      intro i
      exact ((Unif.after_law RC).iterate i).quasiMeasurePreserving.ae h0
    have key : ∀ᵐ ω ∂P, ∀ t, ∀ i : ℕ, ψ (photonOf lib S D leak ((Unif.after (used S D))^[i] (U t ω))) = 0 := by
      rw [ae_all_iff]
      intro t
      rw [← hlaw t] at h1
      exact ae_of_ae_map (hU t) h1
    filter_upwards [key] with ω hω
    intro ε _
    refine ⟨1, le_refl _, ?_⟩
    intro n hn τ h2
    simp only [hω, Finset.sum_const_zero] at h2
    have : (1:ℝ) ≤ n := by exact_mod_cast hn
    linarith
  have hW := Unif.reads_average (reader G leak φ hφ) hi
  have hC := Unif.reads_average RC hiC
  generalize (∫ u, φ (photonOf lib S D leak u) ∂Unif.draws) = w at hW ⊢
  generalize (∫ u, ψ (photonOf lib S D leak u) ∂Unif.draws) = q at hC hq ⊢
  have key : ∀ᵐ ω ∂P, ∀ t, Tendsto (fun n : ℕ => (∑ i ∈ Finset.range n, φ (photonOf lib S D leak ((Unif.after (used S D))^[i] (U t ω)))) / n) atTop (𝓝 w) ∧
      Tendsto (fun n : ℕ => (∑ i ∈ Finset.range n, ψ (photonOf lib S D leak ((Unif.after (used S D))^[i] (U t ω)))) / n) atTop (𝓝 q) := by
    rw [ae_all_iff]
    intro t
    have h := hW.and hC
    rw [← hlaw t] at h
    exact ae_of_ae_map (hU t) h
  filter_upwards [key] with ω hω
  intro ε he
  obtain ⟨B, hB⟩ := Unif.ratio_close (T := T)
    (W := fun t n => ∑ i ∈ Finset.range n, φ (photonOf lib S D leak ((Unif.after (used S D))^[i] (U t ω))))
    (C := fun t n => ∑ i ∈ Finset.range n, ψ (photonOf lib S D leak ((Unif.after (used S D))^[i] (U t ω)))) hq (fun t _ => (hω t).1) (fun t _ => (hω t).2) he
  refine ⟨max 1 ⌈B⌉₊, le_max_left _ _, ?_⟩
  intro n hn τ h2
  refine hB τ ?_
  refine le_trans ?_ h2
  have : (⌈B⌉₊ : ℝ) ≤ n := by exact_mod_cast le_trans (le_max_right _ _) hn
  exact (Nat.le_ceil B).trans this

/-- **C107.** Threads with perfect generators: with probability one, as the number of photons grows, in every completed simulation – whatever the distribution
of the photons over the threads and their interleaving –
* the share of the reported rays that lie in `A` comes arbitrarily close to the probability that a photon leaves on such a ray, given that it leaves at all;
* the sum of their weights, divided by the number of photons started, comes arbitrarily close to the mean weight delivered on such rays per photon counted. -/
theorem image_converges {lib : Xray ℝ} {S : Src ℝ} {D : Descr ℝ} (G : GoodSetup lib S D) (mt omp : Int) (leak : Bool) (l : Nat) (hl : l < S.energies.length)
    {A : Set Ray} (hA : MeasurableSet A) {Ω : Type} [MeasurableSpace Ω] (P : Measure Ω) (U : ℕ → Ω → ℕ → ℝ) (hU : ∀ t, AEMeasurable (U t) P)
    (hlaw : ∀ t, P.map (U t) = Unif.draws) :
    ∀ᵐ ω ∂P, ∀ ε > 0, ∃ n0 : ℕ, ∀ n ≥ n0, ∀ fuel k asg m s, Distributes (simCfg lib S D (callOf S D mt leak n) omp (fun t => U t ω) fuel k) asg →
      Reach (simCfg lib S D (callOf S D mt leak n) omp (fun t => U t ω) fuel k) asg m s → s.finished (simCfg lib S D (callOf S D mt leak n) omp (fun t => U t ω) fuel k) →
      let r := results (simCfg lib S D (callOf S D mt leak n) omp (fun t => U t ω) fuel k) S.energies s
      |raysIn r n A / r.iExit - seenShare lib S D leak A / seenShare lib S D leak Set.univ| ≤ ε ∧
      |fluxIn r n S.energies.length l A / r.iStart - seenMean lib S D leak l A / countShare lib S D leak| ≤ ε ∧
      |r.iExit / r.iStart - seenShare lib S D leak Set.univ / countShare lib S D leak| ≤ ε := by
  have hu1 := seen_meas lib S D leak (A := Set.univ) MeasurableSet.univ
  have k1 := share_converges G (threadsUsed mt omp).toNat leak (seen D A) (seen D Set.univ) (seen_meas lib S D leak hA)
    (integrable_of_unit (seen_meas lib S D leak hA) fun u => seen_bounds _ _ _) hu1 (fun o => seen_bounds _ _ _) P U hU hlaw
  have k2 := share_converges G (threadsUsed mt omp).toNat leak (seenWeight D S.energies.length l A) (counted D) (seenWeight_meas lib S D leak _ l hA)
    (by
      refine Integrable.of_bound (seenWeight_meas lib S D leak _ l hA).aestronglyMeasurable 1 ?_
      filter_upwards [Unif.draws_range] with u hu
      rw [Real.norm_eq_abs]
      refine (seenWeight_le _ _ _ _ _).trans ?_
      exact wtsOf_bounds G hu (leak := leak) l) (counted_meas lib S D leak) (fun o => counted_bounds _ _) P U hU hlaw
  have k3 := share_converges G (threadsUsed mt omp).toNat leak (seen D Set.univ) (counted D) hu1
    (integrable_of_unit hu1 fun u => seen_bounds _ _ _) (counted_meas lib S D leak) (fun o => counted_bounds _ _) P U hU hlaw
  filter_upwards [k1, k2, k3] with ω h1 h2 h3
  intro ε he
  obtain ⟨n1, -, h1⟩ := h1 ε he
  obtain ⟨n2, -, h2⟩ := h2 ε he
  obtain ⟨n3, -, h3⟩ := h3 ε he
  refine ⟨max n1 (max n2 n3), ?_⟩
  intro n hn fuel k asg m s hd hr hf
  have g1 : n1 ≤ n := (le_max_left _ _).trans hn
  have g2 : n2 ≤ n := (le_max_left _ _).trans ((le_max_right _ _).trans hn)
  have g3 : n3 ≤ n := (le_max_right _ _).trans ((le_max_right _ _).trans hn)
  obtain ⟨τ, e1, e2, e3, e4, e5⟩ := image_sums mt omp leak fuel k l hl A hd hr hf
  have hx : (results (simCfg lib S D (callOf S D mt leak n) omp (fun t => U t ω) fuel k) S.energies s).iExit = n := by
    rw [(simulation_reports hd hr hf S.energies).iExit]
    simp [simCfg, callOf]
  dsimp only at e3 e4 e5 ⊢
  rw [hx, e1, e2, e4]
  dsimp only
  have h1 := h1 n g1 τ e3.le
  have h2 := h2 n g2 τ e5
  have h3 := h3 n g3 τ e5
  rw [← e3] at h1 h3
  exact ⟨h1, h2, h3⟩

/-! ## An example

The beam of C100: every photon leaves within 3/100 of the axis in x and in y. -/

/-- the rays that leave near the axis -/
def nearAxis : Set Ray := {y | |y.2.2.1.1| ≤ 3 / 100 ∧ |y.2.2.1.2| ≤ 3 / 100}

theorem nearAxis_meas : MeasurableSet nearAxis := by
  refine (measurableSet_le (f := fun y : Ray => |y.2.2.1.1|) ?_ measurable_const).inter (measurableSet_le (f := fun y : Ray => |y.2.2.1.2|) ?_ measurable_const)
  · exact continuous_abs.measurable.comp (by fun_prop)
  · exact continuous_abs.measurable.comp (by fun_prop)

theorem beam_ray (leak : Bool) {u : ℕ → ℝ} (hu : ∀ i, 0 ≤ u i ∧ u i < 1) :
    ∃ a, photonOf exLib beam exD leak u = some a ∧ simCode exD a = 1 ∧ rayOf exD a ∈ nearAxis := by
  obtain ⟨a, m, h1, h2, -⟩ := beam_photon leak hu
  refine ⟨a, photonOf_some h1, h2, ?_⟩
  obtain ⟨x, m', hx, h0, hd, hdd, b1, b2, c1, c2⟩ := beam_geometry hu
  obtain ⟨P', hl, o1, o2⟩ := beam_launch leak x.photon h0 hd hdd b1 b2 c1 c2
  have : attempt exLib beam exD leak 0 1 u 0 = .ok (⟨1, x.src, P', .filled [1]⟩, m') := by
    unfold attempt
    rw [hx, Out.bind_ok]
    show (launch exLib (some exD) leak 0 1 (some x.photon) (some [10]) true >>= _) = _
    rw [hl]
    rfl
  rw [this] at h1
  injection h1 with h1
  injection h1 with h1 _
  subst h1
  exact ⟨o1, o2⟩

/-- With more and more photons, all reported rays leave near the axis, and every photon started leaves. -/
theorem beam_image (leak : Bool) : seenShare exLib beam exD leak nearAxis = 1 ∧ seenShare exLib beam exD leak Set.univ = 1 ∧
    seenMean exLib beam exD leak 0 nearAxis = 1 ∧ seenShare exLib beam exD leak nearAxisᶜ = 0 := by
  have key : ∀ᵐ u ∂Unif.draws, ∃ a, photonOf exLib beam exD leak u = some a ∧ simCode exD a = 1 ∧ rayOf exD a ∈ nearAxis ∧ wtsOf 1 a = [1] := by
    filter_upwards [Unif.draws_range] with u hu
    obtain ⟨a, h1, h2, h3⟩ := beam_ray leak hu
    obtain ⟨a', m, g1, -, g3⟩ := beam_photon leak hu
    rw [photonOf_some g1] at h1
    injection h1 with h1
    subst h1
    exact ⟨_, photonOf_some g1, h2, h3, g3⟩
  refine ⟨?_, ?_, ?_, ?_⟩
  · unfold seenShare
    rw [integral_congr_ae (g := fun _ => (1:ℝ)) (by
      filter_upwards [key] with u ⟨a, h1, h2, h3, _⟩
      simp [h1, seen, h2, h3])]
    simp
  · unfold seenShare
    rw [integral_congr_ae (g := fun _ => (1:ℝ)) (by
      filter_upwards [key] with u ⟨a, h1, h2, h3, _⟩
      simp [h1, seen, h2])]
    simp
  · unfold seenMean
    rw [integral_congr_ae (g := fun _ => (1:ℝ)) (by
      filter_upwards [key] with u ⟨a, h1, h2, h3, h4⟩
      have e : beam.energies.length = 1 := rfl
      simp [h1, seenWeight, h2, h3, e, h4])]
    simp
  · unfold seenShare
    rw [integral_congr_ae (g := fun _ => (0:ℝ)) (by
      filter_upwards [key] with u ⟨a, h1, h2, h3, _⟩
      simp [h1, seen, h3])]
    simp

/-- the theorem applied to the beam -/
example (mt omp : Int) (leak : Bool) {Ω : Type} [MeasurableSpace Ω] (P : Measure Ω) (U : ℕ → Ω → ℕ → ℝ) (hU : ∀ t, AEMeasurable (U t) P) (hlaw : ∀ t, P.map (U t) = Unif.draws) :
    ∀ᵐ ω ∂P, ∀ ε > 0, ∃ n0 : ℕ, ∀ n ≥ n0, ∀ fuel k asg m s, Distributes (simCfg exLib beam exD (callOf beam exD mt leak n) omp (fun t => U t ω) fuel k) asg →
      Reach (simCfg exLib beam exD (callOf beam exD mt leak n) omp (fun t => U t ω) fuel k) asg m s →
      s.finished (simCfg exLib beam exD (callOf beam exD mt leak n) omp (fun t => U t ω) fuel k) →
      let r := results (simCfg exLib beam exD (callOf beam exD mt leak n) omp (fun t => U t ω) fuel k) beam.energies s
      |raysIn r n nearAxis / r.iExit - 1| ≤ ε := by
  filter_upwards [image_converges beam_setup mt omp leak 0 (by simp [beam]) nearAxis_meas P U hU hlaw] with ω hω
  intro ε he
  obtain ⟨n0, h⟩ := hω ε he
  refine ⟨n0, ?_⟩
  intro n hn fuel k asg m s hd hr hf
  have := (h n hn fuel k asg m s hd hr hf).1
  rw [(beam_image leak).1, (beam_image leak).2.1, div_one] at this
  exact this

end Mean
end Polycap
