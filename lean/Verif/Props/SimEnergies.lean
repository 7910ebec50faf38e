import Verif.Props.EnergyIndep
import Verif.Props.SimMean

/-!
# C108: the energies of a simulation and their company
-/
namespace Polycap
open CNum MeasureTheory

namespace Mean

/-! ## One photon -/

/-- the same source with other energies -/
def withEnergies (S : Src ℝ) (es : List ℝ) : Src ℝ := { S with energies := es }

theorem getPhoton_energies (S : Src ℝ) (es : List ℝ) (D : Descr ℝ) (u : ℕ → ℝ) (fuel n : Nat) : getPhoton (withEnergies S es) D u fuel n = getPhoton S D u fuel n := rfl

/-- without leak calculation a launch has weights, or the photon does not get in, whatever the energies -/
theorem launch_front (lib : Xray ℝ) (D : Descr ℝ) (fuel k fuel' k' : Nat) (P : Photon ℝ) (es es' : List ℝ) (hne : es ≠ []) (hes : es' ≠ [])
    (hb : ∀ e ∈ es, 1 ≤ e ∧ e ≤ 100) (hb' : ∀ e ∈ es', 1 ≤ e ∧ e ≤ 100) (c : Int) (w : WOut ℝ) (P1 : Photon ℝ)
    (h : launch lib (some D) false fuel k (some P) (some es) true = .ok (c, w, some P1)) :
    (∃ ws, w = .filled ws) ∨ c ≠ 1 ∧ ∃ P1', launch lib (some D) false fuel' k' (some P) (some es') true = .ok (c, .uninit, some P1') := by
  obtain ⟨D', P'', es'', e1, e2, e3, -, -, -, hl⟩ := launch_valid lib (some D) false fuel k (some P) (some es) true (not_argsBad hne hb)
  injection e1 with e1; injection e2 with e2; injection e3 with e3; subst e1 e2 e3
  obtain ⟨D', P'', es'', e1, e2, e3, -, -, -, hl'⟩ := launch_valid lib (some D) false fuel' k' (some P) (some es') true (not_argsBad hes hb')
  injection e1 with e1; injection e2 with e2; injection e3 with e3; subst e1 e2 e3
  rw [hl, Out.bind_eq_ok] at h
  obtain ⟨⟨c0, o0, P0⟩, h, h'⟩ := h
  injection h' with h'; injection h' with a h'; injection h' with b h'; injection h' with h'
  simp only at a b h'
  subst a b h'
  rw [hl']
  unfold launchBody at h ⊢
  simp only at h ⊢
  have hst : (launchInit lib D es' P).startC = (launchInit lib D es P).startC := rfl
  rw [hst]
  split at h
  · rename_i hq
    injection h with h; injection h with a h; injection h with b h
    subst a b
    exact Or.inr ⟨by decide, _, by rw [Out.bind_ok]⟩
  · rename_i qr hq
    split at h
    · rename_i hw
      simp only [Bool.false_and, Bool.false_eq_true, if_false] at h ⊢
      injection h with h; injection h with a h; injection h with b h
      subst a b
      exact Or.inr ⟨by decide, _, by rw [if_pos hw, Out.bind_ok]⟩
    · left
      unfold launchInside at h
      simp only at h
      rw [Out.bind_eq_ok] at h
      obtain ⟨⟨c1, ix1, Q1⟩, ht, h⟩ := h
      simp only at h
      injection h with h; injection h with a h; injection h with b h
      exact ⟨_, b.symm⟩

/-- the photon drawn with the numbers from position `n` on, launched with the energies of the source and with others among them -/
theorem attempt_company {lib : Xray ℝ} {S : Src ℝ} {D : Descr ℝ} {es' : List ℝ} (hr : Refracts lib D S.energies) (hb : ∀ e ∈ S.energies, 1 ≤ e ∧ e ≤ 100)
    (hes : es' ≠ []) (hsub : es' ⊆ S.energies) {fuel k n : Nat} {u : ℕ → ℝ} {a : Attempt ℝ} {m : Nat} (h : attempt lib S D false fuel k u n = .ok (a, m)) :
    ∃ k' a', attempt lib (withEnergies S es') D false fuel k' u n = .ok (a', m) ∧ a'.src = a.src ∧
      ((∃ f : ℝ → ℝ, a.wts = .filled (S.energies.map f) ∧ a'.code = a.code ∧ a'.ph = a.ph ∧ a'.wts = .filled (es'.map f)) ∨
       (a.code ≠ 1 ∧ a'.code = a.code) ∨
       ∃ f f' : ℝ → ℝ, a.wts = .filled (S.energies.map f) ∧ a'.code = 0 ∧ a'.wts = .filled (es'.map f') ∧
         (∀ e ∈ es', f e ≤ f' e ∧ f' e < 1 / 10 ^ 4) ∧ ∃ e ∈ S.energies, e ∉ es') := by
  have hne : S.energies ≠ [] := by
    intro h0; rw [h0] at hsub; exact hes (List.subset_nil.mp hsub)
  obtain ⟨x, hx, hs, hl⟩ := attempt_ok h
  have mk : ∀ c w P1, launch lib (some D) false fuel (k + 1) (some x.photon) (some es') true = .ok (c, w, some P1) →
      attempt lib (withEnergies S es') D false fuel (k + 1) u n = .ok (⟨c, x.src, P1, w⟩, m) := by
    intro c w P1 e
    unfold attempt
    rw [getPhoton_energies, hx, Out.bind_ok]
    show (launch lib (some D) false fuel (k + 1) (some x.photon) (some es') true >>= _) = _
    rw [e]
    rfl
  rcases launch_front lib D fuel k fuel (k + 1) x.photon S.energies es' hne hes hb (fun e he => hb e (hsub he)) _ _ _ hl with ⟨ws, hw⟩ | ⟨hc, P1', e⟩
  · rw [hw] at hl
    obtain ⟨f, hf, e | ⟨f', P1', e, g1, ⟨y, g2, g3, -⟩⟩⟩ := launch_energies_independent lib D fuel k fuel k x.photon S.energies es' hes hsub hb _ ws _ hl (Or.inr hr)
    · exact ⟨k + 1, _, mk _ _ _ e, hs.symm, Or.inl ⟨f, by rw [hw, hf], rfl, rfl, rfl⟩⟩
    · exact ⟨k + 1, _, mk _ _ _ e, hs.symm, Or.inr (Or.inr ⟨f, f', by rw [hw, hf], rfl, rfl, g1, y, g2, g3⟩)⟩
  · exact ⟨k + 1, _, mk _ _ _ e, hs.symm, Or.inr (Or.inl ⟨hc, rfl⟩)⟩

/-! ## The order of the energies, and repetitions -/

/-- `a` and `a'` are the same photon, launched with the energies `es` and `es'` -/
def Same (D : Descr ℝ) (es es' : List ℝ) (a a' : Attempt ℝ) : Prop :=
  a'.src = a.src ∧ a'.code = a.code ∧ simCode D a' = simCode D a ∧
    (a.code = 1 → a'.ph = a.ph ∧ ∃ f : ℝ → ℝ, wtsOf es.length a = es.map f ∧ wtsOf es'.length a' = es'.map f)

theorem attempt_same {lib : Xray ℝ} {S : Src ℝ} {D : Descr ℝ} {es' : List ℝ} (hr : Refracts lib D S.energies) (hb : ∀ e ∈ S.energies, 1 ≤ e ∧ e ≤ 100)
    (hes : es' ≠ []) (hsame : ∀ e, e ∈ es' ↔ e ∈ S.energies) {fuel k fuel' k' n : Nat} {u : ℕ → ℝ} {a a' : Attempt ℝ} {m m' : Nat}
    (h : attempt lib S D false fuel k u n = .ok (a, m)) (h' : attempt lib (withEnergies S es') D false fuel' k' u n = .ok (a', m')) :
    m = m' ∧ Same D S.energies es' a a' := by
  obtain ⟨k1, b, h1, hs, hc⟩ := attempt_company hr hb hes (fun e he => (hsame e).1 he) h
  have := Upto.attempt_unique h1 h'
  injection this with e1 e2
  subst e1 e2
  refine ⟨rfl, hs, ?_⟩
  rcases hc with ⟨f, g1, g2, g3, g4⟩ | ⟨g1, g2⟩ | ⟨f, f', -, -, -, -, e, g1, g2⟩
  · refine ⟨g2, ?_, fun _ => ⟨g3, f, ?_, ?_⟩⟩
    · unfold simCode; rw [g2, g3]
    · unfold wtsOf; rw [g1]; simp
    · unfold wtsOf; rw [g4]; simp
  · refine ⟨g2, ?_, fun h => absurd h g1⟩
    unfold simCode
    rw [if_neg g1, if_neg (by rw [g2]; exact g1), g2]
  · exact absurd ((hsame e).2 g1) g2

/-- threads that draw corresponding photons -/
theorem run_rel {D : Descr ℝ} {g g' : Nat → Out (Attempt ℝ × Nat)} {R : Attempt ℝ → Attempt ℝ → Prop} (hR : ∀ a a', R a a' → simCode D a' = simCode D a)
    (hg : ∀ p a q a' q', g p = .ok (a, q) → g' p = .ok (a', q') → q = q' ∧ R a a')
    {js : List Nat} {p : Nat} {H H' : List (Nat × Attempt ℝ)} {q q' : Nat} (h : ThreadRun D g js p H q) (h' : ThreadRun D g' js p H' q') :
    List.Forall₂ (fun x y => x.1 = y.1 ∧ R x.2 y.2) H H' := by
  have slot : ∀ {p l q}, SlotRun D g p l q → ∀ {l' q'}, SlotRun D g' p l' q' → List.Forall₂ R l l' ∧ q = q' := by
    intro p l q h
    induction h with
    | last h hc =>
      intro l' q' h'
      cases h' with
      | last h2 _ => obtain ⟨e, r⟩ := hg _ _ _ _ _ h h2; exact ⟨.cons r .nil, e⟩
      | retry h2 hc2 _ => obtain ⟨e, r⟩ := hg _ _ _ _ _ h h2; rw [hR _ _ r] at hc2; exact absurd hc hc2
    | retry h hc _ ih =>
      intro l' q' h'
      cases h' with
      | last h2 hc2 => obtain ⟨e, r⟩ := hg _ _ _ _ _ h h2; rw [hR _ _ r] at hc2; exact absurd hc2 hc
      | retry h2 _ hr2 =>
        obtain ⟨rfl, r⟩ := hg _ _ _ _ _ h h2
        obtain ⟨i1, i2⟩ := ih hr2
        exact ⟨.cons r i1, i2⟩
  induction h generalizing H' q' with
  | nil p => cases h'; exact .nil
  | cons hs _ ih =>
    cases h' with
    | cons hs2 hr2 =>
      obtain ⟨f, rfl⟩ := slot hs hs2
      refine List.rel_append ?_ (ih hr2)
      clear ih hs hs2
      induction f with
      | nil => exact .nil
      | cons r _ ih => exact .cons ⟨rfl, r⟩ ih

theorem map_rel {β γ δ : Type} {R : β → γ → Prop} {F : β → δ} {F' : γ → δ} {l : List β} {l' : List γ} (h : List.Forall₂ R l l') (hF : ∀ x y, R x y → F x = F' y) :
    l.map F = l'.map F' := by
  induction h with
  | nil => rfl
  | cons r _ ih => rw [List.map_cons, List.map_cons, hF _ _ r, ih]

theorem mem_rel {β γ : Type} {R : β → γ → Prop} {l : List β} {l' : List γ} (h : List.Forall₂ R l l') {x : β} (hx : x ∈ l) : ∃ y ∈ l', R x y := by
  induction h with
  | nil => cases hx
  | cons r _ ih =>
    rcases List.mem_cons.1 hx with rfl | hx
    · exact ⟨_, List.mem_cons_self, r⟩
    · obtain ⟨y, hy, r'⟩ := ih hx
      exact ⟨y, List.mem_cons_of_mem _ hy, r'⟩

/-- **C108.** Two completed simulations (without leak calculation) of the same source and optic with the same energies, but in another order or with
repetitions, with the same random streams, number of threads and distribution of the photons over them, interleaved in any two ways: they report the same
numbers, the same open area, the same start and exit of every photon, and the same efficiency for every energy, wherever it stands in the lists. -/
theorem energies_order_simulated {lib : Xray ℝ} {S : Src ℝ} {D : Descr ℝ} {es' : List ℝ} (hr : Refracts lib D S.energies) (hb : ∀ e ∈ S.energies, 1 ≤ e ∧ e ≤ 100)
    (hes : es' ≠ []) (hsame : ∀ e, e ∈ es' ↔ e ∈ S.energies) (mt omp : Int) {n : Nat} (hn : 1 ≤ n) (u : ℕ → ℕ → ℝ) {asg : Nat → List Nat} {fuel k fuel' k' m m' : Nat} {s s' : St ℝ}
    (hd : Distributes (simCfg lib S D (callOf S D mt false n) omp u fuel k) asg)
    (h : Reach (simCfg lib S D (callOf S D mt false n) omp u fuel k) asg m s) (hf : s.finished (simCfg lib S D (callOf S D mt false n) omp u fuel k))
    (h' : Reach (simCfg lib (withEnergies S es') D (callOf (withEnergies S es') D mt false n) omp u fuel' k') asg m' s')
    (hf' : s'.finished (simCfg lib (withEnergies S es') D (callOf (withEnergies S es') D mt false n) omp u fuel' k')) :
    let r := results (simCfg lib S D (callOf S D mt false n) omp u fuel k) S.energies s
    let r' := results (simCfg lib (withEnergies S es') D (callOf (withEnergies S es') D mt false n) omp u fuel' k') es' s'
    r'.iStart = r.iStart ∧ r'.iExit = r.iExit ∧ r'.openArea = r.openArea ∧ (∀ j < n, r'.start j = r.start j ∧ r'.exit j = r.exit j) ∧
      ∀ i j, (hi : i < S.energies.length) → (hj : j < es'.length) → S.energies[i] = es'[j] →
        r.effs.getD i 0 = r'.effs.getD j 0 ∧ ∀ x < n, r.exitW (x * S.energies.length + i) = r'.exitW (x * es'.length + j) := by
  set C := simCfg lib S D (callOf S D mt false n) omp u fuel k with hC
  set C' := simCfg lib (withEnergies S es') D (callOf (withEnergies S es') D mt false n) omp u fuel' k' with hC'
  have hd' : Distributes C' asg := hd
  have F := final_of_finished h hf
  have F' := final_of_finished h' hf'
  have R := simulation_reports hd h hf S.energies
  have R' := simulation_reports hd' h' hf' es'
  have hCn : C.n = n := by simp [hC, simCfg, callOf]
  have hCn' : C'.n = n := by simp [hC', simCfg, callOf]
  have hT : C'.T = C.T := rfl
  have hne : C.ne = S.energies.length := rfl
  have hne' : C'.ne = es'.length := rfl
  have hD : C.D = D := rfl
  have hD' : C'.D = D := rfl
  have hrel : ∀ t < C.T, List.Forall₂ (fun x y => x.1 = y.1 ∧ Same D S.energies es' x.2 y.2) (s.thr t).hist (s'.thr t).hist := by
    intro t ht
    obtain ⟨p, hp⟩ := F.runs t ht
    obtain ⟨p', hp'⟩ := F'.runs t ht
    exact run_rel (fun a a' r => r.2.2.1) (fun q a q1 a' q1' e e' => attempt_same hr hb hes hsame e e') hp hp'
  have hmap : ∀ {δ : Type} (G G' : Nat × Attempt ℝ → δ), (∀ x y, x.1 = y.1 ∧ Same D S.energies es' x.2 y.2 → G x = G' y) →
      (allHist C (fun t => (s.thr t).hist)).map G = (allHist C' (fun t => (s'.thr t).hist)).map G' := by
    intro δ G G' hG
    unfold allHist
    rw [List.map_flatMap, List.map_flatMap, hT]
    refine List.flatMap_congr fun t ht => ?_
    exact map_rel (hrel t (List.mem_range.1 ht)) hG
  have hcnt : ∀ c : Int, (allHist C (fun t => (s.thr t).hist)).countP (fun x => decide (x.2.code = c)) =
      (allHist C' (fun t => (s'.thr t).hist)).countP (fun x => decide (x.2.code = c)) := by
    intro c
    have := hmap (fun x => decide (x.2.code = c)) (fun x => decide (x.2.code = c)) (fun x y r => by rw [r.2.2.1])
    have e := congrArg (List.countP id) this
    rw [List.countP_map, List.countP_map] at e
    exact e
  have hst : (results C' es' s').iStart = (results C S.energies s).iStart := by
    rw [R.iStart, R'.iStart, hcnt, hcnt, hCn, hCn']
  refine ⟨hst, ?_, ?_, ?_, ?_⟩
  · rw [R.iExit, R'.iExit, hCn, hCn']
  · rw [R.openArea, R'.openArea, hst, hcnt, hCn, hCn']
  · intro j hj
    obtain ⟨a, a1, a2, -, a4, a5, -⟩ := R.slot j (by rw [hCn]; exact hj)
    obtain ⟨b, b1, b2, b3, b4, b5, -⟩ := R'.slot j (by rw [hCn']; exact hj)
    obtain ⟨t, ht, hm⟩ := List.mem_flatMap.1 a1
    obtain ⟨y, y1, y2, y3⟩ := mem_rel (hrel t (List.mem_range.1 ht)) hm
    have hy : (j, y.2) ∈ allHist C' (fun t => (s'.thr t).hist) := by
      refine List.mem_flatMap.2 ⟨t, ht, ?_⟩
      rw [show (j, y.2) = y from Prod.ext y2 rfl]
      exact y1
    have e := b3 y.2 hy (by rw [hD', y3.2.2.1]; exact a2)
    rw [e] at y3
    have hc : a.code = 1 := by
      by_contra hc
      rw [hD] at a2
      unfold simCode at a2
      rw [if_neg hc] at a2
      exact hc a2
    obtain ⟨g1, -⟩ := y3.2.2.2 hc
    rw [a4, a5, b4, b5, hD, hD', g1]
    exact ⟨by unfold startRec; rw [g1, y3.1], rfl⟩
  · intro i j hi hj hij
    have hcode : ∀ {a : Attempt ℝ}, simCode D a = 1 → a.code = 1 := by
      intro a h1
      by_contra hc
      unfold simCode at h1
      rw [if_neg hc] at h1
      exact hc h1
    have hget : ∀ {a a' : Attempt ℝ}, Same D S.energies es' a a' → a.code = 1 → (wtsOf S.energies.length a)[i]? = (wtsOf es'.length a')[j]? := by
      intro a a' r hc
      obtain ⟨-, f, g1, g2⟩ := r.2.2.2 hc
      rw [g1, g2, List.getElem?_map, List.getElem?_map, List.getElem?_eq_getElem hi, List.getElem?_eq_getElem hj, hij]
    constructor
    · rw [effs_sumW hd (by omega) h hf S.energies i hi, effs_sumW hd' (by omega) h' hf' es' j hj, hst, (sumW_total F).2 i hi, (sumW_total F').2 j hj]
      congr 1
      rw [hne, hne', hD, hD', (hist_counts S.energies.length i _).1, (hist_counts es'.length j _).1]
      congr 1
      refine hmap _ _ fun x y r => ?_
      simp only [delivered, r.2.2.2.1]
      by_cases h1 : simCode D x.2 = 1
      · rw [if_pos h1, if_pos h1, List.getD_eq_getElem?_getD, List.getD_eq_getElem?_getD, hget r.2 (hcode h1)]
      · rw [if_neg h1, if_neg h1]
    · intro q hq
      obtain ⟨a, a1, a2, -, -, -, -, a6⟩ := R.slot q (by rw [hCn]; exact hq)
      obtain ⟨b, b1, b2, b3, -, -, -, b6⟩ := R'.slot q (by rw [hCn']; exact hq)
      obtain ⟨t, ht, hm⟩ := List.mem_flatMap.1 a1
      obtain ⟨y, y1, y2, y3⟩ := mem_rel (hrel t (List.mem_range.1 ht)) hm
      have hy : (q, y.2) ∈ allHist C' (fun t => (s'.thr t).hist) := by
        refine List.mem_flatMap.2 ⟨t, ht, ?_⟩
        rw [show (q, y.2) = y from Prod.ext y2 rfl]
        exact y1
      have e := b3 y.2 hy (by rw [hD', y3.2.2.1]; exact a2)
      rw [e] at y3
      have e1 := a6 i hi
      have e2 := b6 j hj
      rw [hne] at e1
      rw [hne'] at e2
      rw [e1, e2]
      exact hget y3 (hcode a2)

/-! ## Other energies -/

theorem photon_drawn {lib : Xray ℝ} {S : Src ℝ} {D : Descr ℝ} (G : GoodSetup lib S D) {u : ℕ → ℝ} (hu : ∀ i, 0 ≤ u i ∧ u i < 1) (h : used S D u ≠ 0) :
    ∃ fuel k a m, attempt lib S D false fuel k u 0 = .ok (a, m) := by
  obtain ⟨fuel, x, hx⟩ := used_pos h
  obtain ⟨h0, -⟩ := source_photon_geometry S G.src D u (fun i => ⟨(hu i).1, (hu i).2.le⟩) fuel 0 x _ hx
  obtain ⟨c, o, P', hL⟩ := launch_noleak_returns lib D G.grid fuel 0 x.photon h0.ge S.energies G.comp
  refine ⟨fuel, 0 + 1, ⟨c, x.src, P', o⟩, used S D u, ?_⟩
  unfold attempt
  rw [hx, Out.bind_ok, hL]
  rfl

/-- one photon with all energies (left) and with some of them (right) -/
theorem company_photon {lib : Xray ℝ} {S : Src ℝ} {D : Descr ℝ} (G : GoodSetup lib S D) {es' : List ℝ} (hr : Refracts lib D S.energies) (hes : es' ≠ [])
    (hsub : es' ⊆ S.energies) {i j : ℕ} (hi : i < S.energies.length) (hj : j < es'.length) (hij : S.energies[i] = es'[j])
    {u : ℕ → ℝ} (hu : ∀ i, 0 ≤ u i ∧ u i < 1) (h : used S D u ≠ 0) :
    0 ≤ delivered D es'.length j (photonOf lib (withEnergies S es') D false u) ∧
    delivered D es'.length j (photonOf lib (withEnergies S es') D false u) ≤ delivered D S.energies.length i (photonOf lib S D false u) ∧
    delivered D S.energies.length i (photonOf lib S D false u) ≤ delivered D es'.length j (photonOf lib (withEnergies S es') D false u) + 1 / 10 ^ 4 ∧
    delivered D S.energies.length i (photonOf lib S D false u) ≤ counted D (photonOf lib S D false u) ∧
    counted D (photonOf lib S D false u) ≤ counted D (photonOf lib (withEnergies S es') D false u) := by
  obtain ⟨-, -, -, hb, -⟩ := (scatf_accepts_iff D S.energies).mp G.comp
  obtain ⟨fuel, k, a, m, ha⟩ := photon_drawn G hu h
  obtain ⟨k', a', ha', -, hc⟩ := attempt_company hr hb hes hsub ha
  rw [photonOf_some ha, photonOf_some ha']
  have w0 : simCode D a = 1 → 0 ≤ (wtsOf S.energies.length a).getD i 0 ∧ (wtsOf S.energies.length a).getD i 0 ≤ 1 := by
    intro h1
    have hc : a.code = 1 := by
      by_contra hc
      unfold simCode at h1
      rw [if_neg hc] at h1
      exact hc h1
    obtain ⟨ws, e1, e2, e3⟩ := attempt_weights G (fun i => ⟨(hu i).1, (hu i).2.le⟩) ha hc
    have hw : wtsOf S.energies.length a = ws := by
      unfold wtsOf; rw [e1]; simp only; rw [← e2, List.take_length]
    rw [hw, List.getD_eq_getElem?_getD, List.getElem?_eq_getElem (by rw [e2]; exact hi), Option.getD_some]
    exact e3 _ (List.getElem_mem _)
  have wf : ∀ {f : ℝ → ℝ}, a.wts = .filled (S.energies.map f) → (wtsOf S.energies.length a).getD i 0 = f S.energies[i] := by
    intro f hf
    unfold wtsOf
    rw [hf]
    simp [List.getD_eq_getElem?_getD, hi]
  have wf' : ∀ {f : ℝ → ℝ}, a'.wts = .filled (es'.map f) → (wtsOf es'.length a').getD j 0 = f es'[j] := by
    intro f hf
    unfold wtsOf
    rw [hf]
    simp [List.getD_eq_getElem?_getD, hj]
  have dc : delivered D S.energies.length i (some a) ≤ counted D (some a) := by
    simp only [delivered]
    by_cases h1 : simCode D a = 1
    · rw [if_pos h1]
      have : counted D (some a) = 1 := by unfold counted; rw [if_pos ⟨a, rfl, Or.inl h1⟩]
      rw [this]; exact (w0 h1).2
    · rw [if_neg h1]; exact (counted_bounds _ _).1
  have key : ∀ {c : Int}, simCode D a' = simCode D a → a'.code = a.code → counted D (some a) = counted D (some a') := by
    intro _ e1 e2
    have : Counts D (some a) ↔ Counts D (some a') := by simp [Counts, e1, e2]
    unfold counted
    by_cases hq : Counts D (some a)
    · rw [if_pos hq, if_pos (this.1 hq)]
    · rw [if_neg hq, if_neg (fun z => hq (this.2 z))]
  rcases hc with ⟨f, g1, g2, g3, g4⟩ | ⟨g1, g2⟩ | ⟨f, f', g1, g2, g3, g4, -⟩
  · have e1 : simCode D a' = simCode D a := by unfold simCode; rw [g2, g3]
    have e2 : delivered D es'.length j (some a') = delivered D S.energies.length i (some a) := by
      simp only [delivered, e1, wf g1, wf' g4, hij]
    rw [e2, key (c := 0) e1 g2]
    have : 0 ≤ delivered D S.energies.length i (some a) := by
      simp only [delivered]
      by_cases h1 : simCode D a = 1
      · rw [if_pos h1]; exact (w0 h1).1
      · rw [if_neg h1]
    refine ⟨this, le_refl _, by linarith, ?_, le_refl _⟩
    rw [← key (c := 0) e1 g2]; exact dc
  · have e0 : ∀ {b : Attempt ℝ}, b.code ≠ 1 → simCode D b = b.code := fun h => by unfold simCode; rw [if_neg h]
    have e1 : simCode D a' = simCode D a := by rw [e0 g1, e0 (by rw [g2]; exact g1), g2]
    have n1 : simCode D a ≠ 1 := by rw [e0 g1]; exact g1
    have d1 : delivered D S.energies.length i (some a) = 0 := by simp only [delivered]; rw [if_neg n1]
    have d2 : delivered D es'.length j (some a') = 0 := by simp only [delivered]; rw [if_neg (by rw [e1]; exact n1)]
    rw [d1, d2, key (c := 0) e1 g2]
    exact ⟨le_refl _, le_refl _, by norm_num, (counted_bounds _ _).1, le_refl _⟩
  · have e1 : simCode D a' = 0 := by unfold simCode; rw [if_neg (by rw [g2]; decide), g2]
    have d2 : delivered D es'.length j (some a') = 0 := by simp only [delivered]; rw [if_neg (by rw [e1]; decide)]
    have c2 : counted D (some a') = 1 := by unfold counted; rw [if_pos ⟨a', rfl, Or.inr (Or.inl g2)⟩]
    rw [d2, c2]
    have hm : es'[j] ∈ es' := List.getElem_mem _
    have hf := g4 _ hm
    have : 0 ≤ delivered D S.energies.length i (some a) ∧ delivered D S.energies.length i (some a) ≤ 1 / 10 ^ 4 := by
      simp only [delivered]
      by_cases h1 : simCode D a = 1
      · rw [if_pos h1]
        refine ⟨(w0 h1).1, ?_⟩
        rw [wf g1, hij]
        linarith [hf.1, hf.2]
      · rw [if_neg h1]; exact ⟨le_refl _, by norm_num⟩
    exact ⟨le_refl _, this.1, by linarith [this.2], dc, (counted_bounds _ _).2⟩

theorem withEnergies_setup {lib : Xray ℝ} {S : Src ℝ} {D : Descr ℝ} (G : GoodSetup lib S D) {es' : List ℝ} (hes : es' ≠ []) (hsub : es' ⊆ S.energies) :
    GoodSetup lib (withEnergies S es') D where
  src := { G.src with }
  grid := G.grid
  caps := G.caps
  ext0 := G.ext0
  comp := by
    have h := (scatf_accepts_iff D S.energies).mp G.comp
    exact (scatf_accepts_iff D es').mpr ⟨h.1, h.2.1, hes, fun e he => h.2.2.2.1 e (hsub he), h.2.2.2.2⟩
  cs := G.cs

/-- The value to which the efficiency of an energy converges, in a simulation with all energies and in one with some of them: company never lowers it, and adds at most
10⁻⁴ to the mean weight delivered. -/
theorem company_limit {lib : Xray ℝ} {S : Src ℝ} {D : Descr ℝ} (G : GoodSetup lib S D) {es' : List ℝ} (hr : Refracts lib D S.energies) (hes : es' ≠ [])
    (hsub : es' ⊆ S.energies) {i j : ℕ} (hi : i < S.energies.length) (hj : j < es'.length) (hij : S.energies[i] = es'[j]) :
    meanWeight lib (withEnergies S es') D false j ≤ meanWeight lib S D false i ∧
    meanWeight lib S D false i ≤ meanWeight lib (withEnergies S es') D false j + 1 / 10 ^ 4 ∧
    countShare lib S D false ≤ countShare lib (withEnergies S es') D false ∧
    meanWeight lib (withEnergies S es') D false j / countShare lib (withEnergies S es') D false ≤ meanWeight lib S D false i / countShare lib S D false := by
  have G' := withEnergies_setup G hes hsub
  have all : ∀ᵐ u ∂Unif.draws, (∀ i, 0 ≤ u i ∧ u i < 1) ∧ used S D u ≠ 0 := by
    filter_upwards [Unif.draws_range, used_ae G.src G.ext0 (D := D)] with u h1 h2
    exact ⟨h1, h2⟩
  have i1 : Integrable (fun u => delivered D S.energies.length i (photonOf lib S D false u)) Unif.draws := by
    refine Integrable.of_bound (delivered_meas lib S D false _ i).aestronglyMeasurable 1 ?_
    filter_upwards [Unif.draws_range] with u hu
    exact wtsOf_bounds G hu i
  have i2 : Integrable (fun u => delivered D es'.length j (photonOf lib (withEnergies S es') D false u)) Unif.draws := by
    refine Integrable.of_bound (delivered_meas lib (withEnergies S es') D false _ j).aestronglyMeasurable 1 ?_
    filter_upwards [Unif.draws_range] with u hu
    exact wtsOf_bounds G' hu j
  have i3 : ∀ S' : Src ℝ, Integrable (fun u => counted D (photonOf lib S' D false u)) Unif.draws := by
    intro S'
    refine Integrable.of_bound (counted_meas lib S' D false).aestronglyMeasurable 1 ?_
    filter_upwards with u
    rw [Real.norm_eq_abs, abs_of_nonneg (counted_bounds _ _).1]
    exact (counted_bounds _ _).2
  have m0 : 0 ≤ meanWeight lib (withEnergies S es') D false j :=
    integral_nonneg_of_ae (by filter_upwards [all] with u ⟨h1, h2⟩; exact (company_photon G hr hes hsub hi hj hij h1 h2).1)
  have m1 : meanWeight lib (withEnergies S es') D false j ≤ meanWeight lib S D false i :=
    integral_mono_ae i2 i1 (by filter_upwards [all] with u ⟨h1, h2⟩; exact (company_photon G hr hes hsub hi hj hij h1 h2).2.1)
  have m2 : meanWeight lib S D false i ≤ meanWeight lib (withEnergies S es') D false j + 1 / 10 ^ 4 := by
    have := integral_mono_ae i1 (i2.add (integrable_const (1 / 10 ^ 4 : ℝ)))
      (by filter_upwards [all] with u ⟨h1, h2⟩; exact (company_photon G hr hes hsub hi hj hij h1 h2).2.2.1)
    refine this.trans ?_
    simp only [Pi.add_apply]
    rw [integral_add i2 (integrable_const _)]
    simp only [integral_const, probReal_univ, one_smul]
    exact le_refl _
  have m3 : meanWeight lib S D false i ≤ countShare lib S D false :=
    integral_mono_ae i1 (i3 S) (by filter_upwards [all] with u ⟨h1, h2⟩; exact (company_photon G hr hes hsub hi hj hij h1 h2).2.2.2.1)
  have m4 : countShare lib S D false ≤ countShare lib (withEnergies S es') D false :=
    integral_mono_ae (i3 S) (i3 _) (by filter_upwards [all] with u ⟨h1, h2⟩; exact (company_photon G hr hes hsub hi hj hij h1 h2).2.2.2.2)
  refine ⟨m1, m2, m4, ?_⟩
  rcases (countShare_nonneg lib S D false).eq_or_lt with hq | hq
  · rw [← hq] at m3
    have e1 : meanWeight lib S D false i = 0 := le_antisymm m3 (m0.trans m1)
    have e2 : meanWeight lib (withEnergies S es') D false j = 0 := le_antisymm (by rw [← e1]; exact m1) m0
    rw [e1, e2, zero_div, zero_div]
  · exact div_le_div₀ (m0.trans m1) m1 hq m4

/-- **C108.** Perfect generators, no leak calculation. With probability one, for large numbers of photons, a simulation with some of the energies reports for each of
them an efficiency that exceeds the one reported with all energies by arbitrarily little: company never lowers an efficiency. The two are close to `w'/c'` and `w/c`
with `w' ≤ w ≤ w' + 10⁻⁴` and `c ≤ c'`. -/
theorem company_simulated {lib : Xray ℝ} {S : Src ℝ} {D : Descr ℝ} (G : GoodSetup lib S D) {es' : List ℝ} (hr : Refracts lib D S.energies) (hes : es' ≠ [])
    (hsub : es' ⊆ S.energies) {i j : ℕ} (hi : i < S.energies.length) (hj : j < es'.length) (hij : S.energies[i] = es'[j]) (mt omp mt' omp' : Int)
    {Ω : Type} [MeasurableSpace Ω] (P : Measure Ω) (U V : ℕ → Ω → ℕ → ℝ) (hU : ∀ t, AEMeasurable (U t) P) (hV : ∀ t, AEMeasurable (V t) P)
    (hlaw : ∀ t, P.map (U t) = Unif.draws) (hlaw' : ∀ t, P.map (V t) = Unif.draws) :
    ∃ w w' c c' : ℝ, w' ≤ w ∧ w ≤ w' + 1 / 10 ^ 4 ∧ c ≤ c' ∧ c' ≤ 1 ∧ w' / c' ≤ w / c ∧
      ∀ᵐ ω ∂P, ∀ ε > 0, ∃ n0 : ℕ, ∀ n ≥ n0, ∀ fuel k asg m s fuel' k' asg' m' s',
        Distributes (simCfg lib S D (callOf S D mt false n) omp (fun t => U t ω) fuel k) asg →
        Reach (simCfg lib S D (callOf S D mt false n) omp (fun t => U t ω) fuel k) asg m s → s.finished (simCfg lib S D (callOf S D mt false n) omp (fun t => U t ω) fuel k) →
        Distributes (simCfg lib (withEnergies S es') D (callOf (withEnergies S es') D mt' false n) omp' (fun t => V t ω) fuel' k') asg' →
        Reach (simCfg lib (withEnergies S es') D (callOf (withEnergies S es') D mt' false n) omp' (fun t => V t ω) fuel' k') asg' m' s' →
        s'.finished (simCfg lib (withEnergies S es') D (callOf (withEnergies S es') D mt' false n) omp' (fun t => V t ω) fuel' k') →
        |(results (simCfg lib S D (callOf S D mt false n) omp (fun t => U t ω) fuel k) S.energies s).effs.getD i 0 - w / c| ≤ ε ∧
        |(results (simCfg lib (withEnergies S es') D (callOf (withEnergies S es') D mt' false n) omp' (fun t => V t ω) fuel' k') es' s').effs.getD j 0 - w' / c'| ≤ ε ∧
        (results (simCfg lib (withEnergies S es') D (callOf (withEnergies S es') D mt' false n) omp' (fun t => V t ω) fuel' k') es' s').effs.getD j 0 ≤
          (results (simCfg lib S D (callOf S D mt false n) omp (fun t => U t ω) fuel k) S.energies s).effs.getD i 0 + ε := by
  obtain ⟨h1, h2, h3, h4⟩ := company_limit G hr hes hsub hi hj hij
  have c1 : countShare lib (withEnergies S es') D false ≤ 1 := by
    have := integral_mono_ae (μ := Unif.draws) (f := fun u => counted D (photonOf lib (withEnergies S es') D false u)) (g := fun _ => (1:ℝ)) (by
      refine Integrable.of_bound (counted_meas lib (withEnergies S es') D false).aestronglyMeasurable 1 ?_
      filter_upwards with u
      rw [Real.norm_eq_abs, abs_of_nonneg (counted_bounds _ _).1]
      exact (counted_bounds _ _).2) (integrable_const _) (Filter.Eventually.of_forall fun u => (counted_bounds _ _).2)
    refine this.trans ?_
    simp
  refine ⟨_, _, _, _, h1, h2, h3, c1, h4, ?_⟩
  filter_upwards [efficiency_converges G mt omp false i hi P U hU hlaw,
    efficiency_converges (withEnergies_setup G hes hsub) mt' omp' false j hj P V hV hlaw'] with ω k1 k2
  intro ε he
  obtain ⟨n1, k1⟩ := k1 (ε / 2) (by linarith)
  obtain ⟨n2, k2⟩ := k2 (ε / 2) (by linarith)
  refine ⟨max n1 n2, ?_⟩
  intro n hn fuel k asg m s fuel' k' asg' m' s' a b c a' b' c'
  have e1 := k1 n (le_trans (le_max_left _ _) hn) fuel k asg m s a b c
  have e2 := k2 n (le_trans (le_max_right _ _) hn) fuel' k' asg' m' s' a' b' c'
  refine ⟨e1.trans (by linarith), e2.trans (by linarith), ?_⟩
  have g1 := (abs_le.1 e1).1
  have g2 := (abs_le.1 e2).2
  have e3 : (withEnergies S es').energies = es' := rfl
  rw [e3] at g2
  linarith

/-! ## An example -/

/-- the narrow beam with two energies -/
noncomputable def beam2 : Src ℝ := withEnergies beam [10, 100]

theorem beam2_setup : GoodSetup exLib beam2 exD where
  src := { beam_setup.src with }
  grid := exGrid
  caps := by simp [exD]
  ext0 := by simp [exD, exProf]
  comp := by
    rw [scatf_accepts_iff]
    simp [exD, beam2, withEnergies]
    norm_num
  cs := by intro z e; simp [exLib]

theorem beam2_refracts : Refracts exLib exD beam2.energies := by
  have h1 : ∀ e, scatfOf exLib exD e = 1 / 2 := by
    intro e
    simp [scatfOf, exD, exLib]
    norm_num
  have h2 : ∀ e, 0 ≤ amuOf exLib exD e := by
    intro e
    simp [amuOf, exD, exLib]
    norm_num
  have g := RoughTube.r_glass (cs := [RoughTube.rCh 10 1, RoughTube.rCh 100 1]) (by intro c hc; simp at hc; rcases hc with rfl | rfl <;> simp [RoughTube.rCh] <;> norm_num)
  refine ⟨by norm_num [exD], fun e _ => by rw [h1 e]; norm_num, fun e _ => h2 e, ?_⟩
  intro e he
  rw [h1 e]
  simp [beam2, withEnergies] at he
  rcases he with rfl | rfl
  · exact (g.chan (RoughTube.rCh 10 1) (by simp)).2.2.2.2
  · exact (g.chan (RoughTube.rCh 100 1) (by simp)).2.2.2.2

/-- the hypotheses of `energies_order_simulated` and `company_simulated` are met by a narrow beam of two energies in a tapered capillary -/
example : GoodSetup exLib beam2 exD ∧ Refracts exLib exD beam2.energies ∧ (∀ e, e ∈ ([100, 10, 100] : List ℝ) ↔ e ∈ beam2.energies) ∧ [100] ⊆ beam2.energies := by
  refine ⟨beam2_setup, beam2_refracts, ?_, ?_⟩
  · intro e; simp [beam2, withEnergies]; tauto
  · intro e he; simp at he; subst he; simp [beam2, withEnergies]

/-- the theorem applied to it: the efficiency at 100 keV, with and without 10 keV -/
example (mt omp : Int) {Ω : Type} [MeasurableSpace Ω] (P : Measure Ω) (U : ℕ → Ω → ℕ → ℝ) (hU : ∀ t, AEMeasurable (U t) P) (hlaw : ∀ t, P.map (U t) = Unif.draws) :
    ∀ᵐ ω ∂P, ∀ ε > 0, ∃ n0 : ℕ, ∀ n ≥ n0, ∀ fuel k asg m s m' s',
      Distributes (simCfg exLib beam2 exD (callOf beam2 exD mt false n) omp (fun t => U t ω) fuel k) asg →
      Reach (simCfg exLib beam2 exD (callOf beam2 exD mt false n) omp (fun t => U t ω) fuel k) asg m s →
      s.finished (simCfg exLib beam2 exD (callOf beam2 exD mt false n) omp (fun t => U t ω) fuel k) →
      Reach (simCfg exLib (withEnergies beam2 [100]) exD (callOf (withEnergies beam2 [100]) exD mt false n) omp (fun t => U t ω) fuel k) asg m' s' →
      s'.finished (simCfg exLib (withEnergies beam2 [100]) exD (callOf (withEnergies beam2 [100]) exD mt false n) omp (fun t => U t ω) fuel k) →
      (results (simCfg exLib (withEnergies beam2 [100]) exD (callOf (withEnergies beam2 [100]) exD mt false n) omp (fun t => U t ω) fuel k) [100] s').effs.getD 0 0 ≤
        (results (simCfg exLib beam2 exD (callOf beam2 exD mt false n) omp (fun t => U t ω) fuel k) [10, 100] s).effs.getD 1 0 + ε := by
  obtain ⟨w, w', c, c', -, -, -, -, -, h⟩ := company_simulated beam2_setup (es' := [100]) beam2_refracts (by simp) (by intro e he; simp at he; subst he; simp [beam2, withEnergies])
    (i := 1) (j := 0) (by simp [beam2, withEnergies]) (by simp) (by simp [beam2, withEnergies]) mt omp mt omp P U U hU hU hlaw hlaw
  filter_upwards [h] with ω hω
  intro ε he
  obtain ⟨n0, h⟩ := hω ε he
  refine ⟨n0, ?_⟩
  intro n hn fuel k asg m s m' s' a b d a' b'
  exact (h n hn fuel k asg m s fuel k asg m' s' a b d a a' b').2.2

end Mean
end Polycap
