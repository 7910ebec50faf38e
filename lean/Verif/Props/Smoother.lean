import Verif.Props.Rougher
import Verif.Props.SimEnergies

/-!
# C109: smoother walls never lower an efficiency
-/
namespace Polycap
open CNum MeasureTheory

namespace Rough
open EInd

theorem reflect_fails (D : Descr ℝ) (s : ℝ) (fuel k fuel' k' : Nat) (n : V3 ℝ) (P P' : Photon ℝ) (g : Glass D P.chans)
    (hr : reflect D false fuel k n P = .ok (-1, P')) (ds : List (Chan ℝ)) :
    ∃ P'', reflect (D.withRoughness s) false fuel' (k' + 1) n { P with chans := ds } = .ok (-1, P'') := by
  cases k with
  | zero => simp [reflect] at hr
  | succ k =>
    have key : ∀ (D : Descr ℝ) fuel k (P : Photon ℝ), reflect D false fuel (k + 1) n P = (if (scalar (vnorm P.exitD) (vnorm n) <. lit 0) = true then
        .ok (-1, { P with exitD := vnorm P.exitD }) else
        reflectRest D false (fun q r ix T => capilTrace D (reflect D false fuel k) (capxOf D q r) (capyOf D q r) ix T) (vnorm n)
          (scalar (vnorm P.exitD) (vnorm n)) { P with exitD := vnorm P.exitD } ⟨0, lit 0, 0, 0⟩) := fun _ _ _ _ => rfl
    rw [key] at hr
    simp only [key]
    split at hr
    · rename_i ha
      exact ⟨_, if_pos ha⟩
    rename_i ha
    exfalso
    have hdot : 0 ≤ dot (vnorm n) (vnorm P.exitD) := by
      have e0 : ((0:ℚ):ℝ) = 0 := by norm_num
      simp only [real_lt, real_lit, e0, decide_eq_true_eq, not_lt, scalar_real] at ha
      unfold dot at ha ⊢
      linarith
    unfold reflectRest at hr
    rw [if_neg (by simp)] at hr
    split at hr
    · simp at hr
    obtain ⟨k1, k2⟩ := energies_ok D (vnorm n) (vnorm P.exitD) (scalar (vnorm P.exitD) (vnorm n)) (lit 0) false P.exitE P.chans P.exitE P.exitE rfl
    have hacc := g.acc hdot (E := P.exitE)
    obtain ⟨j1, j2, j3⟩ := k2 hacc
    have hok := k1.mpr hacc
    simp only at hr
    rw [if_neg (by rw [hok]; simp)] at hr
    rw [if_neg (by rw [reflEnergies_leakFlag_off]; simp)] at hr
    injection hr with hr; injection hr with h1 h2
    split at h1 <;> omega

theorem trace_fails (D : Descr ℝ) (s : ℝ) (fuel k fuel' k' : Nat) (capx capy : Nat → ℝ) (ix : Nat) (P : Photon ℝ)
    (ix' : Nat) (P' : Photon ℝ) (g : Glass D P.chans) (ht : trace D false fuel k capx capy ix P = .ok (-1, ix', P')) (ds : List (Chan ℝ)) :
    ∃ ix'' P'', trace (D.withRoughness s) false fuel' (k' + 1) capx capy ix { P with chans := ds } = .ok (-1, ix'', P'') := by
  unfold trace capilTrace at ht
  unfold trace capilTrace
  simp only at ht ⊢
  have e := search_smooth D s capx capy { P with exitD := vnorm P.exitD, startD := vnorm P.startD } ds (D.prof.nmax - ix) ix P.exitC ⟨lit 0, lit 0, lit 0⟩
  simp only at e
  have hn : (D.withRoughness s).prof = D.prof := rfl
  have hn' : (D.withRoughness s).n_cap = D.n_cap := rfl
  simp only [hn, e]
  cases hs' : traceSearch D capx capy { P with exitD := vnorm P.exitD, startD := vnorm P.startD } (D.prof.nmax - ix) ix P.exitC ⟨lit 0, lit 0, lit 0⟩ with
  | ret code =>
    rw [hs'] at ht
    injection ht with h; injection h with h1 h; injection h with h2 h3; subst h1 h2 h3
    exact ⟨_, _, rfl⟩
  | miss =>
    rw [hs'] at ht
    injection ht with h; injection h with h1 h
    omega
  | hit i v n ca =>
    rw [hs'] at ht
    simp only at ht ⊢
    unfold traceHit at ht ⊢
    simp only [hn, hn'] at ht ⊢
    split at ht
    · rename_i q1
      simp only [if_pos q1]
      exact ⟨_, _, rfl⟩
    rename_i q1
    simp only [if_neg q1]
    split at ht
    · simp at ht
    rename_i q2
    simp only [if_neg q2]
    split at ht
    · rename_i q3
      injection ht with h; injection h with h1 h
      simp only [if_pos q3]
      exact ⟨_, _, by rw [h1]⟩
    rename_i q3
    simp only [if_neg q3]
    split at ht
    · rename_i q4
      injection ht with h; injection h with h1 h
      simp only [if_pos q4]
      exact ⟨_, _, by rw [h1]⟩
    rename_i q4
    simp only [if_neg q4]
    rw [Out.bind_eq_ok] at ht
    obtain ⟨⟨c1, P1⟩, hr, ht⟩ := ht
    injection ht with h
    have hc1 : c1 = -1 := by
      obtain ⟨-, -, -, g3, -⟩ := reflect_sub D fuel k 0 0 n _ c1 P1 hr (Or.inr g)
      unfold afterReflect at h
      rcases g3 with rfl | rfl | rfl
      · rfl
      · simp only at h
        rw [if_neg (by decide), if_neg (by decide)] at h
        injection h with h1 h
      · simp only [if_true] at h
        injection h with h1 h
    subst hc1
    obtain ⟨P'', g1⟩ := reflect_fails D s fuel k fuel' k' n _ P1 (by exact g) hr ds
    simp only at g1
    rw [g1, Out.bind_ok]
    unfold afterReflect
    simp only
    rw [if_neg (by decide), if_pos (by decide)]
    exact ⟨_, _, rfl⟩

theorem loop_fails (D : Descr ℝ) (s : ℝ) (h0 : 0 ≤ s) (hs : s ≤ D.sig_rough) (fuel k fuel' k' : Nat) (capx capy : Nat → ℝ) :
    ∀ (m : Nat) (iesc : Int) (ix : Nat) (P : Photon ℝ) (ix' : Nat) (P' : Photon ℝ), iesc ≠ -1 → Glass D P.chans →
      traceLoop (trace D false fuel k capx capy) m iesc ix P = .ok (-1, ix', P') →
      ∀ ds, List.Forall₂ Le P.chans ds →
      ∃ ix'' P'', traceLoop (trace (D.withRoughness s) false fuel' (k' + 1) capx capy) m iesc ix { P with chans := ds } = .ok (-1, ix'', P'') := by
  intro m
  induction m with
  | zero =>
    intro iesc ix P ix' P' hi _ h
    simp only [traceLoop] at h
    injection h with h; injection h with h1 h; exact absurd h1 hi
  | succ m ih =>
    intro iesc ix P ix' P' hi g h ds hd
    unfold traceLoop at h ⊢
    rw [Out.bind_eq_ok] at h
    obtain ⟨⟨c1, ix1, P1⟩, ht, h⟩ := h
    simp only at h
    by_cases hc1 : c1 = 1
    · rw [if_neg (by simp [hc1])] at h
      obtain ⟨ds1, a1, a2⟩ := trace_smooth D s h0 hs fuel k fuel' k' capx capy ix P c1 ix1 P1 ht (by omega) ds hd
      obtain ⟨hh, b1, b2, -⟩ := trace_sub D fuel k fuel' k' capx capy ix P c1 ix1 P1 ht (Or.inr g)
      rw [a1, Out.bind_ok]
      simp only
      rw [if_neg (by simp [hc1])]
      exact ih _ _ _ _ _ (by omega) (by rw [b1]; exact g.map b2) h ds1 a2
    · rw [if_pos hc1] at h
      injection h with h; injection h with h1 h; injection h with h2 h3; subst h1 h2 h3
      obtain ⟨ix'', P'', a1⟩ := trace_fails D s fuel k fuel' k' capx capy ix P _ _ g ht ds
      rw [a1, Out.bind_ok]
      simp only
      rw [if_pos (by decide)]
      exact ⟨_, _, rfl⟩

/-- a photon that is not absorbed in the rougher optic has the same fate in the smoother one -/
theorem launch_smooth (lib : Xray ℝ) (D : Descr ℝ) (s : ℝ) (h0 : 0 ≤ s) (hs : s ≤ D.sig_rough) (fuel k fuel' k' : Nat) (P : Photon ℝ) (es : List ℝ)
    (hr : Refracts lib D es) (hne : es ≠ []) (hb : ∀ e ∈ es, 1 ≤ e ∧ e ≤ 100) (c : Int) (w : WOut ℝ) (P1 : Photon ℝ)
    (h : launch lib (some D) false fuel k (some P) (some es) true = .ok (c, w, some P1)) (hc : c ≠ 0) :
    ∃ w' P1', launch lib (some (D.withRoughness s)) false fuel' (k' + 1) (some P) (some es) true = .ok (c, w', some P1') := by
  obtain ⟨D', P'', es'', e1, e2, e3, -, -, -, hl⟩ := launch_valid lib (some D) false fuel k (some P) (some es) true (not_argsBad hne hb)
  injection e1 with e1; injection e2 with e2; injection e3 with e3; subst e1 e2 e3
  obtain ⟨D', P'', es'', e1, e2, e3, -, -, -, hl'⟩ := launch_valid lib (some (D.withRoughness s)) false fuel' (k' + 1) (some P) (some es) true (not_argsBad hne hb)
  injection e1 with e1; injection e2 with e2; injection e3 with e3; subst e1 e2 e3
  rw [hl, Out.bind_eq_ok] at h
  rw [hl']
  obtain ⟨⟨c0, o0, P0⟩, h, h'⟩ := h
  injection h' with h'; injection h' with a h'; injection h' with b h'; injection h' with h'
  simp only at a b h'
  subst a b h'
  have hinit : launchInit lib (D.withRoughness s) es P = launchInit lib D es P := rfl
  have hcap : launchCap (D.withRoughness s) (launchInit lib D es P).startC = launchCap D (launchInit lib D es P).startC := rfl
  have hopen : ∀ qr, startsInWall (D.withRoughness s) qr (launchInit lib D es P).startC = startsInWall D qr (launchInit lib D es P).startC := fun _ => rfl
  unfold launchBody at h ⊢
  simp only [hinit, hcap, hopen] at h ⊢
  split at h
  · injection h with h; injection h with a h
    subst a
    exact ⟨_, _, by rw [Out.bind_ok]⟩
  rename_i qr hq
  split at h
  · rename_i hw
    simp only [Bool.false_and, Bool.false_eq_true, if_false] at h ⊢
    injection h with h; injection h with a h
    subst a
    exact ⟨_, _, by rw [if_pos hw, Out.bind_ok]⟩
  · rename_i hw
    simp only [if_neg hw]
    unfold launchInside at h ⊢
    simp only at h ⊢
    rw [Out.bind_eq_ok] at h
    obtain ⟨⟨c1, ix1, Q1⟩, ht, h⟩ := h
    simp only at h
    injection h with h; injection h with a h; injection h with b h
    have hself : List.Forall₂ Rough.Le (launchInit lib D es P).chans (launchInit lib D es P).chans := by
      rw [List.forall₂_same]
      intro x hx
      obtain ⟨e, -, rfl⟩ := List.mem_map.mp hx
      refine ⟨rfl, rfl, rfl, ?_, le_refl _⟩
      show (0:ℝ) ≤ lit 1
      rw [real_lit]; norm_num
    have g : Glass D (launchInit lib D es P).chans := by
      refine ⟨hr.density, ?_⟩
      intro x hx
      obtain ⟨e, he, rfl⟩ := List.mem_map.mp hx
      exact ⟨(hb e he).1, (hb e he).2, hr.scatf e he, hr.amu e he, hr.index e he⟩
    have hc0 : c1 ≠ 0 := by
      rintro rfl
      simp at a
      exact hc a.symm
    by_cases hc1 : c1 = -1
    · subst hc1
      obtain ⟨ix'', P'', g1⟩ := Rough.loop_fails D s h0 hs fuel k fuel' k' _ _ _ _ _ _ _ _ (by decide) g ht _ hself
      have g1' : traceLoop (trace (D.withRoughness s) false fuel' (k' + 1) (axX (D.withRoughness s) qr) (axY (D.withRoughness s) qr)) ((D.withRoughness s).prof.nmax + 1) 0
        (segIdFrom (D.withRoughness s).prof.z 0 (launchInit lib D es P).startC.z ((D.withRoughness s).prof.nmax + 1)) (launchInit lib D es P) = .ok (-1, ix'', P'') := g1
      rw [g1', Out.bind_ok]
      have a' : c0 = -1 := by rw [← a, if_pos (Or.inl rfl)]
      simp only [Out.bind_ok, a']
      rw [if_pos (Or.inl trivial)]
      exact ⟨_, _, rfl⟩
    · obtain ⟨ds', g1, g2⟩ := Rough.loop_smooth D s h0 hs fuel k fuel' k' _ _ _ _ _ _ _ _ _ ht ⟨hc0, hc1⟩ _ hself
      have g1' : traceLoop (trace (D.withRoughness s) false fuel' (k' + 1) (axX (D.withRoughness s) qr) (axY (D.withRoughness s) qr)) ((D.withRoughness s).prof.nmax + 1) 0
        (segIdFrom (D.withRoughness s).prof.z 0 (launchInit lib D es P).startC.z ((D.withRoughness s).prof.nmax + 1)) (launchInit lib D es P) = .ok (c1, ix1, { Q1 with chans := ds' }) := g1
      rw [g1', Out.bind_ok]
      simp only [a, Out.bind_ok]
      exact ⟨_, _, rfl⟩

end Rough
namespace Mean

/-- the photon drawn with the same random numbers, in an optic and in the same optic with smoother walls -/
theorem attempt_smooth {lib : Xray ℝ} {S : Src ℝ} {D : Descr ℝ} {s : ℝ} (h0 : 0 ≤ s) (hs : s ≤ D.sig_rough) (hr : Refracts lib D S.energies) (hne : S.energies ≠ [])
    (hb : ∀ e ∈ S.energies, 1 ≤ e ∧ e ≤ 100) {fuel k n : Nat} {u : ℕ → ℝ} {a : Attempt ℝ} {m : Nat} (h : attempt lib S D false fuel k u n = .ok (a, m)) (hc : a.code ≠ 0) :
    ∃ k' a', attempt lib S (D.withRoughness s) false fuel k' u n = .ok (a', m) ∧ a'.code = a.code ∧
      (a.code = 1 → a'.src = a.src ∧ a'.ph = a.ph ∧ ∃ ws ws', a.wts = .filled ws ∧ a'.wts = .filled ws' ∧ List.Forall₂ (· ≤ ·) ws ws') := by
  obtain ⟨x, hx, hsrc, hl⟩ := attempt_ok h
  have hx' : getPhoton S (D.withRoughness s) u fuel n = .ok (x, m) := hx
  have mk : ∀ c w P1, launch lib (some (D.withRoughness s)) false fuel (k + 1) (some x.photon) (some S.energies) true = .ok (c, w, some P1) →
      attempt lib S (D.withRoughness s) false fuel (k + 1) u n = .ok (⟨c, x.src, P1, w⟩, m) := by
    intro c w P1 e
    unfold attempt
    rw [hx', Out.bind_ok]
    show (launch lib (some (D.withRoughness s)) false fuel (k + 1) (some x.photon) (some S.energies) true >>= _) = _
    rw [e]
    rfl
  by_cases h1 : a.code = 1
  · obtain ⟨ws, hw⟩ : ∃ ws, a.wts = .filled ws := by
      rcases launch_front lib D fuel k fuel k x.photon S.energies S.energies hne hne hb hb _ _ _ hl with hw | ⟨hw, -⟩
      · exact hw
      · exact absurd h1 hw
    rw [h1, hw] at hl
    obtain ⟨ws', e, hle⟩ := smoother_walls_transmit_more lib D s h0 hs fuel k fuel k x.photon S.energies ws _ hl
    exact ⟨k + 1, _, mk _ _ _ e, h1.symm, fun _ => ⟨hsrc.symm, rfl, ws, ws', hw, rfl, hle⟩⟩
  · obtain ⟨w', P1', e⟩ := Rough.launch_smooth lib D s h0 hs fuel k fuel k x.photon S.energies hr hne hb _ _ _ hl hc
    exact ⟨k + 1, _, mk _ _ _ e, rfl, fun h => absurd h h1⟩

theorem smooth_setup {lib : Xray ℝ} {S : Src ℝ} {D : Descr ℝ} (G : GoodSetup lib S D) (s : ℝ) : GoodSetup lib S (D.withRoughness s) where
  src := G.src
  grid := G.grid
  caps := G.caps
  ext0 := G.ext0
  comp := G.comp
  cs := G.cs

/-- one photon in the rougher and in the smoother optic -/
theorem smooth_photon {lib : Xray ℝ} {S : Src ℝ} {D : Descr ℝ} (G : GoodSetup lib S D) {s : ℝ} (h0 : 0 ≤ s) (hs : s ≤ D.sig_rough) (hr : Refracts lib D S.energies) (i : ℕ)
    {u : ℕ → ℝ} (hu : ∀ i, 0 ≤ u i ∧ u i < 1) (h : used S D u ≠ 0) :
    0 ≤ delivered D S.energies.length i (photonOf lib S D false u) ∧
    delivered D S.energies.length i (photonOf lib S D false u) ≤ delivered (D.withRoughness s) S.energies.length i (photonOf lib S (D.withRoughness s) false u) ∧
    counted (D.withRoughness s) (photonOf lib S (D.withRoughness s) false u) ≤ counted D (photonOf lib S D false u) ∧
    delivered D S.energies.length i (photonOf lib S D false u) ≤ counted D (photonOf lib S D false u) ∧
    delivered (D.withRoughness s) S.energies.length i (photonOf lib S (D.withRoughness s) false u) ≤ counted (D.withRoughness s) (photonOf lib S (D.withRoughness s) false u) := by
  obtain ⟨-, -, hne, hb, -⟩ := (scatf_accepts_iff D S.energies).mp G.comp
  -- general facts about one photon
  have gen : ∀ D' : Descr ℝ, GoodSetup lib S D' → used S D' u ≠ 0 → ∃ fuel k a m, attempt lib S D' false fuel k u 0 = .ok (a, m) ∧
      0 ≤ delivered D' S.energies.length i (some a) ∧ delivered D' S.energies.length i (some a) ≤ counted D' (some a) := by
    intro D' G' h'
    obtain ⟨fuel, k, a, m, ha⟩ := photon_drawn G' hu h'
    refine ⟨fuel, k, a, m, ha, ?_⟩
    simp only [delivered]
    by_cases h1 : simCode D' a = 1
    · rw [if_pos h1]
      have hc : a.code = 1 := by
        by_contra hc
        unfold simCode at h1
        rw [if_neg hc] at h1
        exact hc h1
      obtain ⟨ws, e1, e2, e3⟩ := attempt_weights G' (fun i => ⟨(hu i).1, (hu i).2.le⟩) ha hc
      have hw : wtsOf S.energies.length a = ws := by
        unfold wtsOf; rw [e1]; simp only; rw [← e2, List.take_length]
      have : counted D' (some a) = 1 := by unfold counted; rw [if_pos ⟨a, rfl, Or.inl h1⟩]
      rw [this, hw, List.getD_eq_getElem?_getD]
      by_cases hi : i < ws.length
      · rw [List.getElem?_eq_getElem hi, Option.getD_some]
        exact e3 _ (List.getElem_mem _)
      · rw [List.getElem?_eq_none (by omega), Option.getD_none]
        exact ⟨le_refl _, by norm_num⟩
    · rw [if_neg h1]; exact ⟨le_refl _, (counted_bounds _ _).1⟩
  obtain ⟨fuel, k, a, m, ha, d0, d1⟩ := gen D G h
  obtain ⟨fuel2, k2, b, m2, hb2, f0, f1⟩ := gen (D.withRoughness s) (smooth_setup G s) h
  rw [photonOf_some ha, photonOf_some hb2]
  refine ⟨d0, ?_, ?_, d1, f1⟩
  · simp only [delivered]
    by_cases h1 : simCode D a = 1
    · have hc : a.code = 1 := by
        by_contra hc
        unfold simCode at h1
        rw [if_neg hc] at h1
        exact hc h1
      obtain ⟨k', a', ha', c1, c2⟩ := attempt_smooth h0 hs hr hne hb ha (by omega)
      have := Upto.attempt_unique hb2 ha'
      injection this with e1 e2
      subst e1
      obtain ⟨-, g2, ws, ws', g3, g4, g5⟩ := c2 hc
      have hs' : simCode (D.withRoughness s) b = 1 := by rw [← h1]; unfold simCode; rw [c1, g2]; rfl
      rw [if_pos h1, if_pos hs']
      unfold wtsOf
      rw [g3, g4]
      simp only [List.getD_eq_getElem?_getD]
      have key : ∀ (ws ws' : List ℝ), List.Forall₂ (· ≤ ·) ws ws' → ∀ j : ℕ, (ws[j]?).getD (0:ℝ) ≤ (ws'[j]?).getD 0 := by
        intro ws ws' hf
        induction hf with
        | nil => intro j; simp
        | cons x _ ih =>
          intro j
          cases j with
          | zero => simpa using x
          | succ j => simpa using ih j
      exact key _ _ (List.forall₂_take _ g5) i
    · rw [if_neg h1]
      simp only [delivered] at f0
      exact f0
  · by_cases hc : a.code = 0
    · have : counted D (some a) = 1 := by unfold counted; rw [if_pos ⟨a, rfl, Or.inr (Or.inl hc)⟩]
      rw [this]
      exact (counted_bounds _ _).2
    · obtain ⟨k', a', ha', c1, c2⟩ := attempt_smooth h0 hs hr hne hb ha hc
      have := Upto.attempt_unique hb2 ha'
      injection this with e1 e2
      subst e1
      have hs' : simCode (D.withRoughness s) b = simCode D a := by
        by_cases h1 : a.code = 1
        · unfold simCode; rw [c1, (c2 h1).2.1]; rfl
        · unfold simCode; rw [c1, if_neg h1, if_neg h1]
      have : Counts (D.withRoughness s) (some b) ↔ Counts D (some a) := by simp [Counts, hs', c1]
      unfold counted
      by_cases hq : Counts D (some a)
      · rw [if_pos hq, if_pos (this.2 hq)]
      · rw [if_neg hq, if_neg (fun z => hq (this.1 z))]

/-- The limits: smoother walls deliver at least as much at every energy, and no more photons count. -/
theorem smooth_limit {lib : Xray ℝ} {S : Src ℝ} {D : Descr ℝ} (G : GoodSetup lib S D) {s : ℝ} (h0 : 0 ≤ s) (hs : s ≤ D.sig_rough) (hr : Refracts lib D S.energies) (i : ℕ) :
    meanWeight lib S D false i ≤ meanWeight lib S (D.withRoughness s) false i ∧
    countShare lib S (D.withRoughness s) false ≤ countShare lib S D false ∧
    meanWeight lib S D false i / countShare lib S D false ≤ meanWeight lib S (D.withRoughness s) false i / countShare lib S (D.withRoughness s) false := by
  have G' := smooth_setup G s
  have all : ∀ᵐ u ∂Unif.draws, (∀ i, 0 ≤ u i ∧ u i < 1) ∧ used S D u ≠ 0 := by
    filter_upwards [Unif.draws_range, used_ae G.src G.ext0 (D := D)] with u h1 h2
    exact ⟨h1, h2⟩
  have i1 : ∀ D' : Descr ℝ, GoodSetup lib S D' → Integrable (fun u => delivered D' S.energies.length i (photonOf lib S D' false u)) Unif.draws := by
    intro D' G'
    refine Integrable.of_bound (delivered_meas lib S D' false _ i).aestronglyMeasurable 1 ?_
    filter_upwards [Unif.draws_range] with u hu
    exact wtsOf_bounds G' hu i
  have i3 : ∀ D' : Descr ℝ, Integrable (fun u => counted D' (photonOf lib S D' false u)) Unif.draws := by
    intro D'
    refine Integrable.of_bound (counted_meas lib S D' false).aestronglyMeasurable 1 ?_
    filter_upwards with u
    rw [Real.norm_eq_abs, abs_of_nonneg (counted_bounds _ _).1]
    exact (counted_bounds _ _).2
  have m0 : 0 ≤ meanWeight lib S D false i :=
    integral_nonneg_of_ae (by filter_upwards [all] with u ⟨h1, h2⟩; exact (smooth_photon G h0 hs hr i h1 h2).1)
  have m1 : meanWeight lib S D false i ≤ meanWeight lib S (D.withRoughness s) false i :=
    integral_mono_ae (i1 D G) (i1 _ G') (by filter_upwards [all] with u ⟨h1, h2⟩; exact (smooth_photon G h0 hs hr i h1 h2).2.1)
  have m2 : countShare lib S (D.withRoughness s) false ≤ countShare lib S D false :=
    integral_mono_ae (i3 _) (i3 D) (by filter_upwards [all] with u ⟨h1, h2⟩; exact (smooth_photon G h0 hs hr i h1 h2).2.2.1)
  have m3 : meanWeight lib S (D.withRoughness s) false i ≤ countShare lib S (D.withRoughness s) false :=
    integral_mono_ae (i1 _ G') (i3 _) (by filter_upwards [all] with u ⟨h1, h2⟩; exact (smooth_photon G h0 hs hr i h1 h2).2.2.2.2)
  refine ⟨m1, m2, ?_⟩
  rcases (countShare_nonneg lib S (D.withRoughness s) false).eq_or_lt with hq | hq
  · rw [← hq] at m3
    have e2 : meanWeight lib S (D.withRoughness s) false i = 0 := le_antisymm m3 (m0.trans m1)
    have e1 : meanWeight lib S D false i = 0 := le_antisymm (by rw [← e2]; exact m1) m0
    rw [e1, e2, zero_div, zero_div]
  · exact div_le_div₀ (m0.trans m1) m1 hq m2

/-- **C109.** Perfect generators, no leak calculation. With probability one, for large numbers of photons, the efficiency reported for an optic exceeds the one reported for
the same optic with smoother walls by arbitrarily little, at every energy. -/
theorem smoother_walls_simulated {lib : Xray ℝ} {S : Src ℝ} {D : Descr ℝ} (G : GoodSetup lib S D) {s : ℝ} (h0 : 0 ≤ s) (hs : s ≤ D.sig_rough) (hr : Refracts lib D S.energies)
    {i : ℕ} (hi : i < S.energies.length) (mt omp mt' omp' : Int)
    {Ω : Type} [MeasurableSpace Ω] (P : Measure Ω) (U V : ℕ → Ω → ℕ → ℝ) (hU : ∀ t, AEMeasurable (U t) P) (hV : ∀ t, AEMeasurable (V t) P)
    (hlaw : ∀ t, P.map (U t) = Unif.draws) (hlaw' : ∀ t, P.map (V t) = Unif.draws) :
    ∀ᵐ ω ∂P, ∀ ε > 0, ∃ n0 : ℕ, ∀ n ≥ n0, ∀ fuel k asg m st fuel' k' asg' m' st',
      Distributes (simCfg lib S D (callOf S D mt false n) omp (fun t => U t ω) fuel k) asg →
      Reach (simCfg lib S D (callOf S D mt false n) omp (fun t => U t ω) fuel k) asg m st → st.finished (simCfg lib S D (callOf S D mt false n) omp (fun t => U t ω) fuel k) →
      Distributes (simCfg lib S (D.withRoughness s) (callOf S (D.withRoughness s) mt' false n) omp' (fun t => V t ω) fuel' k') asg' →
      Reach (simCfg lib S (D.withRoughness s) (callOf S (D.withRoughness s) mt' false n) omp' (fun t => V t ω) fuel' k') asg' m' st' →
      st'.finished (simCfg lib S (D.withRoughness s) (callOf S (D.withRoughness s) mt' false n) omp' (fun t => V t ω) fuel' k') →
      (results (simCfg lib S D (callOf S D mt false n) omp (fun t => U t ω) fuel k) S.energies st).effs.getD i 0 ≤
        (results (simCfg lib S (D.withRoughness s) (callOf S (D.withRoughness s) mt' false n) omp' (fun t => V t ω) fuel' k') S.energies st').effs.getD i 0 + ε := by
  obtain ⟨-, -, h4⟩ := smooth_limit G h0 hs hr i
  filter_upwards [efficiency_converges G mt omp false i hi P U hU hlaw,
    efficiency_converges (smooth_setup G s) mt' omp' false i hi P V hV hlaw'] with ω k1 k2
  intro ε he
  obtain ⟨n1, k1⟩ := k1 (ε / 2) (by linarith)
  obtain ⟨n2, k2⟩ := k2 (ε / 2) (by linarith)
  refine ⟨max n1 n2, ?_⟩
  intro n hn fuel k asg m st fuel' k' asg' m' st' a b c a' b' c'
  have e1 := k1 n (le_trans (le_max_left _ _) hn) fuel k asg m st a b c
  have e2 := k2 n (le_trans (le_max_right _ _) hn) fuel' k' asg' m' st' a' b' c'
  have g1 := (abs_le.1 e1).2
  have g2 := (abs_le.1 e2).1
  linarith

/-- the hypotheses are met: the narrow beam of two energies in the tapered capillary with rough walls, and with smoother ones -/
example : GoodSetup exLib beam2 (exD.withRoughness 5) ∧ Refracts exLib (exD.withRoughness 5) beam2.energies ∧ (0:ℝ) ≤ 3 ∧ 3 ≤ (exD.withRoughness (5:ℝ)).sig_rough := by
  refine ⟨smooth_setup beam2_setup 5, ⟨beam2_refracts.density, beam2_refracts.scatf, beam2_refracts.amu, beam2_refracts.index⟩, by norm_num, ?_⟩
  show (3:ℝ) ≤ 5
  norm_num

end Mean
end Polycap
