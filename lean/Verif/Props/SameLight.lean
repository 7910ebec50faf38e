import Verif.Props.Replay

/-!
# C113: optics with the same face are lit by the same photons

With the same random numbers a source shines the same photons on two optics that present the same face to it – whatever becomes of them there, and whatever the glass, the
shape behind the face, the energies, or the leak calculation.  So simulations that compare two optics from the same random numbers compare them photon by photon.
-/
namespace Polycap
open CNum

namespace Light

/-- the two optics present the same face to the source: nothing needed for a source with a given divergence; for uniform illumination both are single capillaries with
the same opening, or both are polycapillaries of the same outer radius at the entrance (any number of capillaries) -/
def SameFace (S : Src ℝ) (D D' : Descr ℝ) : Prop :=
  (0 ≤ S.src_sigx ∧ 0 ≤ S.src_sigy) ∨
  (nShells (α := ℝ) D.n_cap = 0 ∧ nShells (α := ℝ) D'.n_cap = 0 ∧ D.prof.cap 0 = D'.prof.cap 0) ∨
  (nShells (α := ℝ) D.n_cap ≠ 0 ∧ nShells (α := ℝ) D'.n_cap ≠ 0 ∧ D.prof.ext 0 = D'.prof.ext 0)

theorem aim_same {S : Src ℝ} {D D' : Descr ℝ} (h : SameFace S D D') (es' : List ℝ) (u : Nat → ℝ) (fuel n : Nat) (s : V3 ℝ) :
    srcAim { S with energies := es' } D'.n_cap (D'.prof.cap 0) (D'.prof.ext 0) u fuel n s = srcAim S D.n_cap (D.prof.cap 0) (D.prof.ext 0) u fuel n s := by
  unfold srcAim
  rcases h with ⟨h1, h2⟩ | ⟨h1, h2, h3⟩ | ⟨h1, h2, h3⟩
  · have : (S.src_sigx <. lit 0 || S.src_sigy <. lit 0) = false := by
      simp [h1, h2]
    simp only [this]
    rfl
  · rw [if_pos h1, if_pos h2, h3]
  · rw [if_neg h1, if_neg h2, h3]

/-- the photon the source emits is the same, and so is the state of the generator -/
theorem photon_same {S : Src ℝ} {D D' : Descr ℝ} (h : SameFace S D D') (es' : List ℝ) (u : Nat → ℝ) (fuel n : Nat) :
    getPhoton { S with energies := es' } D' u fuel n = getPhoton S D u fuel n := by
  unfold getPhoton
  simp only [aim_same h es' u fuel]
  rfl

/-- the same start: place on the source, place on the face of the optic, direction, electric vector -/
def SameStart (a b : Attempt ℝ) : Prop :=
  a.src = b.src ∧ a.ph.startC = b.ph.startC ∧ a.ph.startD = b.ph.startD ∧ a.ph.startE = b.ph.startE

theorem attempt_start {lib : Xray ℝ} {S : Src ℝ} (G : GoodSrc S) {D : Descr ℝ} {leak : Bool} {fuel k : Nat} {u : Nat → ℝ} (hu : ∀ i, 0 ≤ u i ∧ u i ≤ 1)
    (hes : S.energies ≠ []) (hb : ∀ e ∈ S.energies, 1 ≤ e ∧ e ≤ 100) {p q : Nat} {a : Attempt ℝ} (h : attempt lib S D leak fuel k u p = .ok (a, q)) :
    ∃ x, getPhoton S D u fuel p = .ok (x, q) ∧ a.src = x.src ∧ a.ph.startC = x.photon.startC ∧ a.ph.startD = vnorm x.photon.startD ∧ a.ph.startE = x.photon.startE := by
  unfold attempt at h
  obtain ⟨⟨x, q'⟩, hx, h⟩ := Out.bind_eq_ok.1 h
  obtain ⟨⟨c, w, P⟩, hy, h⟩ := Out.bind_eq_ok.1 h
  cases P with
  | none => simp at h
  | some P =>
    simp only [Out.ok.injEq, Prod.mk.injEq] at h
    obtain ⟨rfl, rfl⟩ := h
    obtain ⟨-, -, hd, -⟩ := source_photon_geometry S G D u hu fuel p x q' hx
    obtain ⟨s1, s2, s3⟩ := launch_start lib D leak fuel k x.photon S.energies hes hb (by rw [hd]; exact one_ne_zero) c w P hy
    exact ⟨x, hx, rfl, s1, s2, s3⟩

theorem attempt_same {lib lib' : Xray ℝ} {S : Src ℝ} (G : GoodSrc S) {D D' : Descr ℝ} (hF : SameFace S D D') {leak leak' : Bool} {fuel k fuel' k' : Nat} {u : Nat → ℝ}
    (hu : ∀ i, 0 ≤ u i ∧ u i ≤ 1) (hes : S.energies ≠ []) (hb : ∀ e ∈ S.energies, 1 ≤ e ∧ e ≤ 100) {es' : List ℝ} (hes' : es' ≠ []) (hb' : ∀ e ∈ es', 1 ≤ e ∧ e ≤ 100)
    {p q q' : Nat} {a a' : Attempt ℝ} (h : attempt lib S D leak fuel k u p = .ok (a, q)) (h' : attempt lib' { S with energies := es' } D' leak' fuel' k' u p = .ok (a', q')) :
    SameStart a a' ∧ q = q' := by
  obtain ⟨x, hx, x1, x2, x3, x4⟩ := attempt_start G hu hes hb h
  obtain ⟨y, hy, y1, y2, y3, y4⟩ := attempt_start (S := { S with energies := es' }) { G with } hu hes' hb' h'
  rw [photon_same hF] at hy
  have e1 := (Upto.getPhoton_le S D u (le_max_left fuel fuel') p).ok hx
  have e2 := (Upto.getPhoton_le S D u (le_max_right fuel fuel') p).ok hy
  rw [e1] at e2
  injection e2 with e2
  injection e2 with e2 e3
  subst e2
  exact ⟨⟨x1.trans y1.symm, x2.trans y2.symm, x3.trans y3.symm, x4.trans y4.symm⟩, e3⟩

theorem loop_inv {lib : Xray ℝ} {S : Src ℝ} {D : Descr ℝ} {leak : Bool} {fuel k : Nat} {u : Nat → ℝ} {n p q : Nat} {l : List (Attempt ℝ)}
    (h : Replay.userLoop lib S D leak fuel k u (n + 1) p = .ok (l, q)) :
    ∃ a p' l', attempt lib S D leak fuel k u p = .ok (a, p') ∧ Replay.userLoop lib S D leak fuel k u n p' = .ok (l', q) ∧ l = a :: l' := by
  unfold Replay.userLoop at h
  obtain ⟨x, hx, h⟩ := Out.bind_eq_ok.1 h
  obtain ⟨⟨c, w, P⟩, hy, h⟩ := Out.bind_eq_ok.1 h
  cases P with
  | none => simp at h
  | some P =>
    obtain ⟨⟨l', q'⟩, hr, h⟩ := Out.bind_eq_ok.1 h
    simp only [Out.ok.injEq, Prod.mk.injEq] at h
    obtain ⟨rfl, rfl⟩ := h
    refine ⟨⟨c, x.1.src, P, w⟩, x.2, l', ?_, hr, rfl⟩
    unfold attempt
    rw [hx, Out.bind_ok, hy, Out.bind_ok]

/-- **C113.** A user who generates and launches photons, one by one, for two optics with the same face: the `i`-th photon starts the same for both. -/
theorem same_light {lib lib' : Xray ℝ} {S : Src ℝ} (G : GoodSrc S) {D D' : Descr ℝ} (hF : SameFace S D D') {leak leak' : Bool} {fuel k fuel' k' : Nat} {u : Nat → ℝ}
    (hu : ∀ i, 0 ≤ u i ∧ u i ≤ 1) (hes : S.energies ≠ []) (hb : ∀ e ∈ S.energies, 1 ≤ e ∧ e ≤ 100) {es' : List ℝ} (hes' : es' ≠ []) (hb' : ∀ e ∈ es', 1 ≤ e ∧ e ≤ 100) :
    ∀ (n n' p q q' : Nat) (l l' : List (Attempt ℝ)), Replay.userLoop lib S D leak fuel k u n p = .ok (l, q) →
      Replay.userLoop lib' { S with energies := es' } D' leak' fuel' k' u n' p = .ok (l', q') →
      l.length = n ∧ l'.length = n' ∧ ∀ (i : Nat) (b b' : Attempt ℝ), l[i]? = some b → l'[i]? = some b' → SameStart b b' := by
  have len : ∀ {lib : Xray ℝ} {S : Src ℝ} {D : Descr ℝ} {leak : Bool} {fuel k : Nat} (n p q : Nat) (l : List (Attempt ℝ)),
      Replay.userLoop lib S D leak fuel k u n p = .ok (l, q) → l.length = n := by
    intro lib S D leak fuel k n
    induction n with
    | zero => intro p q l h; injection h with h; injection h with h _; rw [← h]; rfl
    | succ n ih =>
      intro p q l h
      obtain ⟨a, p', l', -, h2, rfl⟩ := loop_inv h
      rw [List.length_cons, ih _ _ _ h2]
  intro n
  induction n with
  | zero =>
    intro n' p q q' l l' h h'
    refine ⟨len _ _ _ _ h, len _ _ _ _ h', ?_⟩
    intro i b b' hb
    have := len _ _ _ _ h
    rw [List.length_eq_zero_iff.1 this] at hb
    simp at hb
  | succ n ih =>
    intro n' p q q' l l' h h'
    refine ⟨len _ _ _ _ h, len _ _ _ _ h', ?_⟩
    intro i b b' hi hi'
    cases n' with
    | zero =>
      have := len _ _ _ _ h'
      rw [List.length_eq_zero_iff.1 this] at hi'
      simp at hi'
    | succ n' =>
      obtain ⟨a, p1, l1, h1, h2, rfl⟩ := loop_inv h
      obtain ⟨a', p1', l1', h1', h2', rfl⟩ := loop_inv h'
      obtain ⟨hs, rfl⟩ := attempt_same G hF hu hes hb hes' hb' h1 h1'
      cases i with
      | zero => simp at hi hi'; subst hi hi'; exact hs
      | succ i => exact (ih n' p1 q q' l1 l1' h2 h2').2.2 i b b' (by simpa using hi) (by simpa using hi')

/-- **C113.** The same for simulations: of two completed ones from the same random numbers, of optics with the same face, the `i`-th photon a thread generates is the
same (the lists of all photons generated by the threads are those of `Replay.reproduced`, from which the reports are made). -/
theorem same_light_simulated {lib lib' : Xray ℝ} {S : Src ℝ} (G : GoodSrc S) {D D' : Descr ℝ} (hF : SameFace S D D') {es' : List ℝ}
    (hes : S.energies ≠ []) (hb : ∀ e ∈ S.energies, 1 ≤ e ∧ e ≤ 100) (hes' : es' ≠ []) (hb' : ∀ e ∈ es', 1 ≤ e ∧ e ≤ 100)
    {a a' : SimArgs ℝ} {omp omp' : Int} {u : Nat → Nat → ℝ} (hu : ∀ t i, 0 ≤ u t i ∧ u t i ≤ 1) {fuel k fuel' k' : Nat} {asg asg' : Nat → List Nat} {m m' : Nat} {s s' : St ℝ}
    (hr : Reach (simCfg lib S D a omp u fuel k) asg m s) (hf : s.finished (simCfg lib S D a omp u fuel k))
    (hr' : Reach (simCfg lib' { S with energies := es' } D' a' omp' u fuel' k') asg' m' s') (hf' : s'.finished (simCfg lib' { S with energies := es' } D' a' omp' u fuel' k'))
    (t : Nat) (ht : t < (threadsUsed a.maxThreads omp).toNat) (ht' : t < (threadsUsed a'.maxThreads omp').toNat) :
    ∀ (i : Nat) (b b' : Attempt ℝ), ((s.thr t).hist.map Prod.snd)[i]? = some b → ((s'.thr t).hist.map Prod.snd)[i]? = some b' → SameStart b b' := by
  obtain ⟨p, hp⟩ := (final_of_finished hr hf).runs t ht
  obtain ⟨p', hp'⟩ := (final_of_finished hr' hf').runs t ht'
  exact (same_light G hF (hu t) hes hb hes' hb' _ _ 0 p p' _ _ (Replay.loop_thread hp) (Replay.loop_thread hp')).2.2

/-! ## At the entrance -/

theorem value_at_start {p : Profile ℝ} (g : Grid p) (v : Nat → ℝ) : ValueAt p v 0 (v 0) := by
  refine ⟨0, g.two, g.start.le, ?_, ?_⟩
  · have := g.inc 0 g.two; rw [g.start] at this; exact this.le
  · unfold linAt; rw [g.start]; ring

/-- what a launch of a photon that starts in the entrance plane returns: -2 off the optic, 2 on the glass, something else in an opening -/
theorem code_at_entrance {lib : Xray ℝ} {D : Descr ℝ} {leak : Bool} {fuel k : Nat} {P : Photon ℝ} {es : List ℝ}
    (hes : es ≠ []) (hb : ∀ e ∈ es, 1 ≤ e ∧ e ≤ 100) (g : Grid D.prof) (hn : 1 ≤ D.n_cap) (hext : 0 < D.prof.ext 0) (h0 : P.startC.z = 0)
    {c : Int} {o : WOut ℝ} {P' : Option (Photon ℝ)} (h : launch lib (some D) leak fuel k (some P) (some es) true = .ok (c, o, P')) :
    (c = -2 ↔ Outside D.n_cap (D.prof.ext 0) P.startC) ∧
    (c = 2 ↔ ¬ Outside D.n_cap (D.prof.ext 0) P.startC ∧ InGlass D.n_cap (D.prof.ext 0) (D.prof.cap 0) P.startC) := by
  have hz : P.startC.z ≤ D.prof.z D.prof.nmax := by
    rw [h0, ← g.start]
    exact (strict_of_step g.inc (show 0 < D.prof.nmax from g.two) le_rfl).le
  have vR : ValueAt D.prof D.prof.ext P.startC.z (D.prof.ext 0) := by rw [h0]; exact value_at_start g _
  have vr : ValueAt D.prof D.prof.cap P.startC.z (D.prof.cap 0) := by rw [h0]; exact value_at_start g _
  have h2 := launch_outside_iff lib D leak fuel k P es hes hb g hn h0.ge hz _ vR hext c o P' h
  refine ⟨h2, ?_⟩
  by_cases ho : Outside D.n_cap (D.prof.ext 0) P.startC
  · have := h2.2 ho
    constructor
    · intro hc; omega
    · intro hc; exact absurd ho hc.1
  · obtain ⟨k1, k2, -, -⟩ := launch_glass lib D leak fuel k P es hes hb g hn h0.ge hz _ _ vR vr hext ho c o P' h
    exact ⟨fun hc => ⟨ho, k1 hc⟩, fun hc => k2 hc.2 (.inr h0)⟩

/-- **C113.** If also the number of capillaries and the radius of their openings at the entrance are the same, a photon that meets the glass of the face, or misses
the optic, does so in both: from the same random numbers both optics have the same photons at their entrance. -/
theorem same_entrance {lib lib' : Xray ℝ} {S : Src ℝ} (G : GoodSrc S) {D D' : Descr ℝ} (g : Grid D.prof) (g' : Grid D'.prof) (hn : 1 ≤ D.n_cap)
    (hN : D'.n_cap = D.n_cap) (hE : D'.prof.ext 0 = D.prof.ext 0) (hC : D'.prof.cap 0 = D.prof.cap 0) (hpos : 0 < D.prof.ext 0)
    {leak leak' : Bool} {fuel k fuel' k' : Nat} {u : Nat → ℝ}
    (hu : ∀ i, 0 ≤ u i ∧ u i ≤ 1) (hes : S.energies ≠ []) (hb : ∀ e ∈ S.energies, 1 ≤ e ∧ e ≤ 100) {es' : List ℝ} (hes' : es' ≠ []) (hb' : ∀ e ∈ es', 1 ≤ e ∧ e ≤ 100) :
    ∀ (n n' p q q' : Nat) (l l' : List (Attempt ℝ)), Replay.userLoop lib S D leak fuel k u n p = .ok (l, q) →
      Replay.userLoop lib' { S with energies := es' } D' leak' fuel' k' u n' p = .ok (l', q') →
      ∀ (i : Nat) (b b' : Attempt ℝ), l[i]? = some b → l'[i]? = some b' → SameStart b b' ∧ (b.code = -2 ↔ b'.code = -2) ∧ (b.code = 2 ↔ b'.code = 2) := by
  have hF : SameFace S D D' := by
    by_cases h : nShells (α := ℝ) D.n_cap = 0
    · exact .inr (.inl ⟨h, by rw [hN]; exact h, hC.symm⟩)
    · exact .inr (.inr ⟨h, by rw [hN]; exact h, hE.symm⟩)
  have key : ∀ {lib : Xray ℝ} {S : Src ℝ} (_ : GoodSrc S) {D : Descr ℝ} (_ : Grid D.prof) (_ : 1 ≤ D.n_cap) (_ : 0 < D.prof.ext 0) {leak : Bool} {fuel k : Nat}
      (_ : S.energies ≠ []) (_ : ∀ e ∈ S.energies, 1 ≤ e ∧ e ≤ 100) (n p q : Nat) (l : List (Attempt ℝ)), Replay.userLoop lib S D leak fuel k u n p = .ok (l, q) →
      ∀ (i : Nat) (b : Attempt ℝ), l[i]? = some b → (b.code = -2 ↔ Outside D.n_cap (D.prof.ext 0) b.ph.startC) ∧
        (b.code = 2 ↔ ¬ Outside D.n_cap (D.prof.ext 0) b.ph.startC ∧ InGlass D.n_cap (D.prof.ext 0) (D.prof.cap 0) b.ph.startC) := by
    intro lib S G D g hn hpos leak fuel k hes hb n
    induction n with
    | zero => intro p q l h i b hi; injection h with h; injection h with h _; rw [← h] at hi; simp at hi
    | succ n ih =>
      intro p q l h i b hi
      obtain ⟨a, p1, l1, h1, h2, rfl⟩ := loop_inv h
      cases i with
      | succ i => exact ih p1 q l1 h2 i b (by simpa using hi)
      | zero =>
        simp at hi
        subst hi
        unfold attempt at h1
        obtain ⟨⟨x, q'⟩, hx, h1⟩ := Out.bind_eq_ok.1 h1
        obtain ⟨⟨c, w, P⟩, hy, h1⟩ := Out.bind_eq_ok.1 h1
        cases P with
        | none => simp at h1
        | some P =>
          simp only [Out.ok.injEq, Prod.mk.injEq] at h1
          obtain ⟨rfl, rfl⟩ := h1
          obtain ⟨hz, -, hd, -⟩ := source_photon_geometry S G D u hu fuel p x q' hx
          obtain ⟨s1, -, -⟩ := launch_start lib D leak fuel k x.photon S.energies hes hb (by rw [hd]; exact one_ne_zero) c w P hy
          have := code_at_entrance hes hb g hn hpos hz hy
          simp only
          rw [s1]
          exact this
  intro n n' p q q' l l' h h' i b b' hi hi'
  have hs := (same_light G hF hu hes hb hes' hb' n n' p q q' l l' h h').2.2 i b b' hi hi'
  obtain ⟨k1, k2⟩ := key G g hn hpos hes hb n p q l h i b hi
  obtain ⟨k1', k2'⟩ := key (S := { S with energies := es' }) { G with } g' (by rw [hN]; exact hn) (by rw [hE]; exact hpos) hes' hb' n' p q' l' h' i b' hi'
  rw [hN, hE, ← hs.2.1] at k1'
  rw [hN, hE, hC, ← hs.2.1] at k2'
  exact ⟨hs, k1.trans k1'.symm, k2.trans k2'.symm⟩

/-- without leak calculation, what can be repeated for one optic can be repeated for the other -/
theorem loop_other {lib lib' : Xray ℝ} {S : Src ℝ} {D D' : Descr ℝ} (hF : SameFace S D D') {es' : List ℝ} (G' : GoodSetup lib' { S with energies := es' } D')
    {leak : Bool} {fuel k k' : Nat} {u : Nat → ℝ} (hu : ∀ i, 0 ≤ u i ∧ u i ≤ 1) :
    ∀ (n p q : Nat) (l : List (Attempt ℝ)), Replay.userLoop lib S D leak fuel k u n p = .ok (l, q) →
      ∃ l', Replay.userLoop lib' { S with energies := es' } D' false fuel (k' + 1) u n p = .ok (l', q) := by
  intro n
  induction n with
  | zero => intro p q l h; injection h with h; injection h with _ h; subst h; exact ⟨[], rfl⟩
  | succ n ih =>
    intro p q l h
    obtain ⟨a, p1, l1, h1, h2, -⟩ := loop_inv h
    obtain ⟨l', hl'⟩ := ih p1 q l1 h2
    unfold attempt at h1
    obtain ⟨⟨x, q'⟩, hx, h1⟩ := Out.bind_eq_ok.1 h1
    obtain ⟨⟨c, w, P⟩, hy, h1⟩ := Out.bind_eq_ok.1 h1
    cases P with
    | none => simp at h1
    | some P =>
      simp only [Out.ok.injEq, Prod.mk.injEq] at h1
      obtain ⟨-, rfl⟩ := h1
      have hx' : getPhoton { S with energies := es' } D' u fuel p = .ok (x, q') := by rw [photon_same hF]; exact hx
      obtain ⟨h0, -⟩ := source_photon_geometry _ G'.src D' u hu fuel p x q' hx'
      obtain ⟨c, o, P', hL⟩ := launch_noleak_returns lib' D' G'.grid fuel k' x.photon h0.ge es' G'.comp
      have ha : attempt lib' { S with energies := es' } D' false fuel (k' + 1) u p = .ok (⟨c, x.src, P', o⟩, q') := by
        unfold attempt
        rw [hx', Out.bind_ok]
        show (launch lib' (some D') false fuel (k' + 1) (some x.photon) (some es') true >>= _) = _
        rw [hL, Out.bind_ok]
      exact ⟨_, Replay.loop_cons ha hl'⟩

/-! ## A concrete case -/

/-- the optic of C52 with rougher, denser glass and wider behind the entrance -/
noncomputable def yD : Descr ℝ := { zD with sig_rough := 5, density := 7, prof := { zD.prof with cap := fun i => if i = 0 then zD.prof.cap 0 else 1/100 } }

theorem y_setup : GoodSetup zLib { zSrc with energies := [10, 20] } yD where
  src := { z_setup.src with }
  grid := ⟨z_setup.grid.two, z_setup.grid.start, z_setup.grid.inc⟩
  caps := z_setup.caps
  ext0 := z_setup.ext0
  comp := by
    show scatfRejects yD [10, 20] = false
    rw [scatf_accepts_iff]
    simp [yD, zD]
    norm_num
  cs := by intro z e; simp [zLib]

/-- the hypotheses are met by both optics, with one and with two energies, for any number of photons; all photons are the same for both -/
example (n : Nat) : ∃ l l' q, Replay.userLoop zLib zSrc zD false 1 1 More.mU n 0 = .ok (l, q) ∧
    Replay.userLoop zLib { zSrc with energies := [10, 20] } yD false 1 1 More.mU n 0 = .ok (l', q) ∧ l.length = n ∧ l'.length = n ∧
    ∀ (i : Nat) (b b' : Attempt ℝ), l[i]? = some b → l'[i]? = some b' → SameStart b b' ∧ (b.code = -2 ↔ b'.code = -2) ∧ (b.code = 2 ↔ b'.code = 2) := by
  have hF : SameFace zSrc zD yD := .inr (.inl ⟨nShells_one, nShells_one, rfl⟩)
  have hu : ∀ i, 0 ≤ More.mU i ∧ More.mU i ≤ 1 := fun i => ⟨(More.mU_unit i).1, (More.mU_unit i).2.le⟩
  have he : ∀ e ∈ zSrc.energies, 1 ≤ e ∧ e ≤ 100 := by simp [zSrc]; norm_num
  have he' : ∀ e ∈ ([10, 20] : List ℝ), 1 ≤ e ∧ e ≤ 100 := by simp; norm_num
  have loop : ∀ m p, p % 6 = 0 → ∃ l q, Replay.userLoop zLib zSrc zD false 1 1 More.mU m p = .ok (l, q) := by
    intro m
    induction m with
    | zero => exact fun p _ => ⟨_, _, rfl⟩
    | succ m ih =>
      intro p hp
      obtain ⟨a, h1, -⟩ := More.m_pass p hp
      obtain ⟨l, q, h2⟩ := ih (p + 6) (by omega)
      exact ⟨_, _, Replay.loop_cons h1 h2⟩
  obtain ⟨l, q, h⟩ := loop n 0 rfl
  obtain ⟨l', h'⟩ := loop_other hF y_setup (k' := 0) hu n 0 q l h
  obtain ⟨n1, n2, -⟩ := same_light z_setup.src hF hu (by simp [zSrc]) he (by simp) he' n n 0 q q l l' h h'
  exact ⟨l, l', q, h, h', n1, n2, same_entrance z_setup.src z_setup.grid y_setup.grid z_setup.caps rfl rfl rfl z_setup.ext0 hu (by simp [zSrc]) he (by simp) he'
    n n 0 q q l l' h h'⟩

end Light
end Polycap
