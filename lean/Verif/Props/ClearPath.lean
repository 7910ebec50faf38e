import Verif.Props.LaunchFindings

/-!
# C24: a transmitted photon has a clear path to the exit

When the tracing loop ends because no further wall interaction was found, the rest of the photon's line meets no
wall of its capillary, up to the tolerances of the code (10⁻⁵ behind a profile point; walls crossed from the outside).
-/
namespace Polycap
open CNum

/-- the photon line through `c` with direction `d` meets the wall of segment `j` at height `z` -/
def Crossing (D : Descr ℝ) (capx capy : Nat → ℝ) (c d : V3 ℝ) (j : Nat) (z : ℝ) : Prop :=
  D.prof.z j ≤ z ∧ z ≤ D.prof.z (j + 1) ∧
  OnWall (axisPt D capx capy j) (axisPt D capx capy (j + 1)) (D.prof.cap j) (D.prof.cap (j + 1)) (lineAt c d z)

/-- `n` is a normal of the wall of segment `j` at `v` as far as the axis of the capillary is parallel to that of the optic -/
def WallNormal (D : Descr ℝ) (capx capy : Nat → ℝ) (j : Nat) (v n : V3 ℝ) : Prop :=
  0 < D.prof.cap j → 0 < D.prof.cap (j + 1) → capx (j + 1) = capx j → capy (j + 1) = capy j →
    dot n ⟨-(v.y - capy j), v.x - capx j, 0⟩ = 0 ∧
    dot n ⟨(v.x - capx j) * (D.prof.cap (j + 1) - D.prof.cap j), (v.y - capy j) * (D.prof.cap (j + 1) - D.prof.cap j),
      linAt (D.prof.z j) (D.prof.z (j + 1)) (D.prof.cap j) (D.prof.cap (j + 1)) v.z * (D.prof.z (j + 1) - D.prof.z j)⟩ = 0 ∧
    0 < dot n ⟨v.x - capx j, v.y - capy j, 0⟩

theorem traceSearch_ret' {α : Type} [CNum α] (D : Descr α) (capx capy : Nat → α) (P : Photon α) :
    ∀ (k i : Nat) (cur nrm : V3 α) (c : Int), traceSearch D capx capy P k i cur nrm = .ret c → c = -1 ∨ c = -3 := by
  intro k
  induction k with
  | zero => intro i cur nrm c h; simp [traceSearch] at h
  | succ k ih =>
    intro i cur nrm c h
    unfold traceSearch at h
    simp only at h
    split at h
    · injection h with h; simp [← h]
    generalize (if (acos (scalar _ _ : α) >. mpi /. lit 2 || acos (scalar _ _ : α) <. lit 0) = true then (-5 : Int) else _) = ie at h
    by_cases h1 : ie = 1
    · simp only [h1, if_true] at h
      split at h
      · split at h
        · injection h with h; simp [← h]
        · simp at h
      · split at h
        · injection h with h; simp [← h]
        · simp at h
    · rw [if_neg h1] at h
      split at h
      · injection h with h; simp [← h]
      · exact ih _ _ _ _ h

theorem lineAt_atGrid (p : Profile ℝ) (c d : V3 ℝ) (i : Nat) (hd : 0 < d.z) (z : ℝ) :
    lineAt (atGrid p c d i) d z = lineAt c d z := by
  rw [atGrid_eq]
  unfold lineAt
  simp only [V3.mk.injEq, and_true]
  constructor <;> (field_simp; ring)

theorem acos_gate_small {c : ℝ} (h : (acos c >. mpi /. lit 2 || acos c <. lit 0) = true) : c < 1 / 10 ^ 19 := by
  have e2 : ((2:ℚ):ℝ) = 2 := by norm_num
  have e0 : ((0:ℚ):ℝ) = 0 := by norm_num
  simp only [real_acos, real_div, real_lit, e2, e0, gt, real_lt, Bool.or_eq_true, decide_eq_true_eq] at h
  rcases h with h | h
  · by_contra hc
    push Not at hc
    have h1 : Real.arccos c ≤ Real.arccos (1 / 10 ^ 19) := Real.arccos_le_arccos hc
    rw [Real.arccos_eq_pi_div_two_sub_arcsin (1 / 10 ^ 19)] at h1
    have h2 : (1:ℝ) / 10 ^ 19 ≤ Real.arcsin (1 / 10 ^ 19) := by
      have h3 := Real.sin_arcsin (x := 1 / 10 ^ 19) (by norm_num) (by norm_num)
      calc (1:ℝ) / 10 ^ 19 = Real.sin (Real.arcsin (1 / 10 ^ 19)) := h3.symm
        _ ≤ _ := Real.sin_le (Real.arcsin_nonneg.mpr (by norm_num))
    have h4 := Real.pi_lt_d20
    simp only [mpi, real_lit] at h
    norm_num at h h1 h2 h4
    linarith
  · exact absurd h (not_lt.mpr (Real.arccos_nonneg _))

theorem traceSearch_clear (D : Descr ℝ) (capx capy : Nat → ℝ) (P : Photon ℝ) (hd : 0 < P.exitD.z) :
    ∀ (k i : Nat) (cur nrm : V3 ℝ), P.exitC.z ≤ cur.z → (cur.z = P.exitC.z ∨ cur.z ≤ D.prof.z i) →
    (∀ j, i ≤ j → j < i + k → 0 ≤ D.prof.z j ∧ D.prof.z j < D.prof.z (j + 1) ∧ 0 ≤ D.prof.cap j ∧ 0 ≤ D.prof.cap (j + 1)) →
    traceSearch D capx capy P k i cur nrm = .miss →
    ∀ j z, i ≤ j → j < i + k →
      genCoeff (axisPt D capx capy j) (axisPt D capx capy (j + 1)) (D.prof.cap j) (D.prof.cap (j + 1)) P.exitD ≠ 0 →
      Crossing D capx capy P.exitC P.exitD j z → P.exitC.z + 1 / 10 ^ 5 ≤ z →
      ∃ z', Crossing D capx capy P.exitC P.exitD j z' ∧ z' ≤ z ∧ P.exitC.z + 1 / 10 ^ 5 ≤ z' ∧
        (z' < D.prof.z j + 1 / 10 ^ 5 ∨
         ∃ n, WallNormal D capx capy j (lineAt P.exitC P.exitD z') n ∧ dot n P.exitD < 1 / 10 ^ 19) := by
  intro k
  induction k with
  | zero => intro i cur nrm _ _ _ _ j z h1 h2; omega
  | succ k ih =>
    intro i cur nrm hc hc' hprof h j z hj1 hj2 hg hz hz5
    unfold traceSearch at h
    simp only at h
    split at h
    · simp at h
    generalize hs : segment (⟨capx i, capy i, D.prof.z i⟩ : V3 ℝ) ⟨capx (i + 1), capy (i + 1), D.prof.z (i + 1)⟩ (D.prof.cap i)
      (D.prof.cap (i + 1)) (atGrid D.prof P.exitC P.exitD i) (atGrid D.prof P.exitC P.exitD (i + 1)) P.exitD cur nrm = s at h
    obtain ⟨s1, s2, s3⟩ := s
    simp only at h
    have hcur : P.exitC.z ≤ s2.z ∧ (s2.z = P.exitC.z ∨ s2.z ≤ D.prof.z (i + 1)) := by
      by_cases h1 : s1 = 1
      · subst h1
        obtain ⟨-, -, a, -, b, -⟩ := segment_success hs
        exact ⟨by linarith, Or.inr a⟩
      · have := segment_failure_keeps_position _ _ _ _ _ _ _ _ _ (by rw [hs]; exact h1)
        rw [hs] at this
        simp only at this
        rw [this]
        have := (hprof i (le_refl _) (by omega)).2.1
        exact ⟨hc, hc'.imp id (fun h => by linarith)⟩
    -- the search goes on
    have hrest : traceSearch D capx capy P k (i + 1) s2 s3 = .miss ∧
        (s1 ≠ 1 ∨ (acos (scalar s3 P.exitD) >. mpi /. lit 2 || acos (scalar s3 P.exitD) <. lit 0) = true) := by
      by_cases hgt : (acos (scalar s3 P.exitD) >. mpi /. lit 2 || acos (scalar s3 P.exitD) <. lit 0) = true
      · rw [if_pos hgt, if_neg (by decide)] at h
        split at h
        · simp at h
        exact ⟨h, Or.inr hgt⟩
      · rw [if_neg hgt] at h
        by_cases h1 : s1 = 1
        · rw [if_pos h1] at h
          split at h
          · split at h <;> simp at h
          · split at h <;> simp at h
        · rw [if_neg h1] at h
          split at h
          · simp at h
          exact ⟨h, Or.inl h1⟩
    obtain ⟨hmiss, hwhy⟩ := hrest
    by_cases hij : j = i
    · subst hij
      obtain ⟨p1, p2, p3, p4⟩ := hprof j (le_refl _) (by omega)
      obtain ⟨z1, z2, z3⟩ := hz
      by_cases h1 : s1 = 1
      · subst h1
        have hgate := (hwhy.resolve_left (by simp))
        obtain ⟨l, -, a, b, c5, w, least⟩ := segment_sound _ _ _ _ _ _ _ _ _ _ _ hd hg hs
        rw [lineAt_atGrid _ _ _ _ hd] at l
        have a' : D.prof.z j ≤ s2.z := a
        have b' : s2.z ≤ D.prof.z (j + 1) := b
        by_cases hle : s2.z ≤ z
        · refine ⟨s2.z, ⟨a, b, ?_⟩, hle, by linarith, Or.inr ⟨s3, ?_, ?_⟩⟩
          · rw [← l]; exact w
          · intro h0 h1' hx hy
            rw [← l]
            exact segment_normal_orthogonal _ _ _ _ _ _ _ _ _ _ _ hd hg h0 h1' hx hy hs
          · rw [← scalar_real]; exact acos_gate_small hgate
        · refine ⟨z, ⟨z1, z2, z3⟩, le_refl _, hz5, Or.inl ?_⟩
          by_contra hcon
          push Not at hcon
          apply hle
          apply least z z1 z2 _ (by rw [lineAt_atGrid _ _ _ _ hd]; exact z3)
          rcases hc' with h | h
          · rw [h]; exact hz5
          · linarith
      · by_cases hk3 : cur.z + 1 / 10 ^ 5 ≤ z
        · have hrej : segRejects (⟨capx j, capy j, D.prof.z j⟩ : V3 ℝ) ⟨capx (j + 1), capy (j + 1), D.prof.z (j + 1)⟩ (D.prof.cap j)
              (D.prof.cap (j + 1)) (atGrid D.prof P.exitC P.exitD j) (atGrid D.prof P.exitC P.exitD (j + 1)) P.exitD = false := by
            rw [segRejects_false]
            exact ⟨p1, by simp only; linarith, p3, p4, hd.le, rfl, rfl, p2⟩
          obtain ⟨z', w1, w2, w3, w4, w5⟩ := segment_complete _ _ _ _ _ _ _ cur nrm hd hg hrej
            (fun hh => h1 ((congrArg Prod.fst hs).symm.trans hh)) z z1 z2 hk3
            (by rw [lineAt_atGrid _ _ _ _ hd]; exact z3)
          rw [lineAt_atGrid _ _ _ _ hd] at w5
          refine ⟨z', ⟨w1, by linarith, w5⟩, w2, by linarith, Or.inl ?_⟩
          have : (atGrid D.prof P.exitC P.exitD j).z = D.prof.z j := rfl
          rw [this] at w4
          have : (1:ℝ) / 10 ^ 10 < 1 / 10 ^ 5 := by norm_num
          linarith
        · refine ⟨z, ⟨z1, z2, z3⟩, le_refl _, hz5, Or.inl ?_⟩
          rcases hc' with h | h
          · rw [h] at hk3; exact absurd hz5 hk3
          · linarith
    · exact ih (i + 1) s2 s3 hcur.1 hcur.2 (fun j h1 h2 => hprof j (by omega) (by omega)) hmiss j z (by omega) (by omega) hg hz hz5

/-- the tolerances within which a wall may be missed -/
def ClearBeyond (D : Descr ℝ) (capx capy : Nat → ℝ) (c d : V3 ℝ) : Prop :=
  ∀ j z, j < D.prof.nmax →
    genCoeff (axisPt D capx capy j) (axisPt D capx capy (j + 1)) (D.prof.cap j) (D.prof.cap (j + 1)) d ≠ 0 →
    Crossing D capx capy c d j z → c.z + 1 / 10 ^ 5 ≤ z →
    ∃ z', Crossing D capx capy c d j z' ∧ z' ≤ z ∧ c.z + 1 / 10 ^ 5 ≤ z' ∧
      (z' < D.prof.z j + 1 / 10 ^ 5 ∨ ∃ n, WallNormal D capx capy j (lineAt c d z') n ∧ dot n d < 1 / 10 ^ 19)

theorem segId_below (z : Nat → ℝ) (init : Nat) (zz : ℝ) (n : Nat) (h0 : z 0 ≤ zz) : 
    z (segIdFrom z init zz (n + 1)) ≤ zz := by
  rcases segId_spec z init zz (n + 1) with ⟨a, b, c⟩ | ⟨a, b⟩
  · simpa using b
  · have := b 0 (by omega)
    simp only [real_le, decide_eq_false_iff_not, not_le] at this
    linarith

/-- One tracing call: a reflection leaves the index at or below the photon; -2 means a clear path. -/
theorem trace_clear (D : Descr ℝ) (leak : Bool) (fuel kk : Nat) (capx capy : Nat → ℝ) (g : Grid D.prof)
    (hcap : ∀ i ≤ D.prof.nmax, 0 ≤ D.prof.cap i) (ix : Nat) (P : Photon ℝ) (hu : dot P.exitD P.exitD = 1)
    (h0 : 0 ≤ P.exitC.z) (hix : D.prof.z ix ≤ P.exitC.z) (hle : ix ≤ D.prof.nmax) (c : Int) (ix' : Nat) (P' : Photon ℝ)
    (h : trace D leak fuel kk capx capy ix P = .ok (c, ix', P')) :
    (c = 1 → 0 ≤ P'.exitC.z ∧ D.prof.z ix' ≤ P'.exitC.z ∧ ix' ≤ D.prof.nmax) ∧
    (c = -2 → 0 < P'.exitD.z → ClearBeyond D capx capy P'.exitC P'.exitD) := by
  have hv : vnorm P.exitD = P.exitD := vnorm_unit _ hu
  have hcode : c = 1 → 0 ≤ P'.exitC.z := by
    intro hc
    rcases (trace_moved D leak fuel kk capx capy ix P (by rw [hu]; norm_num) c ix' P' h).flight hu with ⟨-, -, -, -, e⟩ | ⟨n, i, f, -⟩
    · exact absurd hc e
    · have := f.adv
      linarith [show (0:ℝ) < 1 / 10 ^ 5 by norm_num]
  unfold trace capilTrace at h
  simp only [hv] at h
  split at h
  · rename_i code hs
    injection h with h; injection h with h1 h; injection h with h2 h3
    subst h1 h3
    have : code = -1 ∨ code = -3 := traceSearch_ret' D capx capy _ _ _ _ _ _ hs
    exact ⟨by omega, by omega⟩
  · rename_i hs
    injection h with h; injection h with h1 h; injection h with h2 h3
    subst h1 h3
    refine ⟨by omega, fun _ hz j z hj hg hcr hz5 => ?_⟩
    simp only at hcr hz5 hz hg ⊢
    by_cases hlt : j < ix
    · exfalso
      have h1 : D.prof.z (j + 1) ≤ D.prof.z ix := mono_of_step g.inc (by omega) hle
      have := hcr.2.1
      linarith [show (0:ℝ) < 1 / 10 ^ 5 by norm_num]
    · refine traceSearch_clear D capx capy { P with exitD := P.exitD, startD := vnorm P.startD } hz _ ix P.exitC _ (le_refl _) (Or.inl rfl) ?_ hs j z (by omega) (by omega) hg hcr hz5
      intro i hi1 hi2
      refine ⟨?_, g.inc i (by omega), hcap i (by omega), hcap (i + 1) (by omega)⟩
      rw [← g.start]; exact mono_of_step g.inc (by omega) (by omega)
  · unfold traceHit at h
    simp only at h
    split at h
    · injection h with h; injection h with h1 h; injection h with h2 h3
      exact ⟨by omega, by omega⟩
    split at h
    · simp at h
    rename_i v n ca hs _ hub
    split at h
    · injection h with h; injection h with h1 h; injection h with h2 h3
      exact ⟨by omega, by omega⟩
    split at h
    · injection h with h; injection h with h1 h; injection h with h2 h3
      exact ⟨by omega, by omega⟩
    rw [Out.bind_eq_ok] at h
    obtain ⟨y, hy, h⟩ := h
    obtain ⟨f, -, hyc⟩ := reflect_frame _ _ _ _ _ _ y.1 y.2 hy
    injection h with h
    unfold afterReflect at h
    have hC := f.exitC
    split at h
    · injection h with h1 h; injection h with h2 h3
      subst h3
      refine ⟨fun hc => ⟨hcode hc, ?_, by omega⟩, by omega⟩
      have hvz := hcode hc
      simp only [hC] at hvz ⊢
      rw [← h2]
      obtain ⟨m, hm⟩ : ∃ m, D.prof.nmax = m + 1 := ⟨D.prof.nmax - 1, by have := g.two; omega⟩
      rw [hm]
      exact segId_below _ _ _ _ (by rw [g.start]; exact hvz)
    · split at h
      · injection h with h1 h; injection h with h2 h3
        exact ⟨by omega, by omega⟩
      · injection h with h1 h; injection h with h2 h3
        exact ⟨by omega, by omega⟩

theorem traceLoop_clear (D : Descr ℝ) (leak : Bool) (fuel kk : Nat) (capx capy : Nat → ℝ) (g : Grid D.prof)
    (hcap : ∀ i ≤ D.prof.nmax, 0 ≤ D.prof.cap i) :
    ∀ (k : Nat) (iesc : Int) (ix : Nat) (P : Photon ℝ) (c : Int) (ix' : Nat) (P' : Photon ℝ), dot P.exitD P.exitD = 1 →
      0 ≤ P.exitC.z → D.prof.z ix ≤ P.exitC.z → ix ≤ D.prof.nmax → iesc ≠ -2 →
      traceLoop (trace D leak fuel kk capx capy) k iesc ix P = .ok (c, ix', P') →
      (c = -2 → 0 < P'.exitD.z → ClearBeyond D capx capy P'.exitC P'.exitD) ∧
      (c = 1 → iesc = 1 ∧ k = 0 ∨ P'.i_refl = P.i_refl + k) := by
  intro k
  induction k with
  | zero =>
    intro iesc ix P c ix' P' hu h0 h1 h2 hi h
    simp only [traceLoop] at h
    injection h with h; injection h with h1 h; injection h with h2 h3; subst h1 h3
    exact ⟨fun h => absurd h hi, fun h => Or.inl ⟨h, rfl⟩⟩
  | succ k ih =>
    intro iesc ix P c ix' P' hu h0 h1 h2 hi h
    unfold traceLoop at h
    rw [Out.bind_eq_ok] at h
    obtain ⟨⟨c1, ix1, P1⟩, ht, h⟩ := h
    simp only at h
    obtain ⟨t1, t2⟩ := trace_clear D leak fuel kk capx capy g hcap ix P hu h0 h1 h2 c1 ix1 P1 ht
    by_cases hc : c1 = 1
    · rw [if_neg (by simp [hc])] at h
      obtain ⟨u1, u2, u3⟩ := t1 hc
      rcases (trace_moved D leak fuel kk capx capy ix P (by rw [hu]; norm_num) c1 ix1 P1 ht).flight hu with ⟨-, -, -, -, e⟩ | ⟨n, i, -, -, ⟨e, -, -⟩ | ⟨-, e3, -, e5⟩⟩
      · exact absurd hc e
      · exact absurd hc e
      · obtain ⟨w1, w2⟩ := ih _ _ _ _ _ _ e3 u1 u2 u3 (by omega) h
        refine ⟨w1, fun hc' => Or.inr ?_⟩
        rcases w2 hc' with ⟨-, rfl⟩ | w
        · simp only [traceLoop] at h
          injection h with h; injection h with h1 h; injection h with h2 h3; subst h3
          rw [e5]; push_cast; ring
        · rw [w, e5]; push_cast; ring
    · rw [if_pos hc] at h
      injection h with h; injection h with h1 h; injection h with h2 h3; subst h1 h3
      exact ⟨t2, fun h => absurd h hc⟩

/-- **C24**, what 1 means for a photon launched in a capillary: either it was reflected as many times as the profile has
points (`nmax + 1` – then it may be anywhere, see `launch_transmitted_early`), or – as long as it moves downstream – its
line from its last position meets no wall of its capillary up to the end of the optic, up to the tolerances of
`ClearBeyond`. -/
theorem launch_transmitted_clear_partial (lib : Xray ℝ) (D : Descr ℝ) (leak : Bool) (fuel k : Nat) (P : Photon ℝ) (es : List ℝ)
    (hes : es ≠ []) (hb : ∀ e ∈ es, 1 ≤ e ∧ e ≤ 100) (hd : dot P.startD P.startD ≠ 0) (g : Grid D.prof)
    (hcap : ∀ i ≤ D.prof.nmax, 0 ≤ D.prof.cap i) (h0 : 0 ≤ P.startC.z) (ws : List ℝ) (P' : Photon ℝ)
    (h : launch lib (some D) leak fuel k (some P) (some es) true = .ok (1, .filled ws, some P')) :
    P'.i_refl = D.prof.nmax + 1 ∨
    ∃ qr, launchCap D P.startC = some qr ∧ (0 < P'.exitD.z → ClearBeyond D (axX D qr) (axY D qr) P'.exitC P'.exitD) := by
  obtain ⟨Q, hQ, he⟩ := launch_ended hes hb h
  injection hQ with hQ; subst hQ
  have h1 := vnorm_dot _ hd
  have hdir : (launchInit lib D es P).exitD = vnorm P.startD := by
    show vnorm (vnorm P.startD) = _
    exact vnorm_unit _ h1
  generalize hc1 : (1 : Int) = c1 at he
  generalize hc2 : WOut.filled ws = o at he
  cases he with
  | outside => omega
  | glass => omega
  | front => omega
  | within qr hc hw hl hz hz' w hx c o P' hy =>
    have hcc := launchWall_codes _ _ _ _ _ _ _ _ _ hy
    rw [← hc2] at hcc; simp at hcc
  | inside qr hc hw c o P' hy =>
    subst hc1
    obtain ⟨iesc, ix, Q', ht, -, -, -, k3, -, rfl⟩ := launchInside_inv _ _ _ _ _ _ _ _ _ hy
    have hix : segIdFrom D.prof.z 0 (launchInit lib D es P).startC.z (D.prof.nmax + 1) < D.prof.nmax + 1 := segId_lt _ _ _ _ (by omega)
    have hbl : D.prof.z (segIdFrom D.prof.z 0 (launchInit lib D es P).startC.z (D.prof.nmax + 1)) ≤ P.startC.z :=
      segId_below _ _ _ _ (by rw [g.start]; exact h0)
    obtain ⟨t1, t2⟩ := traceLoop_clear D leak fuel k _ _ g hcap (D.prof.nmax + 1) 0 _ _ _ _ _ (by rw [hdir]; exact h1) h0
      hbl (by omega) (by decide) ht
    rcases k3.mpr rfl with e | e
    · left
      rcases t2 e with ⟨e', -⟩ | e'
      · simp at e'
      · rw [show (finish Q').i_refl = Q'.i_refl from rfl, e']
        simp [launchInit]
    · right
      exact ⟨qr, hc, t1 e⟩

/-! ## The hypotheses of the launch theorems are met -/

/-- a launch with two reflections meets the hypotheses of `launch_path`, `launch_travel`, `launch_travel_mono`,
`launch_weights`, `launch_budget`, `launch_absorbed_iff`, `launch_start`, `launch_repeatable_partial` -/
example : ∃ (P P' : Photon ℝ) (ws : List ℝ), ([10] : List ℝ) ≠ [] ∧ (∀ e ∈ ([10] : List ℝ), 1 ≤ e ∧ e ≤ 100) ∧ dot P.startD P.startD ≠ 0 ∧
    Grid zD.prof ∧ P.startC.z ≤ zD.prof.z zD.prof.nmax ∧ (∀ z e, 0 ≤ zLib.csTotal z e) ∧ scatfRejects zD [10] = false ∧
    launch zLib (some zD) false 0 1 (some P) (some [10]) true = .ok (1, .filled ws, some P') ∧ P'.i_refl = 2 := by
  obtain ⟨P1, h1, -, -, -, -, a1, -⟩ := z_launch 0 0 (exP ⟨0, 0, 0⟩ ⟨zs, 0, zc⟩ 0) rfl rfl
  refine ⟨exP ⟨0, 0, 0⟩ ⟨zs, 0, zc⟩ 0, P1, [1], by simp, ?_, ?_, zGrid, ?_, ?_, z_scatf, h1, a1⟩
  · intro e he; simp at he; subst he; norm_num
  · unfold dot exP; norm_num [zs, zc]
  · norm_num [exP, zD, zProf]
  · intro z e; exact le_refl _

/-- a photon flying down the axis of a tapering tube meets those of `launch_transmitted_clear_partial`, with the second
alternative (no reflection at all) -/
example : ∃ (P' : Photon ℝ) (ws : List ℝ), dot (exP ⟨0, 0, 0⟩ ⟨0, 0, 1⟩ 0).startD (exP ⟨0, 0, 0⟩ ⟨0, 0, 1⟩ 0).startD ≠ 0 ∧ Grid exD.prof ∧
    (∀ i ≤ exD.prof.nmax, 0 ≤ exD.prof.cap i) ∧
    launch exLib (some exD) false 0 1 (some (exP ⟨0, 0, 0⟩ ⟨0, 0, 1⟩ 0)) (some [10]) true = .ok (1, .filled ws, some P') ∧
    P'.i_refl ≠ exD.prof.nmax + 1 ∧ 0 < P'.exitD.z := by
  obtain ⟨P', h, -, a1, -, a2⟩ := ex_straight false 0
  refine ⟨P', [1], ?_, exGrid, ?_, h, ?_, ?_⟩
  · simp [dot, exP]
  · intro i _
    simp only [exD, exProf]
    split <;> norm_num
  · rw [a1]; simp [exD, exProf]
  · rw [a2]; norm_num

end Polycap
