import Verif.Props.EnergyIndep

/-!
# C99: smoother walls never weaken a photon that comes through
-/
namespace Polycap
open CNum

/-- The description with another roughness. -/
def Descr.withRoughness {α : Type} (D : Descr α) (sig : α) : Descr α := { D with sig_rough := sig }

namespace Rough
open EInd

/-- a channel of the rougher and of the smoother optic -/
def Le (c d : Chan ℝ) : Prop := d.e = c.e ∧ d.amu = c.amu ∧ d.scatf = c.scatf ∧ 0 ≤ c.w ∧ c.w ≤ d.w

theorem rough_mono {s s' : ℝ} (h0 : 0 ≤ s') (h : s' ≤ s) (e a : ℝ) : roughFactor s e a ≤ roughFactor s' e a := by
  have em : ((-1:ℚ):ℝ) = -1 := by norm_num
  simp only [roughFactor, real_exp, real_mul, real_lit, em]
  rw [Real.exp_le_exp]
  have h2 : s' * s' ≤ s * s := mul_self_le_mul_self h0 h
  have : 0 ≤ (((101358/10^5 : ℚ) : ℝ) * e * a) * (((101358/10^5 : ℚ) : ℝ) * e * a) := mul_self_nonneg _
  nlinarith [mul_le_mul_of_nonneg_left h2 this]

theorem frac_same (D : Descr ℝ) (s : ℝ) (n dir E : V3 ℝ) {c d : Chan ℝ} (h : Le c d) : frac (D.withRoughness s) n dir E d = frac D n dir E c := by
  obtain ⟨h1, h2, h3, -⟩ := h
  unfold frac
  rw [h1, h2, h3]; rfl

theorem acc_same {D : Descr ℝ} {s : ℝ} {n dir E : V3 ℝ} {cs ds : List (Chan ℝ)} (h : List.Forall₂ Le cs ds) (ha : ∀ c ∈ cs, Acc D n dir E c) :
    ∀ d ∈ ds, Acc (D.withRoughness s) n dir E d := by
  induction h with
  | nil => simp
  | cons h _ ih =>
    rw [List.forall_mem_cons] at ha ⊢
    refine ⟨?_, ih ha.2⟩
    unfold EInd.Acc
    rw [frac_same D s n dir E h]
    exact ha.1

theorem bounce_le {D : Descr ℝ} {s : ℝ} (h0 : 0 ≤ s) (hs : s ≤ D.sig_rough) {n dir E : V3 ℝ} {alfa : ℝ} {cs ds : List (Chan ℝ)} (h : List.Forall₂ Le cs ds)
    (ha : ∀ c ∈ cs, Acc D n dir E c) : List.Forall₂ Le (cs.map (bounce D n dir alfa E)) (ds.map (bounce (D.withRoughness s) n dir alfa E)) := by
  induction h with
  | nil => exact .nil
  | cons h _ ih =>
    rw [List.forall_mem_cons] at ha
    refine .cons ?_ (ih ha.2)
    have hf := frac_same D s n dir E h
    obtain ⟨h1, h2, h3, h4, h5⟩ := h
    obtain ⟨a1, a2⟩ := ha.1
    refine ⟨h1, h2, h3, ?_, ?_⟩
    · exact mul_nonneg (mul_nonneg h4 a1) (roughFactor_bounds _ _ _).1
    · show _ * frac _ _ _ _ _ * roughFactor _ _ _ ≤ _ * frac _ _ _ _ _ * roughFactor _ _ _
      rw [hf, h1]
      refine mul_le_mul (mul_le_mul_of_nonneg_right h5 a1) (rough_mono h0 hs _ _) (roughFactor_bounds _ _ _).1 (mul_nonneg (h4.trans h5) a1)

theorem alive_le {cs ds : List (Chan ℝ)} (h : List.Forall₂ Le cs ds) (ha : Alive cs) : Alive ds := by
  induction h with
  | nil => exact ha
  | cons h _ ih =>
    obtain ⟨c, hc, hw⟩ := ha
    rcases List.mem_cons.mp hc with rfl | hc
    · exact ⟨_, List.mem_cons_self, hw.trans h.2.2.2.2⟩
    · obtain ⟨d, hd, hw'⟩ := ih ⟨c, hc, hw⟩
      exact ⟨d, List.mem_cons_of_mem _ hd, hw'⟩

theorem reflect_smooth (D : Descr ℝ) (s : ℝ) (h0 : 0 ≤ s) (hs : s ≤ D.sig_rough) (fuel k fuel' k' : Nat) (n : V3 ℝ) (P P' : Photon ℝ)
    (hr : reflect D false fuel k n P = .ok (1, P')) (ds : List (Chan ℝ)) (hd : List.Forall₂ Le P.chans ds) :
    ∃ ds', reflect (D.withRoughness s) false fuel' (k' + 1) n { P with chans := ds } = .ok (1, { P' with chans := ds' }) ∧ List.Forall₂ Le P'.chans ds' := by
  cases k with
  | zero => simp [reflect] at hr
  | succ k =>
    have key : ∀ (D : Descr ℝ) fuel k (P : Photon ℝ), reflect D false fuel (k + 1) n P = (if (scalar (vnorm P.exitD) (vnorm n) <. lit 0) = true then
        .ok (-1, { P with exitD := vnorm P.exitD }) else
        reflectRest D false (fun q r ix T => capilTrace D (reflect D false fuel k) (capxOf D q r) (capyOf D q r) ix T) (vnorm n)
          (scalar (vnorm P.exitD) (vnorm n)) { P with exitD := vnorm P.exitD } ⟨0, lit 0, 0, 0⟩) := fun _ _ _ _ => rfl
    rw [key] at hr
    simp only [key]
    split at hr
    · injection hr with hr; injection hr with h1 h2; omega
    rename_i ha
    unfold reflectRest at hr
    rw [if_neg (by simp)] at hr
    split at hr
    · simp at hr
    rename_i hco
    obtain ⟨k1, k2⟩ := energies_ok D (vnorm n) (vnorm P.exitD) (scalar (vnorm P.exitD) (vnorm n)) (lit 0) false P.exitE P.chans P.exitE P.exitE rfl
    simp only at hr
    split at hr
    · injection hr with hr; injection hr with h1 h2; omega
    rename_i hok
    simp only [Bool.not_eq_true', Bool.not_eq_false] at hok
    have hacc := k1.mp hok
    obtain ⟨j1, j2, j3⟩ := k2 hacc
    have hfl : ∀ D cs E ev, (reflEnergies D (vnorm n) (vnorm P.exitD) (scalar (vnorm P.exitD) (vnorm n)) false (lit 0) cs E ev).leakFlag = false := by
      intro D cs E ev
      exact reflEnergies_leakFlag_off _ _ _ _ _ _ _ _
    rw [if_neg (by rw [hfl]; simp)] at hr
    injection hr with hr; injection hr with h1 h2
    have hal : Alive (P.chans.map (bounce D (vnorm n) (vnorm P.exitD) (scalar (vnorm P.exitD) (vnorm n)) P.exitE)) := by
      by_contra hx
      simp only [j2] at h1
      rw [if_neg (fun h => hx ((any_alive _ _).mp h))] at h1
      omega
    have hle := bounce_le h0 hs (alfa := scalar (vnorm P.exitD) (vnorm n)) hd hacc
    have hemp : ds.isEmpty = P.chans.isEmpty := by
      generalize P.chans = l at hd
      cases hd <;> rfl
    refine ⟨ds.map (bounce (D.withRoughness s) (vnorm n) (vnorm P.exitD) (scalar (vnorm P.exitD) (vnorm n)) P.exitE), ?_, ?_⟩
    · rw [if_neg ha]
      unfold reflectRest
      rw [if_neg (by simp)]
      obtain ⟨l1, l2⟩ := energies_ok (D.withRoughness s) (vnorm n) (vnorm P.exitD) (scalar (vnorm P.exitD) (vnorm n)) (lit 0) false P.exitE ds P.exitE P.exitE rfl
      have hacc' := acc_same (s := s) hd hacc
      obtain ⟨m1, m2, m3⟩ := l2 hacc'
      have hx := alive_le hle hal
      refine Eq.trans (if_neg (by rw [hemp]; exact hco)) (Eq.trans (if_neg (by simp only [Bool.not_eq_true', Bool.not_eq_false]; exact l1.mpr hacc')) (Eq.trans (if_neg (by
          simp only [Bool.not_eq_true]; exact hfl _ _ _ _)) ?_))
      simp only [m1, m2, m3, hemp, ← h2, j3, (any_alive _ _).mpr hx, if_true]
    · rw [← h2]
      simp only [j1]
      exact hle

theorem search_smooth (D : Descr ℝ) (s : ℝ) (capx capy : Nat → ℝ) (P : Photon ℝ) (ds : List (Chan ℝ)) : ∀ (k i : Nat) (cur nrm : V3 ℝ),
    traceSearch (D.withRoughness s) capx capy { P with chans := ds } k i cur nrm = traceSearch D capx capy P k i cur nrm := by
  intro k
  induction k with
  | zero => intro i cur nrm; rfl
  | succ k ih =>
    intro i cur nrm
    unfold traceSearch
    simp only [ih]
    rfl

theorem trace_smooth (D : Descr ℝ) (s : ℝ) (h0 : 0 ≤ s) (hs : s ≤ D.sig_rough) (fuel k fuel' k' : Nat) (capx capy : Nat → ℝ) (ix : Nat) (P : Photon ℝ)
    (c : Int) (ix' : Nat) (P' : Photon ℝ) (ht : trace D false fuel k capx capy ix P = .ok (c, ix', P')) (hc : c ≠ 0 ∧ c ≠ -1)
    (ds : List (Chan ℝ)) (hd : List.Forall₂ Le P.chans ds) :
    ∃ ds', trace (D.withRoughness s) false fuel' (k' + 1) capx capy ix { P with chans := ds } = .ok (c, ix', { P' with chans := ds' }) ∧ List.Forall₂ Le P'.chans ds' := by
  unfold trace capilTrace at ht
  unfold trace capilTrace
  simp only at ht ⊢
  have e := search_smooth D s capx capy { P with exitD := vnorm P.exitD, startD := vnorm P.startD } ds (D.prof.nmax - ix) ix P.exitC ⟨lit 0, lit 0, lit 0⟩
  simp only at e
  have hn : (D.withRoughness s).prof = D.prof := rfl
  have hn' : (D.withRoughness s).n_cap = D.n_cap := rfl
  simp only [hn, e]
  cases hs' : traceSearch D capx capy { P with exitD := vnorm P.exitD, startD := vnorm P.startD } (D.prof.nmax - ix) ix P.exitC ⟨lit 0, lit 0, lit 0⟩ with
  | ret code =>
    rw [hs'] at ht
    injection ht with h; injection h with h1 h; injection h with h2 h3; subst h1 h2 h3
    exact ⟨ds, rfl, hd⟩
  | miss =>
    rw [hs'] at ht
    injection ht with h; injection h with h1 h; injection h with h2 h3; subst h1 h2 h3
    exact ⟨ds, rfl, hd⟩
  | hit i v n ca =>
    rw [hs'] at ht
    simp only at ht ⊢
    unfold traceHit at ht ⊢
    simp only [hn, hn'] at ht ⊢
    split at ht
    · injection ht with h; injection h with h1 h; exact absurd h1.symm hc.2
    rename_i q1
    simp only [if_neg q1]
    split at ht
    · simp at ht
    rename_i q2
    simp only [if_neg q2]
    split at ht
    · injection ht with h; injection h with h1 h; injection h with h2 h3; subst h1 h2 h3
      rename_i q3
      simp only [if_pos q3]
      exact ⟨ds, rfl, hd⟩
    rename_i q3
    simp only [if_neg q3]
    split at ht
    · injection ht with h; injection h with h1 h; injection h with h2 h3; subst h1 h2 h3
      rename_i q4
      simp only [if_pos q4]
      exact ⟨ds, rfl, hd⟩
    rename_i q4
    simp only [if_neg q4]
    rw [Out.bind_eq_ok] at ht
    obtain ⟨⟨c1, P1⟩, hr, ht⟩ := ht
    injection ht with h
    have hcodes : c1 = -1 ∨ c1 = 0 ∨ c1 = 1 := by
      by_cases hx : c1 = -1
      · exact Or.inl hx
      · obtain ⟨-, -, -, g3, -⟩ := reflect_sub D fuel k 0 0 n _ c1 P1 hr (Or.inl hx)
        exact g3
    have hc1 : c1 = 1 := by
      unfold afterReflect at h
      rcases hcodes with rfl | rfl | rfl
      · simp only at h
        rw [if_neg (by decide), if_pos (by decide)] at h
        injection h with h1 h; exact absurd h1.symm hc.2
      · simp only at h
        rw [if_neg (by decide), if_neg (by decide)] at h
        injection h with h1 h; exact absurd h1.symm hc.1
      · rfl
    subst hc1
    obtain ⟨ds', g1, g2⟩ := reflect_smooth D s h0 hs fuel k fuel' k' n _ P1 hr ds hd
    simp only at g1
    rw [g1, Out.bind_ok]
    unfold afterReflect at h ⊢
    simp only [if_true] at h ⊢
    injection h with h1 h; injection h with h2 h3; subst h1 h2 h3
    exact ⟨ds', rfl, g2⟩

theorem loop_smooth (D : Descr ℝ) (s : ℝ) (h0 : 0 ≤ s) (hs : s ≤ D.sig_rough) (fuel k fuel' k' : Nat) (capx capy : Nat → ℝ) :
    ∀ (m : Nat) (iesc : Int) (ix : Nat) (P : Photon ℝ) (c : Int) (ix' : Nat) (P' : Photon ℝ),
      traceLoop (trace D false fuel k capx capy) m iesc ix P = .ok (c, ix', P') → c ≠ 0 ∧ c ≠ -1 →
      ∀ ds, List.Forall₂ Le P.chans ds →
      ∃ ds', traceLoop (trace (D.withRoughness s) false fuel' (k' + 1) capx capy) m iesc ix { P with chans := ds } = .ok (c, ix', { P' with chans := ds' }) ∧
        List.Forall₂ Le P'.chans ds' := by
  intro m
  induction m with
  | zero =>
    intro iesc ix P c ix' P' h _ ds hd
    simp only [traceLoop] at h ⊢
    injection h with h; injection h with h1 h; injection h with h2 h3; subst h1 h2 h3
    exact ⟨ds, rfl, hd⟩
  | succ m ih =>
    intro iesc ix P c ix' P' h hc ds hd
    unfold traceLoop at h ⊢
    rw [Out.bind_eq_ok] at h
    obtain ⟨⟨c1, ix1, P1⟩, ht, h⟩ := h
    simp only at h
    by_cases hc1 : c1 = 1
    · rw [if_neg (by simp [hc1])] at h
      obtain ⟨ds1, a1, a2⟩ := trace_smooth D s h0 hs fuel k fuel' k' capx capy ix P c1 ix1 P1 ht (by omega) ds hd
      rw [a1, Out.bind_ok]
      simp only
      rw [if_neg (by simp [hc1])]
      exact ih _ _ _ _ _ _ h hc ds1 a2
    · rw [if_pos hc1] at h
      injection h with h; injection h with h1 h; injection h with h2 h3; subst h1 h2 h3
      obtain ⟨ds1, a1, a2⟩ := trace_smooth D s h0 hs fuel k fuel' k' capx capy ix P _ _ _ ht hc ds hd
      rw [a1, Out.bind_ok]
      simp only
      rw [if_pos hc1]
      exact ⟨ds1, rfl, a2⟩

end Rough

/-- **C99.** Without leak calculation, a photon that comes through an optic (the launch returns 1) also comes through the same optic with smoother
walls, along the same path – the same returned photon – and with at least as much weight at every energy. -/
theorem smoother_walls_transmit_more (lib : Xray ℝ) (D : Descr ℝ) (s : ℝ) (h0 : 0 ≤ s) (hs : s ≤ D.sig_rough) (fuel k fuel' k' : Nat) (P : Photon ℝ) (es : List ℝ)
    (ws : List ℝ) (P1 : Photon ℝ) (h : launch lib (some D) false fuel k (some P) (some es) true = .ok (1, .filled ws, some P1)) :
    ∃ ws', launch lib (some (D.withRoughness s)) false fuel' (k' + 1) (some P) (some es) true = .ok (1, .filled ws', some P1) ∧
      List.Forall₂ (· ≤ ·) ws ws' := by
  have hbad : ∀ D', ¬ ArgsBad (some D') (some P) (some es) true := by
    intro D' hb
    have hb : ArgsBad (some D) (some P) (some es) true := by
      rcases hb with hb | hb | hb | hb | hb | hb
      · simp at hb
      · simp at hb
      · exact Or.inr (Or.inr (Or.inl hb))
      · exact Or.inr (Or.inr (Or.inr (Or.inl hb)))
      · exact Or.inr (Or.inr (Or.inr (Or.inr (Or.inl hb))))
      · simp at hb
    obtain ⟨P', h', -⟩ := launch_invalid lib (some D) false fuel k (some P) (some es) true hb
    rw [h'] at h
    injection h with h; injection h with h1 h; omega
  obtain ⟨D', P'', es'', e1, e2, e3, -, -, -, hl⟩ := launch_valid lib (some D) false fuel k (some P) (some es) true (hbad _)
  injection e1 with e1; injection e2 with e2; injection e3 with e3; subst e1 e2 e3
  obtain ⟨D', P'', es'', e1, e2, e3, -, -, -, hl'⟩ := launch_valid lib (some (D.withRoughness s)) false fuel' (k' + 1) (some P) (some es) true (hbad _)
  injection e1 with e1; injection e2 with e2; injection e3 with e3; subst e1 e2 e3
  rw [hl, Out.bind_eq_ok] at h
  rw [hl']
  obtain ⟨⟨c0, o0, P0⟩, h, h'⟩ := h
  injection h' with h'; injection h' with a h'; injection h' with b h'; injection h' with h'
  simp only at a b h'
  subst a b h'
  have hinit : launchInit lib (D.withRoughness s) es P = launchInit lib D es P := rfl
  have hcap : launchCap (D.withRoughness s) (launchInit lib D es P).startC = launchCap D (launchInit lib D es P).startC := rfl
  have hopen : ∀ qr, startsInWall (D.withRoughness s) qr (launchInit lib D es P).startC = startsInWall D qr (launchInit lib D es P).startC := fun _ => rfl
  unfold launchBody at h ⊢
  simp only [hinit, hcap, hopen] at h ⊢
  split at h
  · simp at h
  rename_i qr hq
  split at h
  · exfalso
    simp at h
  · rename_i hw
    simp only [if_neg hw]
    unfold launchInside at h ⊢
    simp only at h ⊢
    rw [Out.bind_eq_ok] at h
    obtain ⟨⟨c1, ix1, Q1⟩, ht, h⟩ := h
    simp only at h
    injection h with h; injection h with a h; injection h with b h
    have hc1 : ¬ (c1 = -1 ∨ c1 = -3) ∧ c1 ≠ 0 := by
      constructor
      · intro hh
        rw [if_pos hh] at a; omega
      · intro hh
        rw [hh] at a; simp at a
    have hself : List.Forall₂ Rough.Le (launchInit lib D es P).chans (launchInit lib D es P).chans := by
      rw [List.forall₂_same]
      intro x hx
      obtain ⟨e, -, rfl⟩ := List.mem_map.mp hx
      refine ⟨rfl, rfl, rfl, ?_, le_refl _⟩
      show (0:ℝ) ≤ lit 1
      rw [real_lit]; norm_num
    obtain ⟨ds', g1, g2⟩ := Rough.loop_smooth D s h0 hs fuel k fuel' k' _ _ _ _ _ _ _ _ _ ht (by omega) _ hself
    have g1' : traceLoop (trace (D.withRoughness s) false fuel' (k' + 1) (axX (D.withRoughness s) qr) (axY (D.withRoughness s) qr)) ((D.withRoughness s).prof.nmax + 1) 0
      (segIdFrom (D.withRoughness s).prof.z 0 (launchInit lib D es P).startC.z ((D.withRoughness s).prof.nmax + 1)) (launchInit lib D es P) = .ok (c1, ix1, { Q1 with chans := ds' }) := g1
    rw [g1', Out.bind_ok]
    simp only [a]
    injection b with b
    refine ⟨ds'.map (·.w), by rw [Out.bind_ok, ← h]; rfl, ?_⟩
    rw [← b]
    rw [List.forall₂_map_left_iff, List.forall₂_map_right_iff]
    exact g2.imp (fun _ _ h => h.2.2.2.2)
/-- The photon of `RoughTube.r_both`, reflected twice in a tube of roughness 50 and launched with 10 and 100 keV, meets the hypotheses:
it also comes through the tube of roughness 5, with at least these weights. -/
example : ∃ w1 w2 v1 v2 P1, launch zLib (some RoughTube.rD) false 0 1 (some (exP ⟨0, 0, 0⟩ ⟨zs, 0, zc⟩ 0)) (some [10, 100]) true = .ok (1, .filled [w1, w2], some P1) ∧
    launch zLib (some WideTube.wD) false 0 1 (some (exP ⟨0, 0, 0⟩ ⟨zs, 0, zc⟩ 0)) (some [10, 100]) true = .ok (1, .filled [v1, v2], some P1) ∧ w1 ≤ v1 ∧ w2 ≤ v2 := by
  obtain ⟨w1, w2, P1, h1⟩ := RoughTube.r_both 0 0 (exP ⟨0, 0, 0⟩ ⟨zs, 0, zc⟩ 0) rfl rfl
  obtain ⟨ws', h2, h3⟩ := smoother_walls_transmit_more zLib RoughTube.rD 5 (by norm_num) (by norm_num [RoughTube.rD]) 0 1 0 0 _ _ _ _ h1
  cases h3 with
  | cons a h3 =>
    cases h3 with
    | cons b h3 =>
      cases h3
      exact ⟨w1, w2, _, _, P1, h1, h2, a, b⟩

end Polycap
