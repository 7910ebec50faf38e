import Verif.Props.TotalRefl
import Verif.Props.Rougher

/-!
# C102: whatever is deflected loses weight

For all launches, not only for those along the ways of C91: a photon that leaves in another direction than it started in has lost weight at every energy at which
the glass absorbs or the wall is rough.
-/
namespace Polycap
open CNum

namespace Total
open EInd

/-- a wall takes something of the light of this channel at every angle but zero -/
def Lossy (D : Descr ℝ) (c : Chan ℝ) : Prop := 0 < c.amu ∨ 0 < D.sig_rough

theorem normIfNot1_vnorm (v : V3 ℝ) : normIfNot1 (vnorm v) = vnorm v := by
  rw [normIfNot1_eq]
  split
  · rfl
  · rename_i h
    by_cases h0 : dot v v = 0
    · rw [vnorm_zero h0, vnorm_zero (by simp [dot])]
    · exact absurd (by rw [vnorm_dot v h0, Real.sqrt_one]) h

theorem vnorm_vnorm (v : V3 ℝ) : vnorm (vnorm v) = vnorm v := by
  by_cases h0 : dot v v = 0
  · rw [vnorm_zero h0, vnorm_zero (by simp [dot])]
  · exact vnorm_unit _ (vnorm_dot v h0)

theorem frac_lt {D : Descr ℝ} {cs : List (Chan ℝ)} (g : Glass D cs) {n dir E : V3 ℝ} (hd : 0 < dot (vnorm n) dir) {c : Chan ℝ} (hc : c ∈ cs) (ha : 0 < c.amu) :
    frac D (vnorm n) dir E c < 1 := by
  have e0 : ((0:ℚ):ℝ) = 0 := by norm_num
  have e1 : ((1:ℚ):ℝ) = 1 := by norm_num
  have e100 : ((100:ℚ):ℝ) = 100 := by norm_num
  obtain ⟨a, b, u, v, w⟩ := g.chan c hc
  have hrej : polarRejects c.e D.density c.scatf c.amu = false := by
    have := g.density
    simp only [polarRejects, gt, real_lt, real_le, real_lit, e0, e1, e100, Bool.or_eq_false_iff, decide_eq_false_iff_not]
    refine ⟨⟨⟨⟨?_, ?_⟩, ?_⟩, ?_⟩, ?_⟩ <;> linarith
  unfold frac reflPolar
  simp only [hrej, Bool.false_eq_true, if_false, normIfNot1_vnorm]
  have hth : ((acos (scalar (vnorm n) dir) : ℝ) <. lit 0) = false := by
    simp only [real_acos, real_lt, real_lit, e0, decide_eq_false_iff_not, not_lt]
    exact Real.arccos_nonneg _
  simp only [hth, Bool.false_eq_true, if_false]
  refine tot_absorbing _ _ _ ?_ ?_ ?_ ?_
  · simp only [reflN, real_sub, real_lit, e1]; linarith
  · exact (beta_iff a).2 ha
  · simp only [real_acos]
    refine Real.cos_pos_of_mem_Ioo ⟨?_, ?_⟩
    · linarith [Real.arccos_nonneg (scalar (vnorm n) dir), Real.pi_pos]
    · rw [Real.arccos_lt_pi_div_two, scalar_real]; exact hd
  · exact fracS_bounds _ _ (normIfNot1_dot_le E) (vnorm_dot_le _)

theorem rough_lt {s e a : ℝ} (hs : 0 < s) (he : 1 ≤ e) (ha : 0 < a) : roughFactor s e a < 1 := by
  have em : ((-1:ℚ):ℝ) = -1 := by norm_num
  simp only [roughFactor, real_exp, real_mul, real_lit, em]
  rw [Real.exp_lt_one_iff]
  have : 0 < (((101358/10^5 : ℚ) : ℝ) * e * a) := by
    have : (0:ℝ) < ((101358/10^5 : ℚ) : ℝ) := by norm_num
    positivity
  have := mul_pos this this
  have := mul_pos hs hs
  nlinarith

theorem bounce_lt {D : Descr ℝ} {cs : List (Chan ℝ)} (g : Glass D cs) {n dir E : V3 ℝ} (hd : 0 < dot (vnorm n) dir) {c : Chan ℝ} (hc : c ∈ cs) (hl : Lossy D c) (hw : 0 < c.w) :
    (bounce D (vnorm n) dir (dot (vnorm n) dir) E c).w < c.w := by
  obtain ⟨f0, f1⟩ := g.acc (E := E) hd.le c hc
  obtain ⟨b0, b1⟩ := roughFactor_bounds D.sig_rough c.e (dot (vnorm n) dir)
  show c.w * frac D (vnorm n) dir E c * roughFactor D.sig_rough c.e (dot (vnorm n) dir) < c.w
  rw [mul_assoc]
  apply mul_lt_of_lt_one_right hw
  rcases hl with h | h
  · have := frac_lt g (E := E) hd hc h
    nlinarith
  · have := rough_lt h (g.chan c hc).1 hd
    nlinarith

/-- what a step does to a photon and its channels -/
structure Step (D : Descr ℝ) (P P' : Photon ℝ) (h : Chan ℝ → Chan ℝ) : Prop where
  chans : P'.chans = P.chans.map h
  low : Lowers h P.chans
  costs : ∀ x ∈ P.chans, Lossy D x → 0 < x.w → (h x).w = x.w → vnorm P'.exitD = vnorm P.exitD
  hits : ∀ x ∈ P.chans, Lossy D x → 0 < x.w → (h x).w = x.w → P'.i_refl = P.i_refl
  count : P.i_refl ≤ P'.i_refl

theorem reflect_strict (D : Descr ℝ) (fuel k : Nat) (n : V3 ℝ) (P : Photon ℝ) (c : Int) (P' : Photon ℝ) (hr : reflect D false fuel k n P = .ok (c, P')) (g : Glass D P.chans) :
    ∃ h : Chan ℝ → Chan ℝ, P'.chans = P.chans.map h ∧ Lowers h P.chans ∧ P'.i_refl = P.i_refl ∧ P'.exitD = vnorm P.exitD ∧ (c = -1 ∨ c = 0 ∨ c = 1) ∧ (c = -1 → h = id) ∧
      (c = 1 → 0 ≤ dot (vnorm n) (vnorm P.exitD)) ∧
      (c ≠ -1 → 0 < dot (vnorm n) (vnorm P.exitD) → ∀ x ∈ P.chans, Lossy D x → 0 < x.w → (h x).w < x.w) := by
  cases k with
  | zero => simp [reflect] at hr
  | succ k =>
    have key : ∀ fuel k (P : Photon ℝ), reflect D false fuel (k + 1) n P = (if (scalar (vnorm P.exitD) (vnorm n) <. lit 0) = true then
        .ok (-1, { P with exitD := vnorm P.exitD }) else
        reflectRest D false (fun q r ix T => capilTrace D (reflect D false fuel k) (capxOf D q r) (capyOf D q r) ix T) (vnorm n)
          (scalar (vnorm P.exitD) (vnorm n)) { P with exitD := vnorm P.exitD } ⟨0, lit 0, 0, 0⟩) := fun _ _ _ => rfl
    rw [key] at hr
    split at hr
    · injection hr with hr; injection hr with h1 h2
      subst h1 h2
      exact ⟨id, (List.map_id _).symm, lowers_id _, rfl, rfl, Or.inl rfl, fun _ => rfl, by simp, fun h => absurd rfl h⟩
    rename_i ha
    have hsc : scalar (vnorm P.exitD) (vnorm n) = dot (vnorm n) (vnorm P.exitD) := by
      rw [scalar_real]; unfold dot; ring
    have hdot : 0 ≤ dot (vnorm n) (vnorm P.exitD) := by
      have e0 : ((0:ℚ):ℝ) = 0 := by norm_num
      rw [hsc] at ha
      simpa only [real_lt, real_lit, e0, decide_eq_true_eq, not_lt] using ha
    unfold reflectRest at hr
    rw [if_neg (by simp)] at hr
    split at hr
    · simp at hr
    obtain ⟨k1, k2⟩ := energies_ok D (vnorm n) (vnorm P.exitD) (scalar (vnorm P.exitD) (vnorm n)) (lit 0) false P.exitE P.chans P.exitE P.exitE rfl
    simp only at hr
    have hacc := g.acc (n := vnorm n) (dir := vnorm P.exitD) (E := P.exitE) hdot
    obtain ⟨j1, j2, j3⟩ := k2 hacc
    rw [if_neg (by rw [k1.mpr hacc]; simp)] at hr
    have hfl : ∀ cs E ev, (reflEnergies D (vnorm n) (vnorm P.exitD) (scalar (vnorm P.exitD) (vnorm n)) false (lit 0) cs E ev).leakFlag = false := by
      intro cs E ev
      exact reflEnergies_leakFlag_off _ _ _ _ _ _ _ _
    rw [if_neg (by rw [hfl]; simp)] at hr
    injection hr with hr; injection hr with h1 h2
    have hc : c = 1 ∨ c = 0 := by rw [← h1]; split <;> simp
    refine ⟨bounce D (vnorm n) (vnorm P.exitD) (scalar (vnorm P.exitD) (vnorm n)) P.exitE, ?_, ⟨?_, fun _ _ => ⟨rfl, rfl, rfl⟩⟩, by rw [← h2], by rw [← h2], by omega, by omega,
      fun _ => hdot, ?_⟩
    · rw [← h2]; exact j1
    · intro c hm hw
      obtain ⟨a1, a2⟩ := hacc c hm
      obtain ⟨b1, b2⟩ := roughFactor_bounds D.sig_rough c.e (scalar (vnorm P.exitD) (vnorm n))
      unfold bounce
      simp only
      have m1 : 0 ≤ c.w * frac D (vnorm n) (vnorm P.exitD) P.exitE c := mul_nonneg hw a1
      refine ⟨mul_nonneg m1 b1, ?_⟩
      calc c.w * frac D (vnorm n) (vnorm P.exitD) P.exitE c * _ ≤ c.w * frac D (vnorm n) (vnorm P.exitD) P.exitE c := mul_le_of_le_one_right m1 b2
        _ ≤ c.w := mul_le_of_le_one_right hw a2
    · intro _ hpos x hx hl hw
      rw [hsc]
      exact bounce_lt g hpos hx hl hw

theorem reflectDir_flat {d n : V3 ℝ} (hd : vnorm d = d) (h : dot (vnorm n) d = 0) : reflectDir d n (scalar n d) = d := by
  have e2 : ((2:ℚ):ℝ) = 2 := by norm_num
  have : reflectDir d n (scalar n d) = vnorm d := by
    unfold reflectDir
    congr 1
    by_cases h0 : dot n n = 0
    · have hx : n.x = 0 ∧ n.y = 0 ∧ n.z = 0 := by
        unfold dot at h0
        refine ⟨?_, ?_, ?_⟩ <;> nlinarith [mul_self_nonneg n.x, mul_self_nonneg n.y, mul_self_nonneg n.z]
      obtain ⟨h1, h2, h3⟩ := hx
      cases d
      simp [h1, h2, h3]
    · have hn : dot n d = 0 := by
        obtain ⟨u, v⟩ : vnorm n = ⟨n.x / Real.sqrt (dot n n), n.y / Real.sqrt (dot n n), n.z / Real.sqrt (dot n n)⟩ ∧ True := by
          constructor
          · simp only [vnorm, real_mul, real_add, real_sqrt, real_div, dot]
          · trivial
        rw [u] at h
        have hs : 0 < Real.sqrt (dot n n) := Real.sqrt_pos.2 (lt_of_le_of_ne (by unfold dot; nlinarith [mul_self_nonneg n.x, mul_self_nonneg n.y, mul_self_nonneg n.z]) (Ne.symm h0))
        unfold dot at h ⊢
        simp only at h
        have : (n.x * d.x + n.y * d.y + n.z * d.z) / Real.sqrt (dot n n) = 0 := by rw [← h]; unfold dot; ring
        rcases div_eq_zero_iff.1 this with h | h
        · exact h
        · exact absurd h hs.ne'
      rw [scalar_real, hn]
      cases d
      simp
  rw [this, hd]

theorem vnorm_pos {n d : V3 ℝ} (h : 0 < dot n d) : 0 < dot (vnorm n) d := by
  have h0 : dot n n ≠ 0 := by
    intro h0
    have hx : n.x = 0 ∧ n.y = 0 ∧ n.z = 0 := by
      unfold dot at h0
      refine ⟨?_, ?_, ?_⟩ <;> nlinarith [mul_self_nonneg n.x, mul_self_nonneg n.y, mul_self_nonneg n.z]
    obtain ⟨h1, h2, h3⟩ := hx
    simp [dot, h1, h2, h3] at h
  have u : vnorm n = ⟨n.x / Real.sqrt (dot n n), n.y / Real.sqrt (dot n n), n.z / Real.sqrt (dot n n)⟩ := by
    simp only [vnorm, real_mul, real_add, real_sqrt, real_div, dot]
  have hs : 0 < Real.sqrt (dot n n) := Real.sqrt_pos.2 (lt_of_le_of_ne (by unfold dot; nlinarith [mul_self_nonneg n.x, mul_self_nonneg n.y, mul_self_nonneg n.z]) (Ne.symm h0))
  have : dot (vnorm n) d = dot n d / Real.sqrt (dot n n) := by rw [u]; unfold dot; ring
  rw [this]
  exact div_pos h hs

theorem trace_strict (D : Descr ℝ) (fuel k : Nat) (capx capy : Nat → ℝ) (ix : Nat) (P : Photon ℝ) (c : Int) (ix' : Nat) (P' : Photon ℝ)
    (ht : trace D false fuel k capx capy ix P = .ok (c, ix', P')) (g : Glass D P.chans) :
    ∃ h, Step D P P' h ∧ (c ≠ 0 → P'.i_refl = P.i_refl → ∀ x ∈ P.chans, (h x).w = x.w) := by
  unfold trace capilTrace at ht
  simp only at ht
  have stay : ∀ Q : Photon ℝ, Q.chans = P.chans → Q.exitD = vnorm P.exitD → Q.i_refl = P.i_refl →
      ∃ h, Step D P Q h ∧ (c ≠ 0 → Q.i_refl = P.i_refl → ∀ x ∈ P.chans, (h x).w = x.w) := fun Q h1 h2 h3 =>
    ⟨id, ⟨by rw [h1, List.map_id], lowers_id _, fun _ _ _ _ _ => by rw [h2, vnorm_vnorm], fun _ _ _ _ _ => h3, h3.ge⟩, fun _ _ _ _ => rfl⟩
  cases hs : traceSearch D capx capy { P with exitD := vnorm P.exitD, startD := vnorm P.startD } (D.prof.nmax - ix) ix P.exitC ⟨lit 0, lit 0, lit 0⟩ with
  | ret code =>
    rw [hs] at ht
    injection ht with h; injection h with h1 h; injection h with h2 h3; subst h1 h2 h3
    exact stay _ rfl rfl rfl
  | miss =>
    rw [hs] at ht
    injection ht with h; injection h with h1 h; injection h with h2 h3; subst h1 h2 h3
    exact stay _ rfl rfl rfl
  | hit i v n ca =>
    have hca : ca = scalar n (vnorm P.exitD) := by
      have := (traceSearch_hit _ _ _ _ _ _ _ _ _ _ _ _ (le_refl _) hs).2.2.1
      rw [this, scalar_real]
    have hpos := (traceSearch_hit _ _ _ _ _ _ _ _ _ _ _ _ (le_refl _) hs).2.2.2.1
    rw [hs] at ht
    simp only at ht
    unfold traceHit at ht
    simp only at ht
    split at ht
    · injection ht with h; injection h with h1 h; injection h with h2 h3; subst h1 h2 h3
      exact stay _ rfl rfl rfl
    split at ht
    · simp at ht
    split at ht
    · injection ht with h; injection h with h1 h; injection h with h2 h3; subst h1 h2 h3
      exact stay _ rfl rfl rfl
    split at ht
    · injection ht with h; injection h with h1 h; injection h with h2 h3; subst h1 h2 h3
      exact stay _ rfl rfl rfl
    rw [Out.bind_eq_ok] at ht
    obtain ⟨⟨c1, P1⟩, hr, ht⟩ := ht
    injection ht with h
    obtain ⟨f, f1, f2, f3, f4, f5, f6, f7, f8⟩ := reflect_strict D fuel k n _ c1 P1 hr g
    simp only [vnorm_vnorm] at f1 f2 f3 f4 f7 f8
    unfold afterReflect at h
    split at h
    · rename_i q
      simp only at q
      injection h with h1 h; injection h with h2 h3; subst h1 h2 h3
      refine ⟨f, ⟨f1, f2, ?_, ?_, by simp only [f3]; omega⟩, fun _ h => by simp only [f3] at h; omega⟩
      · intro x hx hl hw he
        rcases (f7 q).eq_or_lt with h0 | h0
        · simp only
          rw [f4, hca, reflectDir_flat (vnorm_vnorm _) h0.symm, vnorm_vnorm]
        · exact absurd he (f8 (by omega) h0 x hx hl hw).ne
      · intro x hx hl hw he
        exact absurd he (f8 (by omega) (vnorm_pos (by rw [← scalar_real, ← hca]; exact hpos)) x hx hl hw).ne
    · rename_i q
      simp only at q
      split at h
      · rename_i q'
        simp only at q'
        injection h with h1 h; injection h with h2 h3; subst h1 h2 h3
        have hid := f6 (by omega)
        subst hid
        exact ⟨id, ⟨f1, f2, fun _ _ _ _ _ => by rw [f4, vnorm_vnorm], fun _ _ _ _ _ => f3, f3.ge⟩, fun _ _ _ _ => rfl⟩
      · rename_i q'
        simp only at q'
        injection h with h1 h; injection h with h2 h3; subst h1 h2 h3
        exact ⟨f, ⟨f1, f2, fun _ _ _ _ _ => by rw [f4, vnorm_vnorm], fun _ _ _ _ _ => f3, f3.ge⟩, fun h0 => by
          exfalso; simp only at h0; omega⟩

theorem loop_strict (D : Descr ℝ) (fuel k : Nat) (capx capy : Nat → ℝ) : ∀ (m : Nat) (iesc : Int) (ix : Nat) (P : Photon ℝ) (c : Int) (ix' : Nat) (P' : Photon ℝ),
    (∀ x ∈ P.chans, 0 ≤ x.w) → traceLoop (trace D false fuel k capx capy) m iesc ix P = .ok (c, ix', P') → Glass D P.chans →
    ∃ h, Step D P P' h ∧ (c ≠ 0 ∨ iesc = 0 ∧ m = 0 → P'.i_refl = P.i_refl → ∀ x ∈ P.chans, (h x).w = x.w) := by
  intro m
  induction m with
  | zero =>
    intro iesc ix P c ix' P' _ h g
    simp only [traceLoop] at h
    injection h with h; injection h with h1 h; injection h with h2 h3; subst h1 h2 h3
    exact ⟨id, ⟨(List.map_id _).symm, lowers_id _, fun _ _ _ _ _ => rfl, fun _ _ _ _ _ => rfl, le_refl _⟩, fun _ _ _ _ => rfl⟩
  | succ m ih =>
    intro iesc ix P c ix' P' hw h g
    unfold traceLoop at h
    rw [Out.bind_eq_ok] at h
    obtain ⟨⟨c1, ix1, P1⟩, ht, h⟩ := h
    simp only at h
    obtain ⟨f, F, hf⟩ := trace_strict D fuel k capx capy ix P c1 ix1 P1 ht g
    by_cases hc1 : c1 = 1
    · rw [if_neg (by simp [hc1])] at h
      have hw1 : ∀ x ∈ P1.chans, 0 ≤ x.w := by
        intro x hx
        rw [F.chans] at hx
        obtain ⟨y, hy, rfl⟩ := List.mem_map.mp hx
        exact (F.low.low y hy (hw y hy)).1
      obtain ⟨f', F', hf'⟩ := ih _ _ _ _ _ _ hw1 h (by rw [F.chans]; exact g.map F.low)
      have hm : ∀ x ∈ P.chans, f x ∈ P1.chans := fun x hx => by rw [F.chans]; exact List.mem_map_of_mem hx
      refine ⟨f' ∘ f, ⟨by rw [F'.chans, F.chans, List.map_map], ⟨?_, ?_⟩, ?_, ?_, le_trans F.count F'.count⟩, ?_⟩
      · intro x hx h0
        obtain ⟨a, b⟩ := F.low.low x hx h0
        obtain ⟨a', b'⟩ := F'.low.low _ (hm x hx) a
        exact ⟨a', le_trans b' b⟩
      · intro x hx
        obtain ⟨a, b, c⟩ := F.low.static x hx
        obtain ⟨a', b', c'⟩ := F'.low.static _ (hm x hx)
        exact ⟨a'.trans a, b'.trans b, c'.trans c⟩
      · intro x hx hl h0 he
        have a := F.low.low x hx h0.le
        have b := F'.low.low _ (hm x hx) a.1
        have h1 : (f x).w = x.w := le_antisymm a.2 (by rw [← he]; exact b.2)
        have h2 : (f' (f x)).w = (f x).w := by rw [h1]; exact he
        rw [F'.costs _ (hm x hx) (by unfold Lossy at hl ⊢; rw [(F.low.static x hx).2.1]; exact hl) (by rw [h1]; exact h0) h2, F.costs x hx hl h0 h1]
      · intro x hx hl h0 he
        have a := F.low.low x hx h0.le
        have b := F'.low.low _ (hm x hx) a.1
        have h1 : (f x).w = x.w := le_antisymm a.2 (by rw [← he]; exact b.2)
        have h2 : (f' (f x)).w = (f x).w := by rw [h1]; exact he
        exact (F'.hits _ (hm x hx) (by unfold Lossy at hl ⊢; rw [(F.low.static x hx).2.1]; exact hl) (by rw [h1]; exact h0) h2).trans (F.hits x hx hl h0 h1)
      · intro hc hi x hx
        have := F.count; have := F'.count
        have e1 : P1.i_refl = P.i_refl := by omega
        have e2 : P'.i_refl = P1.i_refl := by omega
        show (f' (f x)).w = x.w
        rw [hf' (by rcases hc with hc | ⟨-, hc⟩; exact Or.inl hc; omega) e2 _ (hm x hx), hf (by omega) e1 x hx]
    · rw [if_pos hc1] at h
      injection h with h; injection h with h1 h; injection h with h2 h3; subst h1 h2 h3
      exact ⟨f, F, fun hc => hf (by rcases hc with hc | ⟨-, hc⟩; exact hc; omega)⟩

end Total

open Total in
/-- **C102, all launches.** Without leak calculation, on glass that refracts at the energies `es`: at an energy at which the glass absorbs, or if the wall is rough, a photon that comes
through (return value 1) keeps its full weight only if it leaves in the direction it started in, and only if it was not reflected.  A photon that was not reflected keeps its full weight at every energy. -/
theorem deflection_costs (lib : Xray ℝ) (D : Descr ℝ) (fuel k : Nat) (P : Photon ℝ) (es : List ℝ) (hg : Refracts lib D es) (ws : List ℝ) (P1 : Photon ℝ)
    (h : launch lib (some D) false fuel k (some P) (some es) true = .ok (1, .filled ws, some P1)) :
    List.Forall₂ (fun e w => 0 ≤ w ∧ w ≤ 1 ∧ (0 < amuOf lib D e ∨ 0 < D.sig_rough → vnorm P1.exitD ≠ vnorm P.startD → w < 1) ∧ (P1.i_refl = 0 → w = 1) ∧
      (0 < amuOf lib D e ∨ 0 < D.sig_rough → w = 1 → P1.i_refl = 0)) es ws := by
  have hbad : ¬ ArgsBad (some D) (some P) (some es) true := by
    intro hb
    obtain ⟨P', h', -⟩ := launch_invalid lib (some D) false fuel k (some P) (some es) true hb
    rw [h'] at h
    injection h with h; injection h with h1 h; omega
  obtain ⟨D', P'', es'', e1, e2, e3, hne, hb, -, hl⟩ := launch_valid lib (some D) false fuel k (some P) (some es) true hbad
  injection e1 with e1; injection e2 with e2; injection e3 with e3; subst e1 e2 e3
  rw [hl, Out.bind_eq_ok] at h
  obtain ⟨⟨c0, o0, P0⟩, h, h'⟩ := h
  injection h' with h'; injection h' with a h'; injection h' with b h'; injection h' with h'
  simp only at a b h'
  subst a b h'
  unfold launchBody at h
  simp only at h
  split at h
  · simp at h
  rename_i qr hq
  split at h
  · exfalso
    simp at h
  · unfold launchInside at h
    simp only at h
    rw [Out.bind_eq_ok] at h
    obtain ⟨⟨c1, ix1, Q1⟩, ht, h⟩ := h
    simp only at h
    injection h with h; injection h with a h; injection h with b h
    have hc1 : c1 ≠ 0 := by
      intro hh
      rw [hh] at a; simp at a
    have hch : (launchInit lib D es P).chans = es.map fun e => ⟨e, 1, amuOf lib D e, scatfOf lib D e⟩ := by
      have e1 : ((1:ℚ):ℝ) = 1 := by norm_num
      simp only [launchInit, real_lit, e1]
    have hglass : EInd.Glass D (launchInit lib D es P).chans := by
      refine ⟨hg.density, ?_⟩
      rw [hch]; intro x hx
      obtain ⟨e, he, rfl⟩ := List.mem_map.mp hx
      have hbe := hb e he
      have h1 : ((1:ℚ):ℝ) = 1 := by norm_num
      have h100 : ((100:ℚ):ℝ) = 100 := by norm_num
      simp only [energyBad, gt, real_lt, real_lit, h1, h100, Bool.or_eq_false_iff, decide_eq_false_iff_not, not_lt] at hbe
      exact ⟨hbe.1, hbe.2, hg.scatf e he, hg.amu e he, hg.index e he⟩
    obtain ⟨f, F, hf⟩ := loop_strict D fuel k _ _ _ _ _ _ _ _ _ (by
      rw [hch]; intro x hx
      obtain ⟨e, -, rfl⟩ := List.mem_map.mp hx
      exact zero_le_one) ht hglass
    injection b with b
    have hd : vnorm (launchInit lib D es P).exitD = vnorm P.startD := by
      show vnorm (vnorm (vnorm P.startD)) = _
      rw [vnorm_vnorm, vnorm_vnorm]
    have hP : P0.exitD = Q1.exitD ∧ P0.i_refl = Q1.i_refl := by rw [← h]; exact ⟨rfl, rfl⟩
    rw [← b, F.chans, List.map_map, List.forall₂_map_right_iff, hch, List.forall₂_map_right_iff, List.forall₂_same]
    intro e he
    have hm : (⟨e, 1, amuOf lib D e, scatfOf lib D e⟩ : Chan ℝ) ∈ (launchInit lib D es P).chans := by rw [hch]; exact List.mem_map.mpr ⟨e, he, rfl⟩
    obtain ⟨l0, l1⟩ := F.low.low _ hm zero_le_one
    refine ⟨l0, l1, fun hlo hne => ?_, fun h0 => hf (Or.inl hc1) (by rw [← hP.2, h0]; rfl) _ hm, fun hlo heq => by rw [hP.2, F.hits _ hm hlo one_pos heq]; rfl⟩
    refine lt_of_le_of_ne l1 fun heq => hne ?_
    rw [hP.1, F.costs _ hm hlo one_pos heq, hd]

open EInd RoughTube WideTube in
/-- The photon of `RoughTube.r_both`, reflected twice in a rough tube, meets the hypotheses; its weights are below 1. -/
example : ∃ w1 w2 P1, launch zLib (some rD) false 0 1 (some (exP ⟨0, 0, 0⟩ ⟨zs, 0, zc⟩ 0)) (some [10, 100]) true = .ok (1, .filled [w1, w2], some P1) ∧
    P1.i_refl ≠ 0 ∧ w1 < 1 ∧ w2 < 1 := by
  obtain ⟨w1, w2, P1, h1⟩ := r_both 0 0 (exP ⟨0, 0, 0⟩ ⟨zs, 0, zc⟩ 0) rfl rfl
  obtain ⟨w, P2, h2⟩ := r_high 0 0 (exP ⟨0, 0, 0⟩ ⟨zs, 0, zc⟩ 0) rfl rfl
  have hb : ∀ e ∈ [(10:ℝ), 100], 1 ≤ e ∧ e ≤ 100 := by intro e he; simp at he; rcases he with rfl | rfl <;> norm_num
  have hr : Refracts zLib rD [10, 100] := by
    have h : ∀ e, scatfOf zLib rD e = 1/2 ∧ amuOf zLib rD e = 0 := by
      intro e
      simp [amuOf, scatfOf, rD, wD, zLib]
      norm_num
    have g := r_glass (cs := [rCh 10 1, rCh 100 1]) (by intro c hc; simp at hc; rcases hc with rfl | rfl <;> simp [rCh] <;> norm_num)
    refine ⟨g.density, fun e _ => by rw [(h e).1]; norm_num, fun e _ => by rw [(h e).2], ?_⟩
    intro e he
    rw [(h e).1]
    simp at he
    rcases he with rfl | rfl
    · exact (g.chan (rCh 10 1) (by simp)).2.2.2.2
    · exact (g.chan (rCh 100 1) (by simp)).2.2.2.2
  obtain ⟨f, a, b⟩ := launch_energies_independent zLib rD 0 1 0 0 _ [10, 100] [100] (by simp) (by simp) hb _ _ _ h1 (Or.inl (by decide))
  have F := deflection_costs zLib rD 0 1 _ _ hr _ _ h1
  have hro : 0 < rD.sig_rough := by norm_num [rD]
  obtain ⟨⟨-, u1, -, -, u2⟩, F⟩ := List.forall₂_cons.1 F
  obtain ⟨⟨-, v1, -, v3, v2⟩, -⟩ := List.forall₂_cons.1 F
  have hw2 : w2 = f 100 := by simp only [List.map_cons, List.map_nil, List.cons.injEq, and_true] at a; exact a.2
  have h0 : P1.i_refl ≠ 0 := by
    intro h0
    have h3 := v3 h0
    rcases b with b | ⟨f', P1', b, b1, -⟩
    · rw [h2] at b
      injection b with b; injection b with b b'; omega
    · have := b1 100 (by simp)
      rw [← hw2, h3] at this
      linarith [this.1, this.2]
  exact ⟨w1, w2, P1, h1, h0, lt_of_le_of_ne u1 fun h => h0 (u2 (Or.inr hro) h), lt_of_le_of_ne v1 fun h => h0 (v2 (Or.inr hro) h)⟩

end Polycap
