import Verif.Props.TraceProps
import Verif.Photon

/-!
# C22, C23: weights and leaks

Exact reals.  The specification is `remaining`, `leaked` and `budget`: for energy number `j`, the remaining weight of a photon, the
summed weights of the leak events recorded for it, and their sum.
-/
namespace Polycap
open CNum

/-! ## Specification -/

/-- remaining weight of a photon at energy number `j` (0 when there is no such energy) -/
noncomputable def remaining (P : Photon ℝ) (j : Nat) : ℝ := (P.chans.map (·.w)).getD j 0
/-- summed weight of a list of leak events at energy number `j` -/
noncomputable def leaked (ls : List (Leak ℝ)) (j : Nat) : ℝ := (ls.map (fun l => l.weight.getD j 0)).sum
/-- everything accounted for: remaining, leaked through the sides, leaked through the exit window -/
noncomputable def budget (P : Photon ℝ) (j : Nat) : ℝ := remaining P j + leaked P.ext j + leaked P.int j

/-- Weights and absorption coefficients are not negative, recorded leaks neither. -/
structure NonNeg (P : Photon ℝ) : Prop where
  chans : ∀ c ∈ P.chans, 0 ≤ c.w ∧ 0 ≤ c.amu
  ext : ∀ l ∈ P.ext, ∀ x ∈ l.weight, 0 ≤ x
  int : ∀ l ∈ P.int, ∀ x ∈ l.weight, 0 ≤ x

/-- what does not change in a channel -/
def Chan.static (c : Chan ℝ) : ℝ × ℝ × ℝ := (c.e, c.amu, c.scatf)

/-- `P'` can have come from `P` by loss only. -/
structure Loses (P P' : Photon ℝ) : Prop where
  nonneg : NonNeg P'
  static : P'.chans.map Chan.static = P.chans.map Chan.static
  remaining : ∀ j, remaining P' j ≤ remaining P j
  budget : ∀ j, budget P' j ≤ budget P j

theorem Loses.refl {P : Photon ℝ} (h : NonNeg P) : Loses P P := ⟨h, rfl, fun _ => le_refl _, fun _ => le_refl _⟩

theorem Loses.trans {P Q R : Photon ℝ} (h : Loses P Q) (g : Loses Q R) : Loses P R :=
  ⟨g.nonneg, g.static.trans h.static, fun j => (g.remaining j).trans (h.remaining j), fun j => (g.budget j).trans (h.budget j)⟩

theorem leaked_append (a b : List (Leak ℝ)) (j : Nat) : leaked (a ++ b) j = leaked a j + leaked b j := by
  simp [leaked]

theorem leaked_single (l : Leak ℝ) (j : Nat) : leaked [l] j = l.weight.getD j 0 := by simp [leaked]

theorem leaked_nil (j : Nat) : leaked [] j = 0 := by simp [leaked]

theorem getD_nonneg {xs : List ℝ} (h : ∀ x ∈ xs, 0 ≤ x) (j : Nat) : 0 ≤ xs.getD j 0 := by
  rw [List.getD_eq_getElem?_getD]
  cases hx : xs[j]? with
  | none => simp
  | some y => exact h y (List.mem_of_getElem? hx)

theorem leaked_nonneg {ls : List (Leak ℝ)} (h : ∀ l ∈ ls, ∀ x ∈ l.weight, 0 ≤ x) (j : Nat) : 0 ≤ leaked ls j := by
  unfold leaked
  apply List.sum_nonneg
  intro x hx
  obtain ⟨l, hl, rfl⟩ := List.mem_map.mp hx
  exact getD_nonneg (h l hl) j

theorem remaining_nonneg {P : Photon ℝ} (h : NonNeg P) (j : Nat) : 0 ≤ remaining P j := by
  apply getD_nonneg
  intro x hx
  obtain ⟨c, hc, rfl⟩ := List.mem_map.mp hx
  exact (h.chans c hc).1

/-! ## One reflection, per energy -/

theorem roughFactor_bounds (s e a : ℝ) : 0 ≤ roughFactor s e a ∧ roughFactor s e a ≤ 1 := by
  have em : ((-1:ℚ):ℝ) = -1 := by norm_num
  simp only [roughFactor, real_exp, real_mul, real_lit, em]
  refine ⟨(Real.exp_pos _).le, ?_⟩
  rw [Real.exp_le_one_iff]
  nlinarith [mul_self_nonneg (((101358/10^5 : ℚ) : ℝ) * e * a * s)]

theorem exp_att (d mu : ℝ) (hd : 0 ≤ d) (hm : 0 ≤ mu) : 0 ≤ Real.exp (-1 * d * mu) ∧ Real.exp (-1 * d * mu) ≤ 1 := by
  refine ⟨(Real.exp_pos _).le, ?_⟩
  rw [Real.exp_le_one_iff]
  nlinarith [mul_nonneg hd hm]

theorem one_bounce {f w d mu : ℝ} (hf : 0 ≤ f ∧ f ≤ 1) (hw : 0 ≤ w) (hd : 0 ≤ d) (hm : 0 ≤ mu) :
    0 ≤ w * f ∧ 0 ≤ (1 - f) * w * Real.exp (-1 * d * mu) ∧ w * f + (1 - f) * w * Real.exp (-1 * d * mu) ≤ w := by
  obtain ⟨h1, h2⟩ := exp_att d mu hd hm
  have h3 : 0 ≤ (1 - f) * w := mul_nonneg (by linarith [hf.2]) hw
  refine ⟨mul_nonneg hw hf.1, mul_nonneg h3 h1, ?_⟩
  nlinarith

theorem reflEnergies_loses (D : Descr ℝ) (norm dir : V3 ℝ) (alfa : ℝ) (leak : Bool) (d : ℝ) (hd : 0 ≤ d) :
    ∀ (cs : List (Chan ℝ)) (E ev : V3 ℝ), (∀ c ∈ cs, 0 ≤ c.w ∧ 0 ≤ c.amu) →
    (∀ c ∈ (reflEnergies D norm dir alfa leak d cs E ev).chans, 0 ≤ c.w ∧ 0 ≤ c.amu) ∧
    (∀ x ∈ (reflEnergies D norm dir alfa leak d cs E ev).wl, 0 ≤ x) ∧
    (reflEnergies D norm dir alfa leak d cs E ev).chans.map Chan.static = cs.map Chan.static ∧
    ((reflEnergies D norm dir alfa leak d cs E ev).ok = true → (reflEnergies D norm dir alfa leak d cs E ev).wl.length = cs.length) ∧
    ∀ j, ((reflEnergies D norm dir alfa leak d cs E ev).chans.map (·.w)).getD j 0 +
      (reflEnergies D norm dir alfa leak d cs E ev).wl.getD j 0 ≤ (cs.map (·.w)).getD j 0 := by
  have e0 : ((0:ℚ):ℝ) = 0 := by norm_num
  have e1 : ((1:ℚ):ℝ) = 1 := by norm_num
  have em : ((-1:ℚ):ℝ) = -1 := by norm_num
  intro cs
  induction cs with
  | nil => intro E ev _; simp [reflEnergies]
  | cons c cs ih =>
    intro E ev h
    unfold reflEnergies
    simp only
    split
    · refine ⟨h, by simp, rfl, by simp, ?_⟩
      intro j; simp
    · rename_i hr
      simp only [gt, real_lt, real_lit, e0, e1, Bool.or_eq_true, decide_eq_true_eq, not_or, not_lt] at hr
      obtain ⟨i1, i2, i3, i4, i5⟩ := ih (reflPolar c.e D.density c.scatf c.amu norm dir E ev).2.2
        (reflPolar c.e D.density c.scatf c.amu norm dir E ev).2.1 (fun c hc => h c (List.mem_cons_of_mem _ hc))
      generalize hx : reflPolar c.e D.density c.scatf c.amu norm dir E ev = x at *
      generalize reflEnergies D norm dir alfa leak d cs x.2.2 x.2.1 = r at *
      obtain ⟨hw, hm⟩ := h c List.mem_cons_self
      have hrr := roughFactor_bounds D.sig_rough c.e alfa
      generalize roughFactor D.sig_rough c.e alfa = rr at *
      have hf : 0 ≤ x.1 * rr ∧ x.1 * rr ≤ 1 :=
        ⟨mul_nonneg hr.1 hrr.1, mul_le_one₀ hr.2 hrr.1 hrr.2⟩
      obtain ⟨b1, b2, b3⟩ := one_bounce hf hw hd hm
      have ew : c.w *. x.1 *. rr = c.w * (x.1 * rr) := by simp only [real_mul]; ring
      have el : leakWeight x.1 rr c.w d c.amu = (1 - x.1 * rr) * c.w * Real.exp (-1 * d * c.amu) := by
        simp only [leakWeight, real_mul, real_sub, real_exp, real_lit, e1, em]
      rw [ew, el]
      refine ⟨?_, ?_, ?_, ?_, ?_⟩
      · intro c' hc'
        rcases List.mem_cons.mp hc' with rfl | hc'
        · exact ⟨b1, hm⟩
        · exact i1 c' hc'
      · intro y hy
        rcases List.mem_cons.mp hy with rfl | hy
        · exact b2
        · exact i2 y hy
      · simp only [List.map_cons, i3]; rfl
      · intro ho; simp [i4 ho]
      · intro j
        cases j with
        | zero => simpa using b3
        | succ j => simpa using i5 j

/-! ## Wall tracing returns a non-negative distance -/

theorem dist3_nonneg (a b : V3 ℝ) : 0 ≤ dist3 a b := by rw [dist3_gap]; exact gap_nonneg _ _

theorem wallExit_d (p : Profile ℝ) (c d last : V3 ℝ) (q r : Int) (w : Wall ℝ) (h : wallExit p c d last q r = .ok w) :
    0 ≤ w.d ∧ (w.code = 2 ∨ w.code = 3) := by
  unfold wallExit at h
  simp only at h
  split at h
  · rw [Out.bind_eq_ok] at h
    obtain ⟨x, -, h⟩ := h
    split at h
    all_goals (injection h with h; subst h; exact ⟨dist3_nonneg _ _, by simp⟩)
  · injection h with h; subst h; exact ⟨dist3_nonneg _ _, by simp⟩

theorem wallEnd_d (p : Profile ℝ) (c d : V3 ℝ) (s) (q r : Int) (w : Wall ℝ) (h : wallEnd p c d s q r = .ok w) :
    0 ≤ w.d ∧ (w.code = 1 ∨ w.code = 2 ∨ w.code = 3) := by
  unfold wallEnd at h
  split at h
  · obtain ⟨a, b⟩ := wallExit_d _ _ _ _ _ _ _ h
    exact ⟨a, Or.inr b⟩
  split at h
  all_goals (injection h with h; subst h; exact ⟨dist3_nonneg _ _, by simp⟩)

theorem wallStep_d (p : Profile ℝ) (ns qi ri : Int) (c d : V3 ℝ) : ∀ (k : Nat) (dist : ℝ) (zid : Nat) (dd : ℝ),
    wallStep p ns qi ri c d k dist zid = .ok (.stumbled dd) → 0 ≤ dd := by
  intro k
  induction k with
  | zero => intro dist zid dd h; simp [wallStep] at h
  | succ k ih =>
    intro dist zid dd h
    unfold wallStep at h
    simp only at h
    split at h
    · injection h with h; injection h with h; rw [← h]; exact dist3_nonneg _ _
    split at h
    · exact ih _ _ _ h
    · injection h with h; simp at h

theorem wallHex_d (p : Profile ℝ) (ns : Int) (c d : V3 ℝ) (g : Nat) : ∀ (f : Nat) (qi ri : Int) (dist : ℝ) (zid : Nat) (cur : V3 ℝ)
    (w : Wall ℝ), wallHex p ns c d g f qi ri dist zid cur = .ok w → 0 ≤ w.d ∧ (w.code = 1 ∨ w.code = 2 ∨ w.code = 3) := by
  intro f
  induction f with
  | zero => intro qi ri dist zid cur w h; simp [wallHex] at h
  | succ f ih =>
    intro qi ri dist zid cur w h
    unfold wallHex at h
    rw [Out.bind_eq_ok] at h
    obtain ⟨st, hst, h⟩ := h
    split at h
    · injection h with h; subst h
      exact ⟨wallStep_d _ _ _ _ _ _ _ _ _ _ hst, by simp⟩
    · split at h
      · obtain ⟨a, b⟩ := wallExit_d _ _ _ _ _ _ _ h
        exact ⟨a, Or.inr b⟩
      · simp only at h
        split at h
        · exact ih _ _ _ _ _ _ h
        · exact wallEnd_d _ _ _ _ _ _ _ h

/-- `polycap_capil_trace_wall` returns -2, 1, 2 or 3 and a non-negative distance -/
theorem traceWall_d (D : Descr ℝ) (fuel : Nat) (c d : V3 ℝ) (w : Wall ℝ) (h : traceWall D fuel c d = .ok w) :
    0 ≤ w.d ∧ (w.code = -2 ∨ w.code = 1 ∨ w.code = 2 ∨ w.code = 3) := by
  have e0 : ((0:ℚ):ℝ) = 0 := by norm_num
  unfold traceWall at h
  simp only at h
  split at h
  · injection h with h; subst h; simp
  split at h
  · split at h
    · injection h with h; subst h; simp
    · obtain ⟨a, b⟩ := wallEnd_d _ _ _ _ _ _ _ h
      exact ⟨a, Or.inr b⟩
  · split at h
    · injection h with h; subst h; simp
    · obtain ⟨a, b⟩ := wallHex_d _ _ _ _ _ _ _ _ _ _ _ _ h
      exact ⟨a, Or.inr b⟩

theorem wallOf_d (D : Descr ℝ) (leak : Bool) (fuel : Nat) (P : Photon ℝ) (w : Wall ℝ) (h : wallOf D leak fuel P = .ok w) :
    0 ≤ w.d := by
  unfold wallOf at h
  split at h
  · exact (traceWall_d _ _ _ _ _ h).1
  · injection h with h; subst h; simp

/-! ## Reflection with leaks -/

/-- the neighbouring-capillary tracing only loses weight -/
def TraceLoses (tr : Nat → Photon ℝ → Out (Int × Nat × Photon ℝ)) : Prop :=
  ∀ ix P c ix' P', NonNeg P → tr ix P = .ok (c, ix', P') → Loses P P'

theorem traceLoop_loses {tr : Nat → Photon ℝ → Out (Int × Nat × Photon ℝ)} (htr : TraceLoses tr) :
    ∀ (k : Nat) (iesc : Int) (ix : Nat) (P : Photon ℝ) (x), NonNeg P → traceLoop tr k iesc ix P = .ok x → Loses P x.2.2 := by
  intro k
  induction k with
  | zero => intro iesc ix P x h hx; simp only [traceLoop] at hx; injection hx with hx; subst hx; exact .refl h
  | succ k ih =>
    intro iesc ix P x h hx
    unfold traceLoop at hx
    rw [Out.bind_eq_ok] at hx
    obtain ⟨⟨c, i, Q⟩, hy, hx⟩ := hx
    have h1 := htr _ _ _ _ _ h hy
    split at hx
    · injection hx with hx; subst hx; exact h1
    · exact h1.trans (ih _ _ _ _ h1.nonneg hx)

theorem map_zipWith_w (cs : List (Chan ℝ)) (wl : List ℝ) (h : wl.length = cs.length) :
    (List.zipWith (fun c w => { c with w := w }) cs wl).map (·.w) = wl ∧
    (∀ c ∈ List.zipWith (fun (c : Chan ℝ) w => { c with w := w }) cs wl, c.w ∈ wl ∧ ∃ c' ∈ cs, c.amu = c'.amu) := by
  induction cs generalizing wl with
  | nil => cases wl with
    | nil => simp
    | cons => simp at h
  | cons c cs ih => cases wl with
    | nil => simp at h
    | cons w wl =>
      obtain ⟨i1, i2⟩ := ih wl (by simpa using h)
      refine ⟨by simp [i1], ?_⟩
      intro c' hc'
      simp only [List.zipWith_cons_cons, List.mem_cons] at hc' ⊢
      rcases hc' with rfl | hc'
      · exact ⟨Or.inl rfl, c, Or.inl rfl, rfl⟩
      · obtain ⟨a, c'', b, d⟩ := i2 c' hc'
        exact ⟨Or.inr a, c'', Or.inr b, d⟩

/-- The leak part of a reflection adds leak events of summed weight at most `wl`. -/
theorem reflectLeak_budget (D : Descr ℝ) (tr) (htr : ∀ q r, TraceLoses (tr q r)) (P : Photon ℝ) (w : Wall ℝ) (wl : List ℝ)
    (iesc c : Int) (P' : Photon ℝ) (hP : NonNeg P) (hwl : ∀ x ∈ wl, 0 ≤ x) (hlen : wl.length = P.chans.length)
    (h : reflectLeak D tr P w wl iesc = .ok (c, P')) :
    NonNeg P' ∧ P'.chans = P.chans ∧ ∀ j, leaked P'.ext j + leaked P'.int j ≤ leaked P.ext j + leaked P.int j + wl.getD j 0 := by
  have hfr := (reflectLeak_frame D tr P w wl iesc c P' h).2.2.2.1
  unfold reflectLeak at h
  simp only at h
  split at h
  · injection h with h; injection h with h1 h2; subst h2
    refine ⟨⟨hP.1, ?_, hP.3⟩, rfl, fun j => ?_⟩
    · intro l hl
      rcases List.mem_append.mp hl with hl | hl
      · exact hP.2 l hl
      · simp only [List.mem_singleton] at hl; subst hl; exact hwl
    · simp only [leaked_append, leaked_single]; linarith
  split at h
  · injection h with h; injection h with h1 h2; subst h2
    refine ⟨⟨hP.1, hP.2, ?_⟩, rfl, fun j => ?_⟩
    · intro l hl
      rcases List.mem_append.mp hl with hl | hl
      · exact hP.3 l hl
      · simp only [List.mem_singleton] at hl; subst hl; exact hwl
    · simp only [leaked_append, leaked_single]; linarith
  split at h
  · split at h
    · simp at h
    rename_i T hT
    have hTe : T.ext = [] ∧ T.int = [] := by
      unfold photonNew at hT
      split at hT
      · simp at hT
      split at hT
      · simp at hT
      · injection hT with hT; subst hT; exact ⟨rfl, rfl⟩
    rw [Out.bind_eq_ok] at h
    obtain ⟨x, hx, h⟩ := h
    obtain ⟨z1, z2⟩ := map_zipWith_w P.chans wl hlen
    have hTn : NonNeg (tempPhoton P T w.d wl) := by
      refine ⟨?_, ?_, ?_⟩
      · intro c hc
        obtain ⟨a, c', b, d⟩ := z2 c hc
        exact ⟨hwl _ a, by rw [d]; exact (hP.1 c' b).2⟩
      · intro l hl; simp [tempPhoton, hTe.1] at hl
      · intro l hl; simp [tempPhoton, hTe.2] at hl
    have hL := traceLoop_loses (htr w.q w.r) _ _ _ _ _ hTn hx
    have hbud : ∀ j, remaining x.2.2 j + leaked x.2.2.ext j + leaked x.2.2.int j ≤ wl.getD j 0 := by
      intro j
      have := hL.budget j
      unfold budget at this
      refine this.trans (le_of_eq ?_)
      simp only [remaining, tempPhoton, z1, hTe.1, hTe.2, leaked_nil, add_zero]
    split at h
    · injection h with h; injection h with h1 h2; subst h2
      refine ⟨hP, rfl, fun j => ?_⟩
      have := getD_nonneg hwl j
      linarith
    · injection h with h; injection h with h1 h2
      have hrn : ∀ y ∈ x.2.2.chans.map (·.w), 0 ≤ y := by
        intro y hy
        obtain ⟨c', hc', rfl⟩ := List.mem_map.mp hy
        exact (hL.nonneg.chans c' hc').1
      have hE : ∀ l ∈ P.ext ++ x.2.2.ext, ∀ y ∈ l.weight, 0 ≤ y := by
        intro l hl
        rcases List.mem_append.mp hl with hl | hl
        · exact hP.2 l hl
        · exact hL.nonneg.ext l hl
      have hI : ∀ l ∈ P.int ++ x.2.2.int, ∀ y ∈ l.weight, 0 ≤ y := by
        intro l hl
        rcases List.mem_append.mp hl with hl | hl
        · exact hP.3 l hl
        · exact hL.nonneg.int l hl
      have hrem : ∀ j, 0 ≤ remaining x.2.2 j := fun j => remaining_nonneg hL.nonneg j
      refine ⟨?_, hfr, ?_⟩
      · subst h2
        unfold recordTemp
        simp only
        split
        · split
          · refine ⟨hP.1, ?_, hI⟩
            intro l hl
            rcases List.mem_append.mp hl with hl | hl
            · exact hE l hl
            · simp only [List.mem_singleton] at hl; subst hl; exact hrn
          · split
            · refine ⟨hP.1, hE, ?_⟩
              intro l hl
              rcases List.mem_append.mp hl with hl | hl
              · exact hI l hl
              · simp only [List.mem_singleton] at hl; subst hl; exact hrn
            · exact ⟨hP.1, hE, hI⟩
        · exact ⟨hP.1, hE, hI⟩
      · intro j
        have hb := hbud j
        have hr := hrem j
        have er : (x.2.2.chans.map (·.w)).getD j 0 = remaining x.2.2 j := rfl
        subst h2
        unfold recordTemp
        simp only
        split
        · split
          · simp only [leaked_append, leaked_single, er]; linarith
          · split
            · simp only [leaked_append, leaked_single, er]; linarith
            · simp only [leaked_append]; linarith
        · simp only [leaked_append]; linarith
  · injection h with h; injection h with h1 h2; subst h2
    refine ⟨hP, rfl, fun j => ?_⟩
    have := getD_nonneg hwl j
    linarith

theorem reflectRest_loses (D : Descr ℝ) (leak : Bool) (tr) (htr : ∀ q r, TraceLoses (tr q r)) (n : V3 ℝ) (a : ℝ) (P : Photon ℝ)
    (w : Wall ℝ) (hw : 0 ≤ w.d) (c : Int) (P' : Photon ℝ) (hP : NonNeg P)
    (h : reflectRest D leak tr n a P w = .ok (c, P')) : Loses P P' := by
  unfold reflectRest at h
  simp only at h
  split at h
  · injection h with h; injection h with h1 h2; subst h2; exact .refl hP
  split at h
  · simp at h
  obtain ⟨r1, r2, r3, r4, r5⟩ := reflEnergies_loses D n P.exitD a leak w.d hw P.chans P.exitE P.exitE hP.chans
  generalize reflEnergies D n P.exitD a leak w.d P.chans P.exitE P.exitE = r at *
  have r6 : ∀ j, (r.chans.map (·.w)).getD j 0 ≤ remaining P j := fun j => by
    have := r5 j
    have := getD_nonneg r2 j
    unfold remaining; linarith
  split at h
  · injection h with h; injection h with h1 h2; subst h2
    refine ⟨⟨r1, hP.2, hP.3⟩, r3, r6, fun j => ?_⟩
    have := r6 j
    simp only [budget, remaining] at this ⊢
    linarith
  rename_i hok
  have hok' : r.ok = true := by simpa using hok
  split at h
  · have hlen : r.wl.length = r.chans.length := by
      rw [r4 hok']
      have := congrArg List.length r3
      simpa using this.symm
    obtain ⟨l1, l2, l3⟩ := reflectLeak_budget D tr htr
      { startC := P.startC, startD := P.startD, startE := P.startE, exitC := P.exitC, exitD := P.exitD, exitE := r.ev,
        i_refl := P.i_refl, d_travel := P.d_travel, ext := P.ext, int := P.int, chans := r.chans, coef := P.coef }
      w r.wl _ c P' ⟨r1, hP.2, hP.3⟩ r2 hlen h
    refine ⟨l1, by rw [l2]; exact r3, fun j => ?_, fun j => ?_⟩
    · unfold remaining; rw [l2]; exact r6 j
    · have h5 := r5 j
      have h3 := l3 j
      simp only [budget, remaining, l2] at h3 ⊢
      linarith
  · injection h with h; injection h with h1 h2; subst h2
    refine ⟨⟨r1, hP.2, hP.3⟩, r3, r6, fun j => ?_⟩
    have := r6 j
    simp only [budget, remaining] at this ⊢
    linarith

theorem NonNeg.congr {P Q : Photon ℝ} (h : NonNeg P) (h1 : Q.chans = P.chans) (h2 : Q.ext = P.ext) (h3 : Q.int = P.int) : NonNeg Q :=
  ⟨by rw [h1]; exact h.1, by rw [h2]; exact h.2, by rw [h3]; exact h.3⟩

theorem Loses.of_eq {P Q : Photon ℝ} (h : NonNeg P) (h1 : Q.chans = P.chans) (h2 : Q.ext = P.ext) (h3 : Q.int = P.int) : Loses P Q := by
  refine ⟨h.congr h1 h2 h3, by rw [h1], fun j => ?_, fun j => ?_⟩
  · simp only [Polycap.remaining, h1]; exact le_refl _
  · simp only [Polycap.budget, Polycap.remaining, h1, h2, h3]; exact le_refl _

theorem reflectBody_loses (D : Descr ℝ) (leak : Bool) (fuel : Nat) (tr) (htr : ∀ q r, TraceLoses (tr q r)) (n : V3 ℝ) (P : Photon ℝ)
    (c : Int) (P' : Photon ℝ) (hP : NonNeg P) (h : reflectBody D leak fuel tr n P = .ok (c, P')) : Loses P P' := by
  unfold reflectBody at h
  simp only at h
  split at h
  · injection h with h; injection h with h1 h2; subst h2; exact .of_eq hP rfl rfl rfl
  rw [Out.bind_eq_ok] at h
  obtain ⟨w, hw, h⟩ := h
  have hl : Loses P (renorm leak { P with exitD := vnorm P.exitD }) := .of_eq hP rfl rfl rfl
  exact hl.trans (reflectRest_loses D leak tr htr _ _ _ w (wallOf_d _ _ _ _ _ hw) c P' hl.nonneg h)

theorem capilTrace_loses (D : Descr ℝ) (refl : V3 ℝ → Photon ℝ → Out (Int × Photon ℝ))
    (hrefl : ∀ n P c P', NonNeg P → refl n P = .ok (c, P') → Loses P P') (capx capy : Nat → ℝ) :
    TraceLoses (capilTrace D refl capx capy) := by
  intro ix P c ix' P' hP h
  unfold capilTrace at h
  simp only at h
  split at h
  · injection h with h; injection h with h1 h; injection h with h2 h3; subst h3; exact .of_eq hP rfl rfl rfl
  · injection h with h; injection h with h1 h; injection h with h2 h3; subst h3; exact .of_eq hP rfl rfl rfl
  · unfold traceHit at h
    simp only at h
    split at h
    · injection h with h; injection h with h1 h; injection h with h2 h3; subst h3; exact .of_eq hP rfl rfl rfl
    split at h
    · simp at h
    split at h
    · injection h with h; injection h with h1 h; injection h with h2 h3; subst h3; exact .of_eq hP rfl rfl rfl
    split at h
    · injection h with h; injection h with h1 h; injection h with h2 h3; subst h3; exact .of_eq hP rfl rfl rfl
    rw [Out.bind_eq_ok] at h
    obtain ⟨⟨rc, R⟩, hR, h⟩ := h
    have hl' : Loses P R := by
      refine Loses.trans ?_ (hrefl _ _ _ _ ?_ hR)
      · exact .of_eq hP rfl rfl rfl
      · exact hP.congr rfl rfl rfl
    injection h with h
    unfold afterReflect at h
    simp only at h
    split at h
    · injection h with h1 h; injection h with h2 h3; subst h3
      exact hl'.trans (.of_eq hl'.nonneg rfl rfl rfl)
    split at h
    · injection h with h1 h; injection h with h2 h3; subst h3; exact hl'
    · injection h with h1 h; injection h with h2 h3; subst h3; exact hl'

/-- **C22, C23 for a reflection**, leaks of leaks included, to any depth of the recursion. -/
theorem reflect_loses (D : Descr ℝ) (leak : Bool) (fuel : Nat) : ∀ (k : Nat) (n : V3 ℝ) (P : Photon ℝ) (c : Int) (P' : Photon ℝ),
    NonNeg P → reflect D leak fuel k n P = .ok (c, P') → Loses P P' := by
  intro k
  induction k with
  | zero => intro n P c P' _ h; simp [reflect] at h
  | succ k ih =>
    intro n P c P' hP h
    exact reflectBody_loses D leak fuel _ (fun q r => capilTrace_loses D _ ih _ _) n P c P' hP h

/-- **C22, C23 for a step of the tracing** -/
theorem trace_loses (D : Descr ℝ) (leak : Bool) (fuel k : Nat) (capx capy : Nat → ℝ) :
    TraceLoses (trace D leak fuel k capx capy) :=
  capilTrace_loses D _ (reflect_loses D leak fuel k) capx capy

end Polycap
