import Verif.Props.LaunchReports
import Verif.Props.LaunchExamples
import Verif.Props.Validate
import Verif.Props.WeightProps
import Verif.Props.PcIntersect

/-!
# Every launch comes to an end

The model runs the unbounded loops and the recursion of the code with `fuel` and reports `Out.fuel` when that does
not suffice.  Here: for a photon flying downstream in an optic with positive capillary radii there is always enough
fuel, the result does not depend on how much more is given, and the recursion (light leaking into a neighbouring
capillary, being reflected there, leaking further, …) is never deeper than the optic is long, in units of 1e-5 cm.
With capillary radius 0, which the library accepts, a launch with leak calculation does not end.
-/
namespace Polycap.Term
open CNum

/-- At least one segment, and capillaries that are open at every grid point but the last (whose radius is not needed). -/
structure GoodTube (p : Profile ℝ) : Prop where
  segments : 1 ≤ p.nmax
  open_ : ∀ i < p.nmax, 0 < p.cap i

/-- `f fuel k` (loops bounded by `fuel`, recursion depth by `k`) comes to the same end for every sufficient `fuel` and
every depth of at least `K`. -/
structure Settles {A : Type} (f : Nat → Nat → Out A) (K : Nat) (x : Out A) : Prop where
  ended : x ≠ .fuel
  from_ : ∃ N, ∀ fuel k, N ≤ fuel → K ≤ k → f fuel k = x

theorem Settles.const {A : Type} {x : Out A} (h : x ≠ .fuel) (K : Nat) : Settles (fun _ _ => x) K x := ⟨h, 0, fun _ _ _ _ => rfl⟩

theorem Settles.ok {A : Type} (a : A) (K : Nat) : Settles (fun _ _ => .ok a) K (.ok a) := Settles.const (by simp) K

theorem Settles.mono {A : Type} {f : Nat → Nat → Out A} {K K' : Nat} {x : Out A} (h : Settles f K x) (hK : K ≤ K') : Settles f K' x := by
  obtain ⟨N, hN⟩ := h.from_
  exact ⟨h.ended, N, fun a b ha hb => hN a b ha (hK.trans hb)⟩

theorem Settles.congr {A : Type} {f g : Nat → Nat → Out A} {K : Nat} {x : Out A} (h : Settles f K x)
    (e : ∀ fuel k, K ≤ k → g fuel k = f fuel k) : Settles g K x := by
  obtain ⟨N, hN⟩ := h.from_
  exact ⟨h.ended, N, fun a b ha hb => (e a b hb).trans (hN a b ha hb)⟩

theorem Settles.bind {A B : Type} {f : Nat → Nat → Out A} {K : Nat} {x : Out A} (h : Settles f K x) (g : Nat → Nat → A → Out B)
    (hg : ∀ a, x = .ok a → ∃ y, Settles (fun fuel k => g fuel k a) K y) : ∃ y, Settles (fun fuel k => f fuel k >>= g fuel k) K y := by
  obtain ⟨N, hN⟩ := h.from_
  cases x with
  | ub => exact ⟨.ub, by simp, N, fun a b ha hb => by rw [hN a b ha hb]; rfl⟩
  | fuel => exact absurd rfl h.ended
  | ok a =>
    obtain ⟨y, hy⟩ := hg a rfl
    obtain ⟨M, hM⟩ := hy.from_
    refine ⟨y, hy.ended, max N M, fun a' b ha hb => ?_⟩
    rw [hN a' b (le_trans (le_max_left _ _) ha) hb]
    exact hM a' b (le_trans (le_max_right _ _) ha) hb

/-- as `bind`, when what follows always gives a result -/
theorem Settles.map {A B : Type} {f : Nat → Nat → Out A} {K : Nat} {x : Out A} (h : Settles f K x) (g : A → Out B)
    (hg : ∀ a, g a ≠ .fuel) : ∃ y, Settles (fun fuel k => f fuel k >>= g) K y :=
  h.bind (fun _ _ => g) fun a _ => ⟨g a, Settles.const (hg a) K⟩

/-! ## Walking through the glass -/

section Wall
variable {p : Profile ℝ} {ns : Int} {c d : V3 ℝ} {m : ℝ}

theorem step_settles (hm : 0 < m) (hcap : ∀ i < p.nmax, 10 * m ≤ p.cap i) (hd : 0 < d.z) (qi ri : Int) :
    ∀ (k : Nat) (dist : ℝ) (zid : Nat), zid < p.nmax → p.z p.nmax < c.z + (dist + (k + 1) * m) * d.z →
    ∃ s, (∀ g, k + 1 ≤ g → wallStep p ns qi ri c d g dist zid = .ok s) ∧
      ∀ dist' zid' ph q r, s = .left dist' zid' ph q r → dist + m ≤ dist' ∧ zid' < p.nmax ∧ ph.z = c.z + dist' * d.z := by
  intro k
  induction k with
  | zero =>
    intro dist zid hz hb
    have h10 := hcap zid hz
    have e10 : ((10:ℚ):ℝ) = 10 := by norm_num
    have hdist : dist + m ≤ dist +. p.cap zid /. lit 10 := by
      simp only [real_add, real_div, real_lit, e10]; linarith
    have hover : ¬ (c.z +. (dist +. p.cap zid /. lit 10) *. d.z ≤ p.z p.nmax) := by
      have : (dist + m) * d.z ≤ (dist +. p.cap zid /. lit 10) * d.z := mul_le_mul_of_nonneg_right hdist hd.le
      simp only [real_add, real_mul, real_div] at *
      push_cast at hb
      linarith
    generalize hS : wallStep p ns qi ri c d 1 dist zid = S
    have hS' := hS
    unfold wallStep at hS
    simp only at hS
    have hz' : segIdFrom p.z zid (c.z +. (dist +. p.cap zid /. lit 10) *. d.z) p.nmax < p.nmax := segId_lt _ _ _ _ hz
    have hle : (c.z +. (dist +. p.cap zid /. lit 10) *. d.z <=. p.z p.nmax) = false := by
      simp only [real_le, decide_eq_false_iff_not]; exact hover
    rw [hle, Bool.and_false] at hS
    have same : ∀ g, 0 + 1 ≤ g → wallStep p ns qi ri c d g dist zid = S := by
      intro g hg
      obtain ⟨g, rfl⟩ : ∃ j, g = j + 1 := ⟨g - 1, by omega⟩
      rw [← hS', wallStep, wallStep]
      simp only [hle, Bool.and_false, Bool.false_eq_true, if_false]
    split at hS
    · subst hS
      exact ⟨_, same, by rintro _ _ _ _ _ ⟨⟩⟩
    · simp only [Bool.false_eq_true, if_false] at hS
      subst hS
      refine ⟨_, same, ?_⟩
      intro dist' zid' ph q r h
      injection h with h1 h2 h3 h4 h5
      subst h1 h2 h3
      exact ⟨hdist, hz', rfl⟩
  | succ k ih =>
    intro dist zid hz hb
    have h10 := hcap zid hz
    have e10 : ((10:ℚ):ℝ) = 10 := by norm_num
    have hdist : dist + m ≤ dist +. p.cap zid /. lit 10 := by
      simp only [real_add, real_div, real_lit, e10]; linarith
    have hz' : segIdFrom p.z zid (c.z +. (dist +. p.cap zid /. lit 10) *. d.z) p.nmax < p.nmax := segId_lt _ _ _ _ hz
    have hb' : p.z p.nmax < c.z + ((dist +. p.cap zid /. lit 10) + ((k:ℝ) + 1) * m) * d.z := by
      have : (dist + ((k:ℝ) + 1 + 1) * m) * d.z ≤ ((dist +. p.cap zid /. lit 10) + ((k:ℝ) + 1) * m) * d.z :=
        mul_le_mul_of_nonneg_right (by linarith) hd.le
      push_cast at hb
      linarith
    obtain ⟨s, hs, hl⟩ := ih _ _ hz' hb'
    by_cases h1 : (sqrt (((c.x +. (dist +. p.cap zid /. lit 10) *. d.x) -. (capCentre ns (interpAt p p.ext (segIdFrom p.z zid (c.z +. (dist +. p.cap zid /. lit 10) *. d.z) p.nmax) (c.z +. (dist +. p.cap zid /. lit 10) *. d.z)) qi ri).1) *. ((c.x +. (dist +. p.cap zid /. lit 10) *. d.x) -. (capCentre ns (interpAt p p.ext (segIdFrom p.z zid (c.z +. (dist +. p.cap zid /. lit 10) *. d.z) p.nmax) (c.z +. (dist +. p.cap zid /. lit 10) *. d.z)) qi ri).1) +. ((c.y +. (dist +. p.cap zid /. lit 10) *. d.y) -. (capCentre ns (interpAt p p.ext (segIdFrom p.z zid (c.z +. (dist +. p.cap zid /. lit 10) *. d.z) p.nmax) (c.z +. (dist +. p.cap zid /. lit 10) *. d.z)) qi ri).2) *. ((c.y +. (dist +. p.cap zid /. lit 10) *. d.y) -. (capCentre ns (interpAt p p.ext (segIdFrom p.z zid (c.z +. (dist +. p.cap zid /. lit 10) *. d.z) p.nmax) (c.z +. (dist +. p.cap zid /. lit 10) *. d.z)) qi ri).2)) <. interpAt p p.cap (segIdFrom p.z zid (c.z +. (dist +. p.cap zid /. lit 10) *. d.z) p.nmax) (c.z +. (dist +. p.cap zid /. lit 10) *. d.z) && inStack ns qi ri && dist3 ⟨c.x +. (dist +. p.cap zid /. lit 10) *. d.x, c.y +. (dist +. p.cap zid /. lit 10) *. d.y, c.z +. (dist +. p.cap zid /. lit 10) *. d.z⟩ c >. lit (1/10^5)) = true
    · refine ⟨.stumbled (dist3 ⟨c.x +. (dist +. p.cap zid /. lit 10) *. d.x, c.y +. (dist +. p.cap zid /. lit 10) *. d.y, c.z +. (dist +. p.cap zid /. lit 10) *. d.z⟩ c), ?_, by rintro _ _ _ _ _ ⟨⟩⟩
      intro g hg
      obtain ⟨g, rfl⟩ : ∃ j, g = j + 1 := ⟨g - 1, by omega⟩
      rw [wallStep]
      exact if_pos h1
    · generalize hqr : hexRound ns (interpAt p p.ext (segIdFrom p.z zid (c.z +. (dist +. p.cap zid /. lit 10) *. d.z) p.nmax) (c.z +. (dist +. p.cap zid /. lit 10) *. d.z)) (c.x +. (dist +. p.cap zid /. lit 10) *. d.x) (c.y +. (dist +. p.cap zid /. lit 10) *. d.y) = qr
      by_cases h2 : (decide (qr.1 = qi ∧ qr.2 = ri) && c.z +. (dist +. p.cap zid /. lit 10) *. d.z <=. p.z p.nmax) = true
      · refine ⟨s, ?_, ?_⟩
        · intro g hg
          obtain ⟨g, rfl⟩ : ∃ j, g = j + 1 := ⟨g - 1, by omega⟩
          rw [wallStep]
          refine Eq.trans (if_neg h1) ?_
          simp only [hqr]
          rw [if_pos h2]
          exact hs g (by omega)
        · intro dist' zid' ph q r h
          obtain ⟨a, b, e⟩ := hl _ _ _ _ _ h
          exact ⟨by linarith, b, e⟩
      · refine ⟨.left (dist +. p.cap zid /. lit 10) (segIdFrom p.z zid (c.z +. (dist +. p.cap zid /. lit 10) *. d.z) p.nmax) ⟨c.x +. (dist +. p.cap zid /. lit 10) *. d.x, c.y +. (dist +. p.cap zid /. lit 10) *. d.y, c.z +. (dist +. p.cap zid /. lit 10) *. d.z⟩ qr.1 qr.2, ?_, ?_⟩
        · intro g hg
          obtain ⟨g, rfl⟩ : ∃ j, g = j + 1 := ⟨g - 1, by omega⟩
          rw [wallStep]
          refine Eq.trans (if_neg h1) ?_
          simp only [hqr]
          rw [if_neg h2]
        · intro dist' zid' ph q r h
          injection h with g1 g2 g3 g4 g5
          subst g1 g2 g3
          exact ⟨hdist, hz', rfl⟩

theorem exit_ended (hn : 1 ≤ p.nmax) (last : V3 ℝ) (q r : Int) : wallExit p c d last q r ≠ .fuel := by
  unfold wallExit
  simp only
  split
  · have := pc_intersect_terminates p hn (atGrid p c d p.nmax) d none
    cases h : pcIntersect p (atGrid p c d p.nmax) d none with
    | ok x => obtain ⟨x, e⟩ := x; cases x <;> simp [Bind.bind, Out.bind]
    | ub => simp [Bind.bind, Out.bind]
    | fuel => exact absurd h this
  · simp

theorem end_ended (hn : 1 ≤ p.nmax) (s : Int × Nat × V3 ℝ) (q r : Int) : wallEnd p c d s q r ≠ .fuel := by
  unfold wallEnd
  split
  · exact exit_ended hn _ _ _
  · split <;> simp

theorem hex_settles (hn : 1 ≤ p.nmax) (hm : 0 < m) (hcap : ∀ i < p.nmax, 10 * m ≤ p.cap i) (hd : 0 < d.z) :
    ∀ (k : Nat) (qi ri : Int) (dist : ℝ) (zid : Nat) (cur : V3 ℝ), zid < p.nmax → p.z p.nmax < c.z + (dist + (k + 1) * m) * d.z →
    ∃ x, x ≠ .fuel ∧ ∀ g f, k + 1 ≤ g → k + 1 ≤ f → wallHex p ns c d g f qi ri dist zid cur = x := by
  intro k
  induction k with
  | zero =>
    intro qi ri dist zid cur hz hb
    obtain ⟨s, hs, hl⟩ := step_settles (ns := ns) hm hcap hd qi ri 0 dist zid hz hb
    cases s with
    | stumbled dd =>
      refine ⟨.ok ⟨1, dd, qi, ri⟩, by simp, fun g f hg hf => ?_⟩
      obtain ⟨f, rfl⟩ : ∃ j, f = j + 1 := ⟨f - 1, by omega⟩
      rw [wallHex, hs g hg]; rfl
    | left dist' zid' ph q r =>
      obtain ⟨a, b, e⟩ := hl _ _ _ _ _ rfl
      have hover : (!inStack ns q r || ph.z >. p.z p.nmax) = true := by
        have : (dist + m) * d.z ≤ dist' * d.z := mul_le_mul_of_nonneg_right a hd.le
        simp only [gt, real_lt, Bool.or_eq_true, decide_eq_true_eq]
        right; rw [e]; push_cast at hb; linarith
      refine ⟨wallExit p c d ph q r, exit_ended hn _ _ _, fun g f hg hf => ?_⟩
      obtain ⟨f, rfl⟩ : ∃ j, f = j + 1 := ⟨f - 1, by omega⟩
      rw [wallHex, hs g hg]
      exact if_pos hover
  | succ k ih =>
    intro qi ri dist zid cur hz hb
    obtain ⟨s, hs, hl⟩ := step_settles (ns := ns) hm hcap hd qi ri (k + 1) dist zid hz hb
    cases s with
    | stumbled dd =>
      refine ⟨.ok ⟨1, dd, qi, ri⟩, by simp, fun g f hg hf => ?_⟩
      obtain ⟨f, rfl⟩ : ∃ j, f = j + 1 := ⟨f - 1, by omega⟩
      rw [wallHex, hs g hg]; rfl
    | left dist' zid' ph q r =>
      obtain ⟨a, b, e⟩ := hl _ _ _ _ _ rfl
      by_cases hover : (!inStack ns q r || ph.z >. p.z p.nmax) = true
      · refine ⟨wallExit p c d ph q r, exit_ended hn _ _ _, fun g f hg hf => ?_⟩
        obtain ⟨f, rfl⟩ : ∃ j, f = j + 1 := ⟨f - 1, by omega⟩
        rw [wallHex, hs g hg]
        exact if_pos hover
      · generalize hS : wallSegs p ns q r c d (p.nmax - 1 - (zid' + 1)) zid' cur = S
        by_cases hgo : p.nmax ≤ S.2.1 ∧ S.1 ≠ 0
        · have hb' : p.z p.nmax < c.z + (dist' + ((k:ℝ) + 1) * m) * d.z := by
            have : (dist + ((k:ℝ) + 1 + 1) * m) * d.z ≤ (dist' + ((k:ℝ) + 1) * m) * d.z := mul_le_mul_of_nonneg_right (by linarith) hd.le
            push_cast at hb
            linarith
          obtain ⟨x, hx, hh⟩ := ih q r dist' (p.nmax - 1) S.2.2 (by omega) hb'
          refine ⟨x, hx, fun g f hg hf => ?_⟩
          obtain ⟨f, rfl⟩ : ∃ j, f = j + 1 := ⟨f - 1, by omega⟩
          rw [wallHex, hs g hg]
          refine Eq.trans (if_neg hover) ?_
          simp only [hS]
          rw [if_pos hgo]
          exact hh g f (by omega) (by omega)
        · refine ⟨wallEnd p c d S q r, end_ended hn _ _ _, fun g f hg hf => ?_⟩
          obtain ⟨f, rfl⟩ : ∃ j, f = j + 1 := ⟨f - 1, by omega⟩
          rw [wallHex, hs g hg]
          refine Eq.trans (if_neg hover) ?_
          simp only [hS]
          rw [if_neg hgo]

end Wall

theorem least_cap {p : Profile ℝ} (hn : 1 ≤ p.nmax) (hcap : ∀ i < p.nmax, 0 < p.cap i) : ∃ m, 0 < m ∧ ∀ i < p.nmax, 10 * m ≤ p.cap i := by
  obtain ⟨i, hi, hle⟩ := Finset.exists_min_image (Finset.range p.nmax) p.cap ⟨0, by simpa using Nat.pos_of_ne_zero (by omega)⟩
  refine ⟨p.cap i / 10, by have := hcap i (by simpa using hi); positivity, fun j hj => ?_⟩
  have := hle j (by simpa using hj)
  linarith

/-- `polycap_capil_trace_wall` ends for every photon flying downstream. -/
theorem wall_settles {D : Descr ℝ} (hn : 1 ≤ D.prof.nmax) (hcap : ∀ i < D.prof.nmax, 0 < D.prof.cap i) {c d : V3 ℝ} (hd : 0 < d.z) (K : Nat) :
    ∃ x, Settles (fun fuel _ => traceWall D fuel c d) K x := by
  obtain ⟨m, hm, hcap⟩ := least_cap hn hcap
  unfold traceWall
  simp only
  split
  · exact ⟨_, Settles.const (by simp) K⟩
  split
  · split
    · exact ⟨_, Settles.const (by simp) K⟩
    · exact ⟨_, Settles.const (end_ended hn _ _ _) K⟩
  · split
    · exact ⟨_, Settles.const (by simp) K⟩
    · have hz : segIdFrom D.prof.z 0 c.z D.prof.nmax < D.prof.nmax := segId_lt _ _ _ _ (by omega)
      obtain ⟨k, hk⟩ := exists_nat_gt ((D.prof.z D.prof.nmax - c.z) / (m * d.z))
      have hb : D.prof.z D.prof.nmax < c.z + ((lit 0 : ℝ) + ((k:ℝ) + 1) * m) * d.z := by
        rw [div_lt_iff₀ (by positivity)] at hk
        have : 0 < m * d.z := by positivity
        simp only [real_lit]
        push_cast
        nlinarith
      obtain ⟨x, hx, hh⟩ := hex_settles (ns := nShells (α := ℝ) D.n_cap) hn hm hcap hd k _ _ (lit 0) _ c hz hb
      exact ⟨x, hx, k + 1, fun fuel _ hf _ => hh fuel fuel hf hf⟩

/-! ## Following a photon along a capillary -/

/-- The photon is moved to a wall interaction at least 1e-5 cm further downstream, and only photons flying downstream are. -/
theorem search_advances {D : Descr ℝ} {capx capy : Nat → ℝ} {P : Photon ℝ} {k i j : Nat} {nrm v n : V3 ℝ} {ca : ℝ}
    (h : traceSearch D capx capy P k i P.exitC nrm = .hit j v n ca) : P.exitC.z + 1 / 10 ^ 5 ≤ v.z ∧ 0 < P.exitD.z := by
  obtain ⟨-, -, -, -, cur', nrm', hc, hs⟩ := traceSearch_hit D capx capy P k i P.exitC nrm j v n ca le_rfl h
  obtain ⟨hr, -, -, -, h5, h6, -⟩ := segment_success hs
  refine ⟨by linarith, ?_⟩
  have hd : 0 ≤ P.exitD.z := (segRejects_false.mp hr).2.2.2.2.1
  rcases hd.lt_or_eq with hd | hd
  · exact hd
  · have e0 : (vnorm P.exitD).z = 0 := by simp [vnorm, ← hd]
    rw [e0, div_zero] at h6
    norm_num at h6

theorem vnorm_z_pos {d : V3 ℝ} (h : 0 < (vnorm d).z) : 0 < d.z := by
  by_contra hc
  simp only [vnorm, real_div, real_sqrt] at h
  have := div_nonpos_of_nonpos_of_nonneg (not_lt.mp hc) (Real.sqrt_nonneg (d.x *. d.x +. d.y *. d.y +. d.z *. d.z))
  exact absurd h (not_lt.mpr this)

theorem vnorm_z_pos' {d : V3 ℝ} (h : 0 < d.z) : 0 < (vnorm d).z := (slope_norm d h).2.2

/-- One call of `polycap_capil_trace`, if reflections at least 1e-5 cm further downstream come to an end. -/
theorem trace_settles {D : Descr ℝ} {refl : Nat → Nat → V3 ℝ → Photon ℝ → Out (Int × Photon ℝ)} {K : Nat} {z0 : ℝ}
    (href : ∀ n Q, z0 + 1 / 10 ^ 5 ≤ Q.exitC.z → 0 < Q.exitD.z → ∃ x, Settles (fun fuel k => refl fuel k n Q) K x)
    (hframe : ∀ fuel k n Q c Q', refl fuel k n Q = .ok (c, Q') → Q'.exitC = Q.exitC)
    (capx capy : Nat → ℝ) (ix : Nat) (P : Photon ℝ) (hz : z0 ≤ P.exitC.z) :
    ∃ x, Settles (fun fuel k => capilTrace D (refl fuel k) capx capy ix P) K x ∧
      ∀ c ix' P', x = .ok (c, ix', P') → z0 ≤ P'.exitC.z := by
  unfold capilTrace
  simp only
  generalize hP : ({ P with exitD := vnorm P.exitD, startD := vnorm P.startD } : Photon ℝ) = Q
  have hQ : Q.exitC = P.exitC := by rw [← hP]
  have hzQ : z0 ≤ Q.exitC.z := by rw [hQ]; exact hz
  cases hs : traceSearch D capx capy Q (D.prof.nmax - ix) ix P.exitC ⟨lit 0, lit 0, lit 0⟩ with
  | ret code =>
    refine ⟨_, Settles.ok _ K, ?_⟩
    intro c ix' P' h
    injection h with h; injection h with _ h; injection h with _ h
    rw [← h]; exact hzQ
  | miss =>
    refine ⟨_, Settles.ok _ K, ?_⟩
    intro c ix' P' h
    injection h with h; injection h with _ h; injection h with _ h
    rw [← h]; exact hzQ
  | hit i v n ca =>
    rw [← hQ] at hs
    obtain ⟨hv, hd⟩ := search_advances hs
    have hv' : z0 + 1 / 10 ^ 5 ≤ v.z := by linarith
    have hv0 : z0 ≤ v.z := by have : (0:ℝ) < 1 / 10 ^ 5 := by norm_num
                              linarith
    unfold traceHit
    simp only
    split
    · refine ⟨_, Settles.ok _ K, ?_⟩
      intro c ix' P' h
      injection h with h; injection h with _ h; injection h with _ h
      rw [← h]; exact hv0
    split
    · exact ⟨.ub, Settles.const (by simp) K, by rintro _ _ _ ⟨⟩⟩
    split
    · refine ⟨_, Settles.ok _ K, ?_⟩
      intro c ix' P' h
      injection h with h; injection h with _ h; injection h with _ h
      rw [← h]; exact hv0
    split
    · refine ⟨_, Settles.ok _ K, ?_⟩
      intro c ix' P' h
      injection h with h; injection h with _ h; injection h with _ h
      rw [← h]; exact hv0
    obtain ⟨x, hx⟩ := href n { Q with d_travel := Q.d_travel +. dist3 v Q.exitC, exitC := v } hv' hd
    obtain ⟨N, hN⟩ := hx.from_
    cases x with
    | fuel => exact absurd rfl hx.ended
    | ub =>
      refine ⟨.ub, ⟨by simp, N, fun a b ha hb => ?_⟩, by rintro _ _ _ ⟨⟩⟩
      rw [hN a b ha hb]; rfl
    | ok y =>
      refine ⟨.ok (afterReflect n ca (segIdFrom D.prof.z (i + 1) v.z D.prof.nmax) y), ⟨by simp, N, fun a b ha hb => ?_⟩, ?_⟩
      · rw [hN a b ha hb]; rfl
      · have hf := hframe N K n _ y.1 y.2 (hN N K le_rfl le_rfl)
        intro c ix' P' h
        injection h with h
        have : P'.exitC = y.2.exitC := by
          have h2 : (afterReflect n ca (segIdFrom D.prof.z (i + 1) v.z D.prof.nmax) y).2.2 = P' := by rw [h]
          rw [← h2]
          unfold afterReflect
          split
          · rfl
          split <;> rfl
        rw [this, hf]
        exact hv0

/-- The loop over reflections. -/
theorem loop_settles {tr : Nat → Nat → Nat → Photon ℝ → Out (Int × Nat × Photon ℝ)} {K : Nat} {z0 : ℝ}
    (htr : ∀ ix P, z0 ≤ P.exitC.z → ∃ x, Settles (fun fuel k => tr fuel k ix P) K x ∧ ∀ c ix' P', x = .ok (c, ix', P') → z0 ≤ P'.exitC.z) :
    ∀ (n : Nat) (iesc : Int) (ix : Nat) (P : Photon ℝ), z0 ≤ P.exitC.z → ∃ x, Settles (fun fuel k => traceLoop (tr fuel k) n iesc ix P) K x := by
  intro n
  induction n with
  | zero => intro iesc ix P _; exact ⟨.ok (iesc, ix, P), Settles.const (by simp) K⟩
  | succ n ih =>
    intro iesc ix P hz
    obtain ⟨x, hx, hk⟩ := htr ix P hz
    refine hx.bind (fun fuel k x => if x.1 ≠ 1 then .ok x else traceLoop (tr fuel k) n x.1 x.2.1 x.2.2) ?_
    rintro ⟨c, ix', P'⟩ rfl
    by_cases hc : c ≠ 1
    · exact ⟨_, (Settles.const (x := .ok (c, ix', P')) (by simp) K).congr fun _ _ _ => if_pos hc⟩
    · obtain ⟨y, hy⟩ := ih c ix' P' (hk _ _ _ rfl)
      exact ⟨y, hy.congr fun _ _ _ => if_neg hc⟩

/-! ## Reflection, with the recursion into neighbouring capillaries -/

theorem leakFlag_off (D : Descr ℝ) (norm dir : V3 ℝ) (alfa d : ℝ) : ∀ (cs : List (Chan ℝ)) (E ev : V3 ℝ),
    (reflEnergies D norm dir alfa false d cs E ev).leakFlag = false := by
  intro cs
  induction cs with
  | nil => intro E ev; rfl
  | cons c cs ih =>
    intro E ev
    unfold reflEnergies
    simp only
    split
    · rfl
    · simp [ih]

/-- light that entered the glass comes out further downstream -/
theorem along_z {c d : V3 ℝ} {t : ℝ} (ht : 0 ≤ t) (hd : 0 < d.z) : c.z ≤ (along c d t).z := by
  simp only [along, real_add, real_mul, real_div, real_sqrt]
  have := mul_nonneg (div_nonneg ht (Real.sqrt_nonneg (scalar d d))) hd.le
  linarith

theorem leak_settles {D : Descr ℝ} {K : Nat} {z0 : ℝ} {tr : Nat → Nat → Int → Int → Nat → Photon ℝ → Out (Int × Nat × Photon ℝ)}
    (htr : ∀ q r ix T, z0 ≤ T.exitC.z →
      ∃ x, Settles (fun fuel k => tr fuel k q r ix T) K x ∧ ∀ c ix' P', x = .ok (c, ix', P') → z0 ≤ P'.exitC.z)
    {Q : Photon ℝ} (hz : z0 ≤ Q.exitC.z) (hd : 0 < Q.exitD.z) {w : Wall ℝ} (hw : 0 ≤ w.d) (wl : List ℝ) (iesc : Int) :
    ∃ x, Settles (fun fuel k => reflectLeak D (tr fuel k) Q w wl iesc) K x := by
  unfold reflectLeak
  simp only
  by_cases h3 : wallCode D w.code (along Q.exitC Q.exitD w.d) = 3
  · exact ⟨_, (Settles.ok _ K).congr fun _ _ _ => if_pos h3⟩
  by_cases h2 : wallCode D w.code (along Q.exitC Q.exitD w.d) = 2
  · exact ⟨_, (Settles.ok _ K).congr fun _ _ _ => (if_neg h3).trans (if_pos h2)⟩
  by_cases h1 : wallCode D w.code (along Q.exitC Q.exitD w.d) = 1 ∧ ((along Q.exitC Q.exitD w.d).z <. D.prof.z D.prof.nmax) = true
  · simp only [if_neg h3, if_neg h2, if_pos h1]
    cases hT : photonNew (along Q.exitC Q.exitD w.d) Q.exitD Q.exitE with
    | none => exact ⟨.ub, Settles.const (by simp) K⟩
    | some T =>
      have hTz : z0 ≤ (tempPhoton Q T w.d wl).exitC.z := by
        have : T.exitC = along Q.exitC Q.exitD w.d := by
          unfold photonNew at hT
          split at hT
          · simp at hT
          split at hT
          · simp at hT
          injection hT with hT; rw [← hT]
        have h := along_z (c := Q.exitC) hw hd
        rw [← this] at h
        exact hz.trans h
      obtain ⟨y, hy⟩ := loop_settles (fun ix T' hT' => htr w.q w.r ix T' hT')
        (D.prof.nmax - segIdFrom D.prof.z 0 (tempPhoton Q T w.d wl).exitC.z (D.prof.nmax + 1) + 1) 0
        (segIdFrom D.prof.z 0 (tempPhoton Q T w.d wl).exitC.z (D.prof.nmax + 1)) (tempPhoton Q T w.d wl) hTz
      refine hy.map (fun x => if x.1 = -1 ∨ x.1 = -3 then .ok (-2, Q)
        else .ok (iesc, recordTemp D { Q with ext := Q.ext ++ x.2.2.ext, int := Q.int ++ x.2.2.int } x.2.2 x.1)) ?_
      intro a
      split <;> simp
  · exact ⟨_, (Settles.ok _ K).congr fun _ _ _ => (if_neg h3).trans ((if_neg h2).trans (if_neg h1))⟩

theorem body_settles {D : Descr ℝ} (hn : 1 ≤ D.prof.nmax) (hcap : ∀ i < D.prof.nmax, 0 < D.prof.cap i) (leak : Bool) {K : Nat}
    {tr : Nat → Nat → Int → Int → Nat → Photon ℝ → Out (Int × Nat × Photon ℝ)} {P : Photon ℝ}
    (htr : leak = true → P.exitC.z < D.prof.z D.prof.nmax → ∀ q r ix T, P.exitC.z ≤ T.exitC.z →
      ∃ x, Settles (fun fuel k => tr fuel k q r ix T) K x ∧ ∀ c ix' P', x = .ok (c, ix', P') → P.exitC.z ≤ P'.exitC.z)
    (norm : V3 ℝ) (hd : 0 < P.exitD.z) :
    ∃ x, Settles (fun fuel k => reflectBody D leak fuel (tr fuel k) norm P) K x := by
  unfold reflectBody
  simp only
  split
  · exact ⟨_, Settles.ok _ K⟩
  have hd1 : 0 < (vnorm (vnorm P.exitD)).z := vnorm_z_pos' (vnorm_z_pos' hd)
  have hw : ∃ x, Settles (fun fuel _ => wallOf D leak fuel { P with exitD := vnorm P.exitD }) K x := by
    unfold wallOf
    split
    · exact wall_settles hn hcap hd1 K
    · exact ⟨_, Settles.ok _ K⟩
  obtain ⟨w, hw⟩ := hw
  refine hw.bind (fun fuel k w => reflectRest D leak (tr fuel k) _ _ _ w) ?_
  rintro w rfl
  obtain ⟨N, hN⟩ := hw.from_
  have hwN := hN N K le_rfl le_rfl
  have hwd := wallOf_d _ _ _ _ _ hwN
  have hQz : (renorm leak { P with exitD := vnorm P.exitD }).exitC = P.exitC := rfl
  have hQd : leak = true → 0 < (renorm leak { P with exitD := vnorm P.exitD }).exitD.z := by
    rintro rfl; simpa [renorm] using hd1
  generalize renorm leak { P with exitD := vnorm P.exitD } = Q at hQz hQd
  unfold reflectRest
  by_cases hcode : leak = true ∧ w.code ≤ 0
  · exact ⟨_, (Settles.ok _ K).congr fun _ _ _ => if_pos hcode⟩
  by_cases hco : (!Q.coef && !Q.chans.isEmpty) = true
  · exact ⟨.ub, (Settles.const (by simp) K).congr fun _ _ _ => (if_neg hcode).trans (if_pos hco)⟩
  simp only [if_neg hcode, if_neg hco]
  generalize hr : reflEnergies D (vnorm norm) Q.exitD (scalar (vnorm P.exitD) (vnorm norm)) leak w.d Q.chans Q.exitE Q.exitE = r
  by_cases hok : (!r.ok) = true
  · exact ⟨_, (Settles.ok _ K).congr fun _ _ _ => if_pos hok⟩
  simp only [if_neg hok]
  cases leak with
  | false =>
    have : r.leakFlag = false := by rw [← hr]; exact leakFlag_off _ _ _ _ _ _ _ _
    exact ⟨_, (Settles.ok _ K).congr fun fuel k _ => if_neg (by rw [this]; simp)⟩
  | true =>
    have hpos : 0 < w.code := by
      by_contra h
      exact hcode ⟨rfl, by omega⟩
    have hbelow : P.exitC.z < D.prof.z D.prof.nmax := by
      by_contra h
      have hge : ((P.exitC.z : ℝ) >=. D.prof.z D.prof.nmax) = true := by
        simp only [ge, real_le, decide_eq_true_eq]; exact not_lt.mp h
      have : traceWall D N P.exitC (vnorm (vnorm P.exitD)) = .ok ⟨-2, lit 0, 0, 0⟩ := by
        unfold traceWall; exact if_pos hge
      have hwN' : traceWall D N P.exitC (vnorm (vnorm P.exitD)) = .ok w := by simpa [wallOf] using hwN
      rw [this] at hwN'
      injection hwN' with e
      rw [← e] at hpos
      norm_num at hpos
    by_cases hl : r.leakFlag = true
    · simp only [if_pos hl]
      exact leak_settles (z0 := P.exitC.z) (htr rfl hbelow) (Q := { Q with chans := r.chans, exitE := r.ev })
        (by rw [← hQz]) (hQd rfl) hwd _ _
    · exact ⟨_, (Settles.ok _ K).congr fun fuel k _ => if_neg hl⟩

theorem reflect_settles {D : Descr ℝ} (hn : 1 ≤ D.prof.nmax) (hcap : ∀ i < D.prof.nmax, 0 < D.prof.cap i) (leak : Bool) :
    ∀ (b : Nat) (norm : V3 ℝ) (P : Photon ℝ), D.prof.z D.prof.nmax ≤ P.exitC.z + b * (1 / 10 ^ 5) → 0 < P.exitD.z →
    ∃ x, Settles (fun fuel k => reflect D leak fuel k norm P) (b + 1) x := by
  intro b
  induction b with
  | zero =>
    intro norm P hz hd
    have hz : D.prof.z D.prof.nmax ≤ P.exitC.z := by simpa using hz
    obtain ⟨x, hx⟩ := body_settles hn hcap leak (K := 0)
      (tr := fun fuel k q r ix T => capilTrace D (reflect D leak fuel k) (capxOf D q r) (capyOf D q r) ix T) (P := P)
      (fun _ h => absurd h (not_lt.mpr hz)) norm hd
    obtain ⟨N, hN⟩ := hx.from_
    refine ⟨x, hx.ended, N, fun fuel k hf hk => ?_⟩
    obtain ⟨k, rfl⟩ : ∃ j, k = j + 1 := ⟨k - 1, by omega⟩
    exact hN fuel k hf (Nat.zero_le _)
  | succ b ih =>
    intro norm P hz hd
    obtain ⟨x, hx⟩ := body_settles hn hcap leak (K := b + 1)
      (tr := fun fuel k q r ix T => capilTrace D (reflect D leak fuel k) (capxOf D q r) (capyOf D q r) ix T) (P := P)
      (fun _ _ q r ix T hT => trace_settles (refl := fun fuel k => reflect D leak fuel k)
        (fun n Q hQ hQd => ih n Q (by push_cast at hz; linarith) hQd)
        (fun fuel k n Q c Q' h => (reflect_frame D leak fuel k n Q c Q' h).1.exitC) _ _ ix T hT) norm hd
    obtain ⟨N, hN⟩ := hx.from_
    refine ⟨x, hx.ended, N, fun fuel k hf hk => ?_⟩
    obtain ⟨k, rfl⟩ : ∃ j, k = j + 1 := ⟨k - 1, by omega⟩
    exact hN fuel k hf (by omega)

/-- Without leak calculation there is no walk through glass and no recursion. -/
theorem reflect_settles_noleak (D : Descr ℝ) (norm : V3 ℝ) (P : Photon ℝ) :
    ∃ x, Settles (fun fuel k => reflect D false fuel k norm P) 1 x := by
  have h : ∀ (tr : Int → Int → Nat → Photon ℝ → Out (Int × Nat × Photon ℝ)) fuel, reflectBody D false fuel tr norm P ≠ .fuel ∧
      reflectBody D false fuel tr norm P = reflectBody D false 0 (fun _ _ _ _ => .fuel) norm P := by
    intro tr fuel
    unfold reflectBody
    simp only [wallOf, Bool.false_eq_true, if_false]
    split
    · exact ⟨by simp, rfl⟩
    simp only [Bind.bind, Out.bind]
    unfold reflectRest
    simp only [Bool.false_eq_true, false_and, if_false]
    split
    · exact ⟨by simp, rfl⟩
    split
    · exact ⟨by simp, rfl⟩
    simp only [leakFlag_off, Bool.false_eq_true, if_false]
    exact ⟨by simp, trivial⟩
  refine ⟨reflectBody D false 0 (fun _ _ _ _ => .fuel) norm P, (h _ 0).1, 0, fun fuel k _ hk => ?_⟩
  obtain ⟨k, rfl⟩ : ∃ j, k = j + 1 := ⟨k - 1, by omega⟩
  exact (h _ fuel).2

/-- Following a photon that is in a capillary. -/
theorem inside_settles {D : Descr ℝ} (leak : Bool) (hg : leak = true → GoodTube D.prof) {b : Nat} {z0 : ℝ}
    (hz : D.prof.z D.prof.nmax ≤ z0 + b * (1 / 10 ^ 5)) (capx capy : Nat → ℝ) (n : Nat) (iesc : Int) (ix : Nat) (P : Photon ℝ)
    (hP : z0 ≤ P.exitC.z) :
    ∃ x, Settles (fun fuel k => traceLoop (trace D leak fuel k capx capy) n iesc ix P) (b + 1) x := by
  refine loop_settles (tr := fun fuel k => trace D leak fuel k capx capy) (z0 := z0) ?_ n iesc ix P hP
  intro ix P hP
  refine trace_settles (refl := fun fuel k => reflect D leak fuel k) ?_
    (fun fuel k n Q c Q' h => (reflect_frame D leak fuel k n Q c Q' h).1.exitC) capx capy ix P hP
  intro n Q hQ hd
  have : (0:ℝ) < 1 / 10 ^ 5 := by norm_num
  cases leak with
  | true => exact reflect_settles (hg rfl).segments (hg rfl).open_ true b n Q (by linarith) hd
  | false =>
    obtain ⟨x, hx⟩ := reflect_settles_noleak D n Q
    exact ⟨x, hx.mono (by omega)⟩

theorem launchInside_settles {D : Descr ℝ} (leak : Bool) (hg : leak = true → GoodTube D.prof) {b : Nat}
    {P : Photon ℝ} (hP : P.exitC = P.startC) (hz : D.prof.z D.prof.nmax ≤ P.startC.z + b * (1 / 10 ^ 5)) (qr : Int × Int) :
    ∃ x, Settles (fun fuel k => launchInside D leak fuel k qr P) (b + 1) x := by
  unfold launchInside
  obtain ⟨x, hx⟩ := inside_settles leak hg hz (axX D qr) (axY D qr) (D.prof.nmax + 1) 0
    (segIdFrom D.prof.z 0 P.startC.z (D.prof.nmax + 1)) P (by rw [hP])
  exact hx.map _ fun a => by simp

theorem launchWall_settles {D : Descr ℝ} (leak : Bool) (hg : leak = true → GoodTube D.prof) {b : Nat}
    {P : Photon ℝ} (hP : P.exitC = P.startC) (hz : D.prof.z D.prof.nmax ≤ P.startC.z + b * (1 / 10 ^ 5)) (hd : 0 < P.exitD.z)
    {w : Wall ℝ} (hw : 0 ≤ w.d) :
    ∃ x, Settles (fun fuel k => launchWall D leak fuel k P w) (b + 1) x := by
  unfold launchWall
  by_cases h0 : w.code ≤ 0
  · exact ⟨_, (Settles.ok _ _).congr fun _ _ _ => if_pos h0⟩
  by_cases hco : (!P.coef && !P.chans.isEmpty) = true
  · exact ⟨.ub, (Settles.const (by simp) _).congr fun _ _ _ => (if_neg h0).trans (if_pos hco)⟩
  by_cases h3 : w.code = 3
  · exact ⟨_, (Settles.ok _ _).congr fun _ _ _ => (if_neg h0).trans ((if_neg hco).trans (if_pos h3))⟩
  by_cases h2 : w.code = 2
  · exact ⟨_, (Settles.ok _ _).congr fun _ _ _ => (if_neg h0).trans ((if_neg hco).trans ((if_neg h3).trans (if_pos h2)))⟩
  simp only [if_neg h0, if_neg hco, if_neg h3, if_neg h2]
  have ha := along_z (c := P.exitC) hw hd
  rw [hP] at ha
  obtain ⟨x, hx⟩ := inside_settles leak hg hz (axX D (w.q, w.r)) (axY D (w.q, w.r)) (D.prof.nmax + 1) 0
    (segIdFrom D.prof.z (segIdFrom D.prof.z 0 P.startC.z (D.prof.nmax + 1)) (along P.exitC P.exitD w.d).z (D.prof.nmax + 1))
    { P with chans := P.chans.map (attenuate w.d), exitC := along P.exitC P.exitD w.d, d_travel := P.d_travel +. w.d }
    (by simp only [hP]; exact ha)
  refine hx.map (fun x => if x.1 = -1 ∨ x.1 = -3 then .ok (-1, WOut.uninit, finish x.2.2)
      else .ok (1, WOut.uninit, finish (clearWall D (recordLaunch D x.2.2 x.1)))) ?_
  intro a
  split <;> simp

/-- **Every launch returns.**  For every optic, every photon, all energies and both leak settings – with leak calculation the
optic has to have at least one segment and positive capillary radii, and the photon has to fly downstream – the launch comes
to an end, with one result that does not depend on how far the loops and the recursion are followed beyond that; the recursion
is never deeper than the number of 1e-5 cm steps from the start to the exit window, plus one. -/
theorem launch_terminates (lib : Xray ℝ) {D : Descr ℝ} (leak : Bool) (hg : leak = true → GoodTube D.prof)
    (P : Photon ℝ) (hdir : leak = true → 0 < P.startD.z) (es : Option (List ℝ)) (wptr : Bool)
    (b : Nat) (hb : D.prof.z D.prof.nmax ≤ P.startC.z + b * (1 / 10 ^ 5)) :
    ∃ x, x ≠ .fuel ∧ ∃ N, ∀ fuel k, N ≤ fuel → b + 1 ≤ k → launch lib (some D) leak fuel k (some P) es wptr = x := by
  suffices h : ∃ x, Settles (fun fuel k => launch lib (some D) leak fuel k (some P) es wptr) (b + 1) x by
    obtain ⟨x, hx⟩ := h
    exact ⟨x, hx.ended, hx.from_⟩
  unfold launch
  cases es with
  | none => exact ⟨_, Settles.ok _ _⟩
  | some es =>
    simp only
    split
    · exact ⟨_, Settles.ok _ _⟩
    suffices h : ∃ x, Settles (fun fuel k => launchBody lib D leak fuel k P es) (b + 1) x by
      obtain ⟨x, hx⟩ := h
      exact hx.map _ fun a => by simp
    have hC : (launchInit lib D es P).exitC = (launchInit lib D es P).startC := rfl
    have hS : (launchInit lib D es P).startC = P.startC := rfl
    have hd : leak = true → 0 < (launchInit lib D es P).exitD.z := fun h => vnorm_z_pos' (vnorm_z_pos' (hdir h))
    unfold launchBody
    simp only
    generalize launchInit lib D es P = Q at hC hS hd
    rw [← hS] at hb
    cases launchCap D Q.startC with
    | none => exact ⟨_, Settles.ok _ _⟩
    | some qr =>
      by_cases hw : startsInWall D qr Q.startC = true
      · by_cases h0 : (leak && Q.startC.z ==. lit 0) = true
        · have hl : leak = true := by
            simp only [Bool.and_eq_true] at h0; exact h0.1
          simp only [if_pos hw, if_pos h0]
          obtain ⟨x, hx⟩ := reflect_settles (hg hl).segments (hg hl).open_ leak b ⟨lit 0, lit 0, lit 1⟩ Q (by rw [hC]; exact hb) (hd hl)
          exact hx.map _ fun a => by simp
        · by_cases h1 : (leak && Q.startC.z >. lit 0) = true
          · have hl : leak = true := by
              simp only [Bool.and_eq_true] at h1; exact h1.1
            simp only [if_pos hw, if_neg h0, if_pos h1]
            obtain ⟨w, hx⟩ := wall_settles (c := Q.exitC) (hg hl).segments (hg hl).open_ (vnorm_z_pos' (hd hl)) (b + 1)
            refine hx.bind (fun fuel k w => launchWall D leak fuel k { Q with exitD := vnorm Q.exitD } w) ?_
            rintro w rfl
            obtain ⟨N, hN⟩ := hx.from_
            exact launchWall_settles leak hg (P := { Q with exitD := vnorm Q.exitD }) hC hb (vnorm_z_pos' (hd hl))
              (traceWall_d _ _ _ _ _ (hN N (b + 1) le_rfl le_rfl)).1
          · simp only [if_pos hw, if_neg h0, if_neg h1]
            exact ⟨_, Settles.ok _ _⟩
      · simp only [if_neg hw]
        exact launchInside_settles leak hg hC hb qr

/-- … with any photon: there is always a sufficient depth. -/
theorem launch_terminates_always (lib : Xray ℝ) {D : Descr ℝ} (leak : Bool) (hg : leak = true → GoodTube D.prof)
    (P : Photon ℝ) (hdir : leak = true → 0 < P.startD.z) (es : Option (List ℝ)) (wptr : Bool) :
    ∃ x, x ≠ .fuel ∧ ∃ N, ∀ fuel k, N ≤ fuel → N ≤ k → launch lib (some D) leak fuel k (some P) es wptr = x := by
  obtain ⟨b, hb⟩ := exists_nat_ge ((D.prof.z D.prof.nmax - P.startC.z) * 10 ^ 5)
  obtain ⟨x, hx, N, hN⟩ := launch_terminates lib leak hg P hdir es wptr b (by
    have : (D.prof.z D.prof.nmax - P.startC.z) * 10 ^ 5 * (1 / 10 ^ 5) ≤ b * (1 / 10 ^ 5) := mul_le_mul_of_nonneg_right hb (by norm_num)
    have h2 : (D.prof.z D.prof.nmax - P.startC.z) * 10 ^ 5 * (1 / 10 ^ 5) = D.prof.z D.prof.nmax - P.startC.z := by ring
    linarith)
  exact ⟨x, hx, max N (b + 1), fun fuel k h1 h2 => hN fuel k (le_trans (le_max_left _ _) h1) (le_trans (le_max_right _ _) h2)⟩


/-! ## Capillaries of radius 0 -/

/-- With capillaries of radius 0 the photon does not move in the stepping loop. -/
theorem step_stuck {p : Profile ℝ} (g : Grid p) (hcap : ∀ i, p.cap i = 0) {ns : Int} {c d : V3 ℝ} (hz : c.z = 0) {qr : Int × Int}
    (hq : hexRound ns (p.ext 0) c.x c.y = qr) : ∀ f, wallStep p ns qr.1 qr.2 c d f 0 0 = .fuel := by
  intro f
  induction f with
  | zero => rfl
  | succ f ih =>
    have h0 : (0:ℝ) +. p.cap 0 /. lit 10 = 0 := by simp [hcap]
    have hph : (⟨c.x +. (0:ℝ) *. d.x, c.y +. (0:ℝ) *. d.y, c.z +. (0:ℝ) *. d.z⟩ : V3 ℝ) = c := by
      simp
    have hcz : c.z +. (0:ℝ) *. d.z = 0 := by simp [hz]
    have hcx : c.x +. (0:ℝ) *. d.x = c.x := by simp
    have hcy : c.y +. (0:ℝ) *. d.y = c.y := by simp
    have hseg : segIdFrom p.z 0 (0:ℝ) p.nmax = 0 := by
      obtain ⟨n, hn⟩ : ∃ n, p.nmax = n + 1 := ⟨p.nmax - 1, by have := g.two; omega⟩
      rw [hn]
      refine segId_zero _ _ _ _ (le_of_eq g.start) fun i h1 h2 => ?_
      have := strict_of_step g.inc (i := 0) (j := i) (by omega) (by omega)
      rwa [g.start] at this
    have hext : interpAt p p.ext 0 (0:ℝ) = p.ext 0 := by simp [interpAt, interp, g.start]
    have hrad : interpAt p p.cap 0 (0:ℝ) = 0 := by simp [interpAt, interp, hcap]
    rw [wallStep]
    simp only [h0, hcz, hcx, hcy, hseg, hext, hrad, hq]
    rw [if_neg, if_pos, ih]
    · simp only [decide_true, and_self, Bool.true_and, real_le, decide_eq_true_eq]
      have := strict_of_step g.inc (i := 0) (j := p.nmax) (by have := g.two; omega) le_rfl
      rw [g.start] at this
      exact this.le
    · simp only [Bool.and_eq_true, not_and, real_lt, decide_eq_true_eq]
      intro h
      exact absurd h (by simp only [not_and, real_sqrt]; intro h; exact absurd h (not_lt.mpr (Real.sqrt_nonneg _)))

/-- **Finding.**  In every polycapillary optic whose capillaries have radius 0, a photon that arrives in the glass of the
entrance window never comes back from a launch with leak calculation: the walk through the glass proceeds in steps of a tenth
of the capillary radius. -/
theorem launch_hangs (lib : Xray ℝ) {D : Descr ℝ} (g : Grid D.prof) (hn : 4 ≤ D.n_cap) (hext : 0 < D.prof.ext 0) (hcap : ∀ i, D.prof.cap i = 0)
    (P : Photon ℝ) (hz : P.startC.z = 0) (hdir : 0 < P.startD.z) (hin : ¬ Outside D.n_cap (D.prof.ext 0) P.startC)
    (hgl : InGlass D.n_cap (D.prof.ext 0) 0 P.startC) {es : List ℝ} (hes : es ≠ []) (hb : ∀ e ∈ es, 1 ≤ e ∧ e ≤ 100) :
    ∀ fuel k, launch lib (some D) true fuel k (some P) (some es) true = .fuel := by
  intro fuel k
  obtain ⟨D', P', es', h1, h2, h3, -, -, -, hl⟩ := launch_valid lib (some D) true fuel k (some P) (some es) true (not_argsBad hes hb)
  injection h1 with h1; injection h2 with h2; injection h3 with h3
  subst h1 h2 h3
  rw [hl]
  suffices h : launchBody lib D true fuel k P es = .fuel by rw [h]; rfl
  have hpos : 0 < D.prof.z D.prof.nmax := by
    have := strict_of_step g.inc (i := 0) (j := D.prof.nmax) (by have := g.two; omega) le_rfl
    rwa [g.start] at this
  have hns : nShells (α := ℝ) D.n_cap ≠ 0 := by
    intro h; have := (nShells_zero_iff D.n_cap (by omega)).mp h; omega
  have hR : launchExt D.prof P.startC.z = D.prof.ext 0 := by
    refine (launchExt_value g (by rw [hz]) (by rw [hz]; exact hpos.le)).unique g ?_
    rw [hz, ← g.start]; exact valueAt_grid g _ g.two
  have hc : launchCap D P.startC ≠ none := by
    rw [Ne, launchCap_none (by omega) (by rw [hR]; exact hext), hR]; exact hin
  obtain ⟨qr, hqr⟩ := Option.ne_none_iff_exists'.mp hc
  have hw : startsInWall D qr P.startC = true := by
    refine (startsInWall_iff g (by omega) (by rw [hz]) (by rw [hz]; exact hpos.le) (R := D.prof.ext 0) (rad := 0) ?_ ?_ hqr).mpr hgl
    · rw [hz, ← g.start]; exact valueAt_grid g _ g.two
    · have := valueAt_grid g D.prof.cap (i := 0) g.two
      rw [hcap, g.start] at this
      rw [hz]; exact this
  have hbd : withinPcBoundary (D.prof.ext 0) P.startC.x P.startC.y ≠ 0 := by
    intro h
    refine hc ?_
    unfold launchCap
    simp only [hR, if_neg hns, if_pos h]
  unfold launchBody
  simp only
  rw [show (launchInit lib D es P).startC = P.startC from rfl, hqr]
  simp only [if_pos hw]
  rw [if_pos (by simp [hz])]
  suffices h : reflect D true fuel k ⟨lit 0, lit 0, lit 1⟩ (launchInit lib D es P) = .fuel by rw [h]; rfl
  cases k with
  | zero => rfl
  | succ k =>
    have hseg : segIdFrom D.prof.z 0 (0:ℝ) D.prof.nmax = 0 := by
      obtain ⟨n, hn⟩ : ∃ n, D.prof.nmax = n + 1 := ⟨D.prof.nmax - 1, by have := g.two; omega⟩
      rw [hn]
      refine segId_zero _ _ _ _ (le_of_eq g.start) fun i h1 h2 => ?_
      have := strict_of_step g.inc (i := 0) (j := i) (by omega) (by omega)
      rwa [g.start] at this
    have hwall : ∀ d, traceWall D fuel P.startC d = .fuel := by
      intro d
      unfold traceWall
      simp only [hz, hseg]
      rw [if_neg (by simp only [ge, real_le, decide_eq_true_eq]; exact not_le.mpr hpos), if_neg hns]
      have hwe : wallExt D.prof 0 (0:ℝ) = D.prof.ext 0 := by
        unfold wallExt
        split
        · simp [interpAt, interp, g.start]
        · rfl
      rw [hwe, if_neg hbd]
      cases fuel with
      | zero => rfl
      | succ f =>
        rw [wallHex, show (lit 0 : ℝ) = 0 from by simp, step_stuck g hcap hz rfl]
        rfl
    rw [reflect]
    unfold reflectBody
    simp only
    rw [if_neg]
    · have : wallOf D true fuel { launchInit lib D es P with exitD := vnorm (launchInit lib D es P).exitD } = .fuel := hwall _
      rw [this]; rfl
    · have h2 : 0 < (vnorm (launchInit lib D es P).exitD).z := vnorm_z_pos' (vnorm_z_pos' (vnorm_z_pos' hdir))
      have h3 : 0 < (vnorm (⟨lit 0, lit 0, lit 1⟩ : V3 ℝ)).z := vnorm_z_pos' (by simp)
      have hx : (vnorm (⟨lit 0, lit 0, lit 1⟩ : V3 ℝ)).x = 0 := by simp [vnorm]
      have hy : (vnorm (⟨lit 0, lit 0, lit 1⟩ : V3 ℝ)).y = 0 := by simp [vnorm]
      generalize vnorm (⟨lit 0, lit 0, lit 1⟩ : V3 ℝ) = n at h3 hx hy
      generalize vnorm (launchInit lib D es P).exitD = d at h2
      have : scalar d n = d.z * n.z := by simp [scalar, hx, hy]
      rw [this]
      simp only [real_lt, real_lit, Rat.cast_zero, decide_eq_true_eq, not_lt]
      positivity

/-- An optic of seven capillaries of radius 0. -/
noncomputable def closedD : Descr ℝ := { sig_rough := 5, n_cap := 7, iz := [14], wi := [100], density := 2, prof := straight 0 1 }

theorem closed_grid : Grid closedD.prof :=
  ⟨by simp [closedD, straight], by simp [closedD, straight], fun i _ => by simp [closedD, straight]⟩

/-- The library accepts it, … -/
theorem closed_accepted : validate closedD.prof.toXR closedD.n_cap = 1 := by
  refine (validate_poly_iff closedD.prof closedD.n_cap (by norm_num [closedD]) (fun i _ => by simp [closedD, straight])
    (fun i _ => by simp [closedD, straight])).1 ?_
  intro q r hs i _
  have h7 : nShells (α := ℝ) closedD.n_cap = 1 := nShells_7
  rw [h7] at hs ⊢
  have he : closedD.prof.ext i = 1 := rfl
  have hc : closedD.prof.cap i = 0 := rfl
  rw [he, hc]
  simp only [outerPoint, zero_div, add_zero, mul_one]
  refine boundary_contains_disc _ _ _ (by norm_num) ?_
  have hx : centreX 1 1 q r = (2 * q + r) / 4 := by simp [centreX]; ring
  have hcp := cospi6_pos
  have hgt := cospi6_sq_gt
  have hci : (1:ℝ) / cospi6 ^ 2 < 3 / 2 := by
    have hlt := cospi6_sq_lt
    rw [div_lt_iff₀ (by positivity)]; nlinarith
  have hy : (centreY 1 1 r) ^ 2 = (r:ℝ) ^ 2 * (9 / 64) * (1 / cospi6 ^ 2) := by
    simp only [centreY]; push_cast; field_simp; ring
  rw [hx, hy]
  have h4 : (2 * q + r) ^ 2 ≤ 4 ∧ r ^ 2 ≤ 1 := by
    obtain ⟨a1, a2, a3, a4⟩ := hs
    simp only [abs_le] at a1 a2 a3
    have hq : q = -1 ∨ q = 0 ∨ q = 1 := by omega
    have hr : r = -1 ∨ r = 0 ∨ r = 1 := by omega
    rcases hq with rfl | rfl | rfl <;> rcases hr with rfl | rfl | rfl <;> simp at a3 ⊢
  have h5 : ((2 * q + r : ℝ)) ^ 2 ≤ 4 ∧ (r:ℝ) ^ 2 ≤ 1 := by exact_mod_cast h4
  have hr0 : (0:ℝ) ≤ (r:ℝ) ^ 2 := by positivity
  have h6 : (r:ℝ) ^ 2 * (9 / 64) * (1 / cospi6 ^ 2) ≤ 9 / 64 * (3 / 2) := by
    have a : (0:ℝ) ≤ 1 / cospi6 ^ 2 := by positivity
    calc (r:ℝ) ^ 2 * (9 / 64) * (1 / cospi6 ^ 2) ≤ 1 * (9 / 64) * (1 / cospi6 ^ 2) := by gcongr; exact h5.2
      _ ≤ 1 * (9 / 64) * (3 / 2) := by gcongr
      _ = _ := by ring
  nlinarith [h5.1]

/-- … and a photon that comes down on its entrance window, anywhere in the glass within 0.86 cm of the axis and not at a
multiple of a quarter of a centimetre, is launched for ever. -/
theorem closed_hangs (lib : Xray ℝ) (P : Photon ℝ) (hz : P.startC.z = 0) (hdir : 0 < P.startD.z)
    (hr : P.startC.x ^ 2 + P.startC.y ^ 2 ≤ 3 / 4) (hx : ∀ m : Int, P.startC.x ≠ m / 4) {es : List ℝ} (hes : es ≠ [])
    (hb : ∀ e ∈ es, 1 ≤ e ∧ e ≤ 100) (fuel k : Nat) : launch lib (some closedD) true fuel k (some P) (some es) true = .fuel := by
  refine launch_hangs lib closed_grid (by norm_num [closedD]) (by simp [closedD, straight]) (fun _ => rfl) P hz hdir ?_ ?_ hes hb fuel k
  · have h := (boundary_one_iff (1:ℝ) P.startC.x P.startC.y).mp (boundary_contains_disc _ _ _ (by norm_num) (by linarith))
    unfold Outside
    rw [if_neg (by norm_num [closedD])]
    exact fun hn => hn h.2
  · unfold InGlass
    rw [if_neg (by norm_num [closedD])]
    simp only
    have h7 : nShells (α := ℝ) closedD.n_cap = 1 := nShells_7
    have he : closedD.prof.ext 0 = 1 := rfl
    rw [h7, he]
    generalize hexRound (α := ℝ) 1 1 P.startC.x P.startC.y = qr
    apply Real.sqrt_pos.mpr
    have hc : centreX 1 1 qr.1 qr.2 = ((2 * qr.1 + qr.2 : Int) : ℝ) / 4 := by simp [centreX]; ring
    have hne := hx (2 * qr.1 + qr.2)
    rw [← hc] at hne
    unfold dist2Centre
    have : 0 < (P.startC.x - centreX 1 1 qr.1 qr.2) ^ 2 := by
      have := sub_ne_zero.mpr hne
      positivity
    positivity

/-- the finding is not about nothing: such photons exist -/
example (lib : Xray ℝ) (fuel k : Nat) :
    launch lib (some closedD) true fuel k (some (exP ⟨1 / 10, 0, 0⟩ ⟨0, 0, 1⟩ 0)) (some [10]) true = .fuel := by
  refine closed_hangs lib _ rfl (by simp [exP]) (by norm_num [exP]) ?_ (by simp) (by simp; norm_num) fuel k
  intro m h
  have h1 : (1 / 10 : ℝ) = m / 4 := h
  have h2 : (2 : ℝ) = 5 * m := by linarith
  have h3 : (2 : Int) = 5 * m := by exact_mod_cast h2
  omega

/-- `launch_terminates` applies, with leak calculation, to the optic of the same shape with open capillaries. -/
example (lib : Xray ℝ) : ∃ D : Descr ℝ, D.n_cap = 7 ∧ GoodTube D.prof ∧
    ∃ x, x ≠ .fuel ∧ ∃ N, ∀ fuel k, N ≤ fuel → 200001 ≤ k →
      launch lib (some D) true fuel k (some (exP ⟨1 / 10, 0, 0⟩ ⟨0, 0, 1⟩ 0)) (some [10]) true = x := by
  have hg : GoodTube (straight (1 / 100) 1) := ⟨by simp [straight], fun i _ => by simp [straight]⟩
  exact ⟨{ closedD with prof := straight (1 / 100) 1 }, rfl, hg,
    launch_terminates lib true (fun _ => hg) _ (fun _ => by simp [exP]) _ _ 200000 (by norm_num [straight, exP])⟩

end Polycap.Term
