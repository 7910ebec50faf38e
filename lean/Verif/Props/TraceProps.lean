import Mathlib.Analysis.Real.Pi.Bounds
import Mathlib.Analysis.InnerProductSpace.PiL2
import Verif.Capil
import Verif.Props.SegmentProps

/-!
# C20, C42, C43: reflections, travelled distance, downstream progress

Statements over exact reals.  `Mirror d n d'` and `Advance` below are the specification.
-/
namespace Polycap
open CNum

/-! ## What `polycap_capil_reflect` does not touch -/

variable {α : Type} [CNum α]

/-- Fields of a photon that a reflection leaves alone. -/
structure SameTrack (P P' : Photon α) : Prop where
  startC : P'.startC = P.startC
  startD : P'.startD = P.startD
  startE : P'.startE = P.startE
  exitC : P'.exitC = P.exitC
  i_refl : P'.i_refl = P.i_refl
  d_travel : P'.d_travel = P.d_travel

omit [CNum α] in
theorem SameTrack.refl (P : Photon α) : SameTrack P P := ⟨rfl, rfl, rfl, rfl, rfl, rfl⟩

omit [CNum α] in
theorem SameTrack.trans {P Q R : Photon α} (h : SameTrack P Q) (g : SameTrack Q R) : SameTrack P R :=
  ⟨g.1.trans h.1, g.2.trans h.2, g.3.trans h.3, g.4.trans h.4, g.5.trans h.5, g.6.trans h.6⟩

theorem reflectLeak_frame (D : Descr α) (tr) (P : Photon α) (w : Wall α) (wl : List α) (iesc c : Int) (P' : Photon α)
    (h : reflectLeak D tr P w wl iesc = .ok (c, P')) :
    SameTrack P P' ∧ P'.exitD = P.exitD ∧ P'.exitE = P.exitE ∧ P'.chans = P.chans ∧ P'.coef = P.coef ∧
      (c = iesc ∨ c = -2) := by
  unfold reflectLeak at h
  simp only at h
  split at h
  · injection h with h; injection h with h1 h2; subst h1 h2
    exact ⟨⟨rfl, rfl, rfl, rfl, rfl, rfl⟩, rfl, rfl, rfl, rfl, Or.inl rfl⟩
  split at h
  · injection h with h; injection h with h1 h2; subst h1 h2
    exact ⟨⟨rfl, rfl, rfl, rfl, rfl, rfl⟩, rfl, rfl, rfl, rfl, Or.inl rfl⟩
  split at h
  · split at h
    · simp at h
    · rw [Out.bind_eq_ok] at h
      obtain ⟨x, -, h⟩ := h
      split at h
      · injection h with h; injection h with h1 h2; subst h1 h2
        exact ⟨.refl P, rfl, rfl, rfl, rfl, Or.inr rfl⟩
      · injection h with h; injection h with h1 h2; subst h1 h2
        refine ⟨?_, ?_, ?_, ?_, ?_, Or.inl rfl⟩
        · unfold recordTemp; simp only; split_ifs <;> exact ⟨rfl, rfl, rfl, rfl, rfl, rfl⟩
        all_goals (unfold recordTemp; simp only; split_ifs <;> rfl)
  · injection h with h; injection h with h1 h2; subst h1 h2
    exact ⟨.refl P, rfl, rfl, rfl, rfl, Or.inl rfl⟩

theorem reflectRest_frame (D : Descr α) (leak : Bool) (tr) (n : V3 α) (a : α) (P : Photon α) (w : Wall α) (c : Int)
    (P' : Photon α) (h : reflectRest D leak tr n a P w = .ok (c, P')) :
    SameTrack P P' ∧ P'.exitD = P.exitD ∧ (c = -2 ∨ c = -1 ∨ c = 0 ∨ c = 1) := by
  unfold reflectRest at h
  simp only at h
  split at h
  · injection h with h; injection h with h1 h2; subst h1 h2
    exact ⟨.refl P, rfl, by simp⟩
  split at h
  · simp at h
  split at h
  · injection h with h; injection h with h1 h2; subst h1 h2
    exact ⟨⟨rfl, rfl, rfl, rfl, rfl, rfl⟩, rfl, by simp⟩
  split at h
  · obtain ⟨a, b, -, -, -, d⟩ := reflectLeak_frame _ _ _ _ _ _ _ _ h
    refine ⟨⟨a.1, a.2, a.3, a.4, a.5, a.6⟩, b, ?_⟩
    rcases d with d | d
    · subst d; split <;> simp
    · simp [d]
  · injection h with h; injection h with h1 h2; subst h1 h2
    refine ⟨⟨rfl, rfl, rfl, rfl, rfl, rfl⟩, rfl, ?_⟩
    split <;> simp

/-- `polycap_capil_reflect` moves nothing: start values, position, reflection count and travelled distance
are untouched, the direction is (re-)normalised, the return value is one of -2, -1, 0, 1. -/
theorem reflectBody_frame (D : Descr α) (leak : Bool) (fuel : Nat) (tr) (n : V3 α) (P : Photon α) (c : Int)
    (P' : Photon α) (h : reflectBody D leak fuel tr n P = .ok (c, P')) :
    SameTrack P P' ∧ (P'.exitD = vnorm P.exitD ∨ P'.exitD = vnorm (vnorm P.exitD)) ∧
      (c = -2 ∨ c = -1 ∨ c = 0 ∨ c = 1) := by
  unfold reflectBody at h
  simp only at h
  split at h
  · injection h with h; injection h with h1 h2; subst h1 h2
    exact ⟨⟨rfl, rfl, rfl, rfl, rfl, rfl⟩, Or.inl rfl, by simp⟩
  rw [Out.bind_eq_ok] at h
  obtain ⟨w, -, h⟩ := h
  obtain ⟨a, b, c⟩ := reflectRest_frame _ _ _ _ _ _ _ _ _ h
  refine ⟨⟨a.1, a.2, a.3, a.4, a.5, a.6⟩, ?_, c⟩
  rw [b]; unfold renorm; cases leak <;> simp

theorem reflect_frame (D : Descr α) (leak : Bool) (fuel k : Nat) (n : V3 α) (P : Photon α) (c : Int)
    (P' : Photon α) (h : reflect D leak fuel k n P = .ok (c, P')) :
    SameTrack P P' ∧ (P'.exitD = vnorm P.exitD ∨ P'.exitD = vnorm (vnorm P.exitD)) ∧
      (c = -2 ∨ c = -1 ∨ c = 0 ∨ c = 1) := by
  cases k with
  | zero => simp [reflect] at h
  | succ k => exact reflectBody_frame _ _ _ _ _ _ _ _ h

/-! ## The search loop over the reals -/

/-- The mirror law: `d'` is `d` with the component along `n` reversed and everything orthogonal to `n`
kept. -/
def Mirror (d n d' : V3 ℝ) : Prop :=
  dot d' n = - dot d n ∧ ∀ t, dot t n = 0 → dot d' t = dot d t

/-- the axis point of a capillary given by its coordinate arrays -/
def axisPt (D : Descr ℝ) (capx capy : Nat → ℝ) (i : Nat) : V3 ℝ := ⟨capx i, capy i, D.prof.z i⟩

theorem atGrid_eq (p : Profile ℝ) (c d : V3 ℝ) (i : Nat) :
    atGrid p c d i = ⟨c.x + d.x * (p.z i - c.z) / d.z, c.y + d.y * (p.z i - c.z) / d.z, p.z i⟩ := rfl

theorem mpi_lt_pi : (mpi : ℝ) < Real.pi := by
  have := Real.pi_gt_d20
  refine lt_of_eq_of_lt ?_ this
  simp only [mpi, real_lit]
  norm_num

theorem acos_gate {c : ℝ} (h : (acos c >. mpi /. lit 2 || acos c <. lit 0) = false) : 0 < c := by
  have e2 : ((2:ℚ):ℝ) = 2 := by norm_num
  simp only [real_acos, real_div, real_lit, e2, gt, real_lt, Bool.or_eq_false_iff, decide_eq_false_iff_not, not_lt] at h
  by_contra hc
  push Not at hc
  have h1 : Real.pi / 2 ≤ Real.arccos c := by
    rw [← Real.arccos_zero]; exact Real.arccos_le_arccos hc
  have := mpi_lt_pi
  linarith [h.1]

/-- Everything known when the search loop stops at a wall interaction. -/
theorem traceSearch_hit (D : Descr ℝ) (capx capy : Nat → ℝ) (P : Photon ℝ) :
    ∀ (k i : Nat) (cur nrm : V3 ℝ) (j : Nat) (v n : V3 ℝ) (ca : ℝ), P.exitC.z ≤ cur.z →
    traceSearch D capx capy P k i cur nrm = .hit j v n ca →
    i ≤ j ∧ j < i + k ∧ ca = dot n P.exitD ∧ 0 < ca ∧
    ∃ cur' nrm' : V3 ℝ, P.exitC.z ≤ cur'.z ∧
      segment (axisPt D capx capy j) (axisPt D capx capy (j + 1)) (D.prof.cap j) (D.prof.cap (j + 1))
        (atGrid D.prof P.exitC P.exitD j) (atGrid D.prof P.exitC P.exitD (j + 1)) P.exitD cur' nrm' = (1, v, n) := by
  intro k
  induction k with
  | zero => intro i cur nrm j v n ca _ h; simp [traceSearch] at h
  | succ k ih =>
    intro i cur nrm j v n ca hc h
    unfold traceSearch at h
    simp only at h
    split at h
    · simp at h
    generalize hs : segment (⟨capx i, capy i, D.prof.z i⟩ : V3 ℝ) ⟨capx (i + 1), capy (i + 1), D.prof.z (i + 1)⟩ (D.prof.cap i)
      (D.prof.cap (i + 1)) (atGrid D.prof P.exitC P.exitD i) (atGrid D.prof P.exitC P.exitD (i + 1)) P.exitD cur nrm = s at h
    obtain ⟨s1, s2, s3⟩ := s
    simp only at h
    have hcur : P.exitC.z ≤ s2.z := by
      by_cases h1 : s1 = 1
      · subst h1
        have := (segment_success hs).2.2.2.2.1
        linarith
      · have := segment_failure_keeps_position _ _ _ _ _ _ _ _ _ (by rw [hs]; exact h1)
        rw [hs] at this
        simp only at this
        rw [this]; exact hc
    by_cases hg : (acos (scalar s3 P.exitD) >. mpi /. lit 2 || acos (scalar s3 P.exitD) <. lit 0) = true
    · rw [if_pos hg, if_neg (by decide)] at h
      split at h
      · simp at h
      obtain ⟨a, b, c⟩ := ih (i + 1) _ _ j v n ca hcur h
      exact ⟨by omega, by omega, c⟩
    · rw [if_neg hg] at h
      by_cases h1 : s1 = 1
      · subst h1
        rw [if_pos rfl] at h
        have key : Hit.hit i s2 s3 (scalar s3 P.exitD) = Hit.hit j v n ca := by
          split at h
          · split at h
            · simp at h
            · exact h
          · split at h
            · simp at h
            · exact h
        injection key with k1 k2 k3 k4
        subst k1 k2 k3
        refine ⟨le_refl _, by omega, k4.symm, ?_, cur, nrm, hc, hs⟩
        rw [← k4]
        exact acos_gate (by simpa using hg)
      · rw [if_neg h1] at h
        split at h
        · simp at h
        obtain ⟨a, b, c⟩ := ih (i + 1) _ _ j v n ca hcur h
        exact ⟨by omega, by omega, c⟩

theorem traceSearch_ret {α : Type} [CNum α] (D : Descr α) (capx capy : Nat → α) (P : Photon α) :
    ∀ (k i : Nat) (cur nrm : V3 α) (c : Int), traceSearch D capx capy P k i cur nrm = .ret c →
      c = -1 ∨ c = -2 ∨ c = -3 := by
  intro k
  induction k with
  | zero => intro i cur nrm c h; simp [traceSearch] at h
  | succ k ih =>
    intro i cur nrm c h
    unfold traceSearch at h
    simp only at h
    split at h
    · injection h with h; simp [← h]
    generalize (if (acos (scalar _ _ : α) >. mpi /. lit 2 || acos (scalar _ _ : α) <. lit 0) = true then (-5 : Int) else _) = ie at h
    by_cases h1 : ie = 1
    · simp only [h1, if_true] at h
      split at h
      · split at h
        · injection h with h; simp [← h]
        · simp at h
      · split at h
        · injection h with h; simp [← h]
        · simp at h
    · rw [if_neg h1] at h
      split at h
      · injection h with h; simp [← h]
      · exact ih _ _ _ _ h

theorem vnorm_dot (v : V3 ℝ) (h : dot v v ≠ 0) : dot (vnorm v) (vnorm v) = 1 := by
  have h0 : 0 ≤ dot v v := by unfold dot; nlinarith [sq_nonneg v.x, sq_nonneg v.y, sq_nonneg v.z]
  have hp : 0 < dot v v := lt_of_le_of_ne h0 (Ne.symm h)
  have e : v.x * v.x + v.y * v.y + v.z * v.z = dot v v := rfl
  have hs : Real.sqrt (dot v v) * Real.sqrt (dot v v) = dot v v := Real.mul_self_sqrt h0
  have hs0 : Real.sqrt (dot v v) ≠ 0 := (Real.sqrt_pos.mpr hp).ne'
  simp only [vnorm, real_mul, real_add, real_sqrt, real_div, e]
  unfold dot at hs hs0 ⊢
  simp only
  generalize Real.sqrt (v.x * v.x + v.y * v.y + v.z * v.z) = s at hs hs0
  field_simp
  nlinarith

theorem vnorm_zero {v : V3 ℝ} (h : dot v v = 0) : vnorm v = ⟨0, 0, 0⟩ := by
  have : v.x * v.x + v.y * v.y + v.z * v.z = 0 := h
  simp only [vnorm, real_mul, real_add, real_sqrt, real_div, this, Real.sqrt_zero, div_zero]

theorem segNormal_unit_of_pos {c0 : V3 ℝ} {r0 r1 : ℝ} {p0 pd cd v : V3 ℝ} {t : ℝ} {d : V3 ℝ}
    (h : dot (segNormal c0 r0 r1 p0 pd cd v t) d ≠ 0) :
    dot (segNormal c0 r0 r1 p0 pd cd v t) (segNormal c0 r0 r1 p0 pd cd v t) = 1 := by
  unfold segNormal at h ⊢
  simp only at h ⊢
  apply vnorm_dot
  intro h0
  rw [vnorm_zero h0] at h
  simp [dot] at h

/-- the mirror law for the direction update -/
theorem reflectDir_mirror (d n : V3 ℝ) (hd : dot d d = 1) (hn : dot n n = 1) :
    reflectDir d n (dot n d) = ⟨d.x - 2 * dot n d * n.x, d.y - 2 * dot n d * n.y, d.z - 2 * dot n d * n.z⟩ ∧
    dot (reflectDir d n (dot n d)) (reflectDir d n (dot n d)) = 1 ∧ Mirror d n (reflectDir d n (dot n d)) := by
  have e2 : ((2:ℚ):ℝ) = 2 := by norm_num
  have hr : reflectDir d n (dot n d) = vnorm ⟨d.x - 2 * dot n d * n.x, d.y - 2 * dot n d * n.y, d.z - 2 * dot n d * n.z⟩ := by
    simp only [reflectDir, real_sub, real_mul, real_lit, e2]
  have hu : dot (⟨d.x - 2 * dot n d * n.x, d.y - 2 * dot n d * n.y, d.z - 2 * dot n d * n.z⟩ : V3 ℝ)
      ⟨d.x - 2 * dot n d * n.x, d.y - 2 * dot n d * n.y, d.z - 2 * dot n d * n.z⟩ = 1 := by
    have : dot (⟨d.x - 2 * dot n d * n.x, d.y - 2 * dot n d * n.y, d.z - 2 * dot n d * n.z⟩ : V3 ℝ)
      ⟨d.x - 2 * dot n d * n.x, d.y - 2 * dot n d * n.y, d.z - 2 * dot n d * n.z⟩ =
        dot d d - 4 * dot n d * dot n d + 4 * dot n d ^ 2 * dot n n := by
      unfold dot; ring
    rw [this, hd, hn]; ring
  rw [hr, vnorm_unit _ hu]
  refine ⟨rfl, hu, ?_, ?_⟩
  · have : dot (⟨d.x - 2 * dot n d * n.x, d.y - 2 * dot n d * n.y, d.z - 2 * dot n d * n.z⟩ : V3 ℝ) n =
      dot d n - 2 * dot n d * dot n n := by unfold dot; ring
    rw [this, hn]; unfold dot; ring
  · intro t ht
    have : dot (⟨d.x - 2 * dot n d * n.x, d.y - 2 * dot n d * n.y, d.z - 2 * dot n d * n.z⟩ : V3 ℝ) t =
      dot d t - 2 * dot n d * dot t n := by unfold dot; ring
    rw [this, ht]; ring

/-- straight-line distance of two points -/
noncomputable def gap (a b : V3 ℝ) : ℝ := Real.sqrt ((a.x - b.x) ^ 2 + (a.y - b.y) ^ 2 + (a.z - b.z) ^ 2)

theorem dist3_gap (a b : V3 ℝ) : dist3 a b = gap a b := by
  simp only [dist3, vsub, scalar, real_sub, real_mul, real_add, real_sqrt, gap]
  congr 1; ring

theorem gap_triangle (a b c : V3 ℝ) : gap a c ≤ gap a b + gap b c := by
  have key : ∀ u v : V3 ℝ, gap u v = ‖(WithLp.toLp 2 ![u.x - v.x, u.y - v.y, u.z - v.z] : EuclideanSpace ℝ (Fin 3))‖ := by
    intro u v
    rw [EuclideanSpace.norm_eq]
    simp only [gap, Fin.sum_univ_three, Real.norm_eq_abs, sq_abs]
    rfl
  rw [key, key, key]
  refine le_trans (le_of_eq ?_) (norm_add_le _ _)
  congr 1
  ext i
  fin_cases i <;> simp

theorem gap_nonneg (a b : V3 ℝ) : 0 ≤ gap a b := Real.sqrt_nonneg _

theorem gap_self (a : V3 ℝ) : gap a a = 0 := by simp [gap]

/-- What one call of the tracing function does to a photon moving in direction `d` (its normalised direction):
a wall interaction at `P'.exitC` in segment `i`, or nothing. -/
inductive Moved (D : Descr ℝ) (capx capy : Nat → ℝ) (ix : Nat) (P : Photon ℝ) (c : Int) (P' : Photon ℝ) : Prop
  /-- no interaction: the photon stays where it is -/
  | stay (hc : c = -1 ∨ c = -2 ∨ c = -3) (hC : P'.exitC = P.exitC) (hd : P'.exitD = vnorm P.exitD)
      (ht : P'.d_travel = P.d_travel) (hr : P'.i_refl = P.i_refl)
  /-- interaction with the wall of segment `i` with surface normal `n` -/
  | hit (i : Nat) (n : V3 ℝ) (hi : ix ≤ i ∧ i < D.prof.nmax) (hdz : 0 < (vnorm P.exitD).z)
      (hn : dot n n = 1) (hnd : 0 < dot n (vnorm P.exitD))
      (hseg : ∃ cur nrm : V3 ℝ, P.exitC.z ≤ cur.z ∧
        segment (axisPt D capx capy i) (axisPt D capx capy (i + 1)) (D.prof.cap i) (D.prof.cap (i + 1))
          (atGrid D.prof P.exitC (vnorm P.exitD) i) (atGrid D.prof P.exitC (vnorm P.exitD) (i + 1)) (vnorm P.exitD) cur nrm =
          (1, P'.exitC, n))
      (hline : P'.exitC = lineAt P.exitC (vnorm P.exitD) P'.exitC.z)
      (hz : D.prof.z i ≤ P'.exitC.z ∧ P'.exitC.z ≤ D.prof.z (i + 1)) (hadv : 1 / 10 ^ 5 ≤ P'.exitC.z - P.exitC.z)
      (ht : P'.d_travel = P.d_travel + gap P'.exitC P.exitC)
      (hD : P'.exitD = if c = 1 then reflectDir (vnorm P.exitD) n (dot n (vnorm P.exitD)) else vnorm P.exitD)
      (hr : P'.i_refl = if c = 1 then P.i_refl + 1 else P.i_refl)

theorem dot_pos_of_ne {v : V3 ℝ} (h : dot v v ≠ 0) : dot (vnorm (vnorm v)) (vnorm (vnorm v)) = 1 ∧ vnorm (vnorm v) = vnorm v := by
  have h1 := vnorm_dot v h
  have h2 := vnorm_unit _ h1
  rw [h2]; exact ⟨h1, rfl⟩

theorem capilTrace_moved (D : Descr ℝ) (refl : V3 ℝ → Photon ℝ → Out (Int × Photon ℝ))
    (hrefl : ∀ n P c P', refl n P = .ok (c, P') → SameTrack P P' ∧
      (P'.exitD = vnorm P.exitD ∨ P'.exitD = vnorm (vnorm P.exitD)) ∧ (c = -2 ∨ c = -1 ∨ c = 0 ∨ c = 1))
    (capx capy : Nat → ℝ) (ix : Nat) (P : Photon ℝ)
    (hdir : dot P.exitD P.exitD ≠ 0) (c : Int) (ix' : Nat) (P' : Photon ℝ)
    (h : capilTrace D refl capx capy ix P = .ok (c, ix', P')) : Moved D capx capy ix P c P' := by
  unfold capilTrace at h
  simp only at h
  have hu := vnorm_dot _ hdir
  have huu := vnorm_unit _ hu
  generalize hQ : ({ P with exitD := vnorm P.exitD, startD := vnorm P.startD } : Photon ℝ) = Q at h
  have q1 : Q.exitC = P.exitC := by rw [← hQ]
  have q2 : Q.exitD = vnorm P.exitD := by rw [← hQ]
  have q3 : Q.d_travel = P.d_travel := by rw [← hQ]
  have q4 : Q.i_refl = P.i_refl := by rw [← hQ]
  split at h
  · rename_i code hs
    injection h with h; injection h with h1 h; injection h with h2 h3; subst h1 h3
    refine .stay ?_ q1 q2 q3 q4
    exact traceSearch_ret D capx capy Q _ _ _ _ _ hs
  · injection h with h; injection h with h1 h; injection h with h2 h3; subst h1 h3
    exact .stay (by simp) q1 q2 q3 q4
  · rename_i j v n ca hs
    obtain ⟨k1, k2, k3, k4, cur, nrm, k5, k6⟩ := traceSearch_hit D capx capy Q _ _ _ _ _ _ _ _ (by rw [q1]) hs
    obtain ⟨hr, hsv, h1, h2, h2', h3, hx, hy, hn⟩ := segment_success k6
    obtain ⟨g1, g2, g3, g4, g5, g6, g7, g8⟩ := segRejects_false.mp hr
    have hnn : dot n n = 1 := by
      rw [hn] at k3 ⊢
      exact segNormal_unit_of_pos (d := Q.exitD) (by rw [← k3]; exact k4.ne')
    rw [q2, huu] at h3 hx hy
    rw [q2] at g5 k6 k3
    rw [q1] at k6 hx hy h3
    have hdz : 0 < (vnorm P.exitD).z := by
      rcases eq_or_lt_of_le g5 with h0 | h0
      · rw [← h0, div_zero] at h3; norm_num at h3
      · exact h0
    have hz : (atGrid D.prof P.exitC (vnorm P.exitD) j).z = D.prof.z j := rfl
    have hline : v = lineAt P.exitC (vnorm P.exitD) v.z := by
      have e1 : (atGrid D.prof P.exitC (vnorm P.exitD) j).x = P.exitC.x + (vnorm P.exitD).x * (D.prof.z j - P.exitC.z) / (vnorm P.exitD).z := rfl
      have e2 : (atGrid D.prof P.exitC (vnorm P.exitD) j).y = P.exitC.y + (vnorm P.exitD).y * (D.prof.z j - P.exitC.z) / (vnorm P.exitD).z := rfl
      rw [e1, hz] at hx
      rw [e2, hz] at hy
      have hzz := hdz.ne'
      cases v with
      | mk vx vy vz =>
        simp only [lineAt, V3.mk.injEq, and_true] at hx hy ⊢
        constructor
        · rw [hx]; field_simp; ring
        · rw [hy]; field_simp; ring
    have hfin : ∀ (c : Int) (R : Photon ℝ), R.exitC = v → R.d_travel = P.d_travel + gap v P.exitC →
        R.exitD = (if c = 1 then reflectDir (vnorm P.exitD) n (dot n (vnorm P.exitD)) else vnorm P.exitD) →
        R.i_refl = (if c = 1 then P.i_refl + 1 else P.i_refl) → Moved D capx capy ix P c R := by
      intro c R r1 r2 r3 r4
      refine .hit j n ⟨k1, by omega⟩ hdz hnn (by rw [← k3]; exact k4) ⟨cur, nrm, ?_, ?_⟩ ?_ ?_ ?_ ?_ r3 r4
      · rw [← q1]; exact k5
      · rw [r1]; exact k6
      · rw [r1]; exact hline
      · rw [r1]; exact ⟨h2, h1⟩
      · rw [r1]; rw [q1] at k5; linarith
      · rw [r1]; exact r2
    unfold traceHit at h
    simp only at h
    split at h
    · injection h with h; injection h with h1 h; injection h with h2 h3; subst h1 h3
      refine hfin _ _ rfl ?_ (by simpa using q2) (by simpa using q4)
      simp only [real_add, dist3_gap, q3, q1]
    split at h
    · simp at h
    split at h
    · injection h with h; injection h with h1 h; injection h with h2 h3; subst h1 h3
      refine hfin _ _ rfl ?_ (by simpa using q2) (by simpa using q4)
      simp only [real_add, dist3_gap, q3, q1]
    split at h
    · injection h with h; injection h with h1 h; injection h with h2 h3; subst h1 h3
      refine hfin _ _ rfl ?_ (by simpa using q2) (by simpa using q4)
      simp only [real_add, dist3_gap, q3, q1]
    rw [Out.bind_eq_ok] at h
    obtain ⟨⟨rc, R⟩, hR, h⟩ := h
    obtain ⟨f1, f2, f3⟩ := hrefl _ _ _ _ hR
    have fD : R.exitD = vnorm P.exitD := by
      rcases f2 with f2 | f2
      · rw [f2]; simp only [q2, huu]
      · rw [f2]; simp only [q2, huu]
    have ft : R.d_travel = P.d_travel + gap v P.exitC := by
      rw [f1.d_travel]; simp only [real_add, dist3_gap, q3, q1]
    have fi : R.i_refl = P.i_refl := by rw [f1.i_refl]; exact q4
    have fc : R.exitC = v := f1.exitC
    injection h with h
    unfold afterReflect at h
    simp only at h
    split at h
    · rename_i hc
      injection h with h1 h; injection h with h2 h3; subst h1 h3
      refine hfin _ _ fc ft ?_ ?_
      · simp only [if_true, fD, k3]
      · simp only [if_true, fi]
    split at h
    · injection h with h1 h; injection h with h2 h3; subst h1 h3
      refine hfin _ _ fc ft ?_ ?_
      · simpa using fD
      · simpa using fi
    · rename_i hc _
      injection h with h1 h; injection h with h2 h3; subst h1 h3
      refine hfin _ _ fc ft ?_ ?_
      · simpa [hc] using fD
      · simpa [hc] using fi

/-- **C20 (law of reflection), C43 (progress)** for one call of the tracing function. -/
theorem trace_moved (D : Descr ℝ) (leak : Bool) (fuel k : Nat) (capx capy : Nat → ℝ) (ix : Nat) (P : Photon ℝ)
    (hdir : dot P.exitD P.exitD ≠ 0) (c : Int) (ix' : Nat) (P' : Photon ℝ)
    (h : trace D leak fuel k capx capy ix P = .ok (c, ix', P')) : Moved D capx capy ix P c P' :=
  capilTrace_moved D _ (fun n P c P' h => reflect_frame D leak fuel k n P c P' h) capx capy ix P hdir c ix' P' h

end Polycap
