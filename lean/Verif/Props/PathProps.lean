import Verif.Props.TraceProps
import Verif.Props.CapSelect
import Verif.Photon

/-!
# C20, C42, C43 for whole launches: the photon's trajectory

`Path` is the specification: a broken line of straight flights between points of the capillary wall, with a mirror
reflection at every corner.  `launch_path` says that a photon launched in a capillary has followed such a line, that
its reflection counter is the number of corners and that its travelled distance has grown by the length of the line.
-/
namespace Polycap
open CNum

/-- A straight flight from `c` in direction `d` to the point `v` of the wall of segment `i`, where the surface normal
is `n`. -/
structure Flight (D : Descr ℝ) (capx capy : Nat → ℝ) (c d v n : V3 ℝ) (i : Nat) : Prop where
  /-- `v` lies on the straight line through `c` with direction `d` … -/
  line : v = lineAt c d v.z
  /-- … which leads downstream -/
  fwd : 0 < d.z
  /-- at least 10⁻⁵ further downstream -/
  adv : 1 / 10 ^ 5 ≤ v.z - c.z
  inOptic : i < D.prof.nmax
  zlo : D.prof.z i ≤ v.z
  zhi : v.z ≤ D.prof.z (i + 1)
  /-- on the capillary wall (unless the photon flies parallel to a generator of the wall: C19) -/
  wall : genCoeff (axisPt D capx capy i) (axisPt D capx capy (i + 1)) (D.prof.cap i) (D.prof.cap (i + 1)) d ≠ 0 →
    OnWall (axisPt D capx capy i) (axisPt D capx capy (i + 1)) (D.prof.cap i) (D.prof.cap (i + 1)) v
  unit : dot n n = 1
  /-- the photon hits the wall from the inside -/
  outward : 0 < dot n d
  /-- where the axis of the capillary is parallel to that of the optic, `n` is orthogonal to the wall -/
  normal : genCoeff (axisPt D capx capy i) (axisPt D capx capy (i + 1)) (D.prof.cap i) (D.prof.cap (i + 1)) d ≠ 0 →
    0 < D.prof.cap i → 0 < D.prof.cap (i + 1) → capx (i + 1) = capx i → capy (i + 1) = capy i →
    dot n ⟨-(v.y - capy i), v.x - capx i, 0⟩ = 0 ∧
    dot n ⟨(v.x - capx i) * (D.prof.cap (i + 1) - D.prof.cap i), (v.y - capy i) * (D.prof.cap (i + 1) - D.prof.cap i),
      linAt (D.prof.z i) (D.prof.z (i + 1)) (D.prof.cap i) (D.prof.cap (i + 1)) v.z * (D.prof.z (i + 1) - D.prof.z i)⟩ = 0 ∧
    0 < dot n ⟨v.x - capx i, v.y - capy i, 0⟩

/-- `Path … c d m len c' d'`: from `c` in direction `d`, after `m` mirror reflections and a flight of length
`len`, the photon is at `c'` with direction `d'`. -/
inductive Path (D : Descr ℝ) (capx capy : Nat → ℝ) : V3 ℝ → V3 ℝ → Nat → ℝ → V3 ℝ → V3 ℝ → Prop
  | stop (c d : V3 ℝ) : Path D capx capy c d 0 0 c d
  /-- flight to the wall without reflection (the photon is absorbed there, or given up) -/
  | last {c d v n : V3 ℝ} {i : Nat} (f : Flight D capx capy c d v n i) : Path D capx capy c d 0 (gap v c) v d
  | bounce {c d v n d' c' d'' : V3 ℝ} {i m : Nat} {len : ℝ} (f : Flight D capx capy c d v n i) (unit : dot d' d' = 1)
      (mirror : Mirror d n d') (rest : Path D capx capy v d' m len c' d'') :
      Path D capx capy c d (m + 1) (gap v c + len) c' d''

theorem genCoeff_vnorm (c0 c1 : V3 ℝ) (r0 r1 : ℝ) (d : V3 ℝ) (h : 0 < d.z) :
    genCoeff c0 c1 r0 r1 (vnorm d) = genCoeff c0 c1 r0 r1 d := by
  obtain ⟨s, hs, e, -⟩ := vnorm_scale d h
  rw [e]; unfold genCoeff
  simp only
  rw [mul_div_mul_left _ _ hs.ne', mul_div_mul_left _ _ hs.ne']

/-- One tracing step that meets the wall is a `Flight`. -/
theorem Moved.flight {D : Descr ℝ} {capx capy : Nat → ℝ} {ix : Nat} {P P' : Photon ℝ} {c : Int}
    (h : Moved D capx capy ix P c P') (hu : dot P.exitD P.exitD = 1) :
    (P'.exitC = P.exitC ∧ P'.exitD = P.exitD ∧ P'.d_travel = P.d_travel ∧ P'.i_refl = P.i_refl ∧ c ≠ 1) ∨
    (∃ n i, Flight D capx capy P.exitC P.exitD P'.exitC n i ∧ P'.d_travel = P.d_travel + gap P'.exitC P.exitC ∧
      ((c ≠ 1 ∧ P'.exitD = P.exitD ∧ P'.i_refl = P.i_refl) ∨
       (c = 1 ∧ dot P'.exitD P'.exitD = 1 ∧ Mirror P.exitD n P'.exitD ∧ P'.i_refl = P.i_refl + 1))) := by
  have hv : vnorm P.exitD = P.exitD := vnorm_unit _ hu
  cases h with
  | stay hc hC hd ht hr =>
    left
    rw [hv] at hd
    refine ⟨hC, hd, ht, hr, ?_⟩
    rintro rfl; simp at hc
  | hit i n hi hdz hn hnd hseg hline hz hadv ht hD hr =>
    right
    rw [hv] at hdz hnd hline hD hseg
    obtain ⟨cur, nrm, -, hs⟩ := hseg
    refine ⟨n, i, ⟨hline, hdz, hadv, hi.2, hz.1, hz.2, ?_, hn, hnd, ?_⟩, ht, ?_⟩
    · intro hg
      exact (segment_sound _ _ _ _ _ _ _ _ _ _ _ hdz hg hs).2.2.2.2.2.1
    · intro hg h0 h1 hx hy
      exact segment_normal_orthogonal _ _ _ _ _ _ _ _ _ _ _ hdz hg h0 h1 hx hy hs
    · by_cases hc : c = 1
      · right
        rw [if_pos hc] at hD hr
        obtain ⟨-, m1, m2⟩ := reflectDir_mirror P.exitD n hu hn
        rw [hD]; exact ⟨hc, m1, m2, hr⟩
      · left
        rw [if_neg hc] at hD hr
        exact ⟨hc, hD, hr⟩

/-- The tracing loop follows a `Path`. -/
theorem traceLoop_path (D : Descr ℝ) (leak : Bool) (fuel kk : Nat) (capx capy : Nat → ℝ) :
    ∀ (k : Nat) (iesc : Int) (ix : Nat) (P : Photon ℝ) (c : Int) (ix' : Nat) (P' : Photon ℝ),
      dot P.exitD P.exitD = 1 → traceLoop (trace D leak fuel kk capx capy) k iesc ix P = .ok (c, ix', P') →
      ∃ m len, Path D capx capy P.exitC P.exitD m len P'.exitC P'.exitD ∧ P'.i_refl = P.i_refl + m ∧
        P'.d_travel = P.d_travel + len ∧ m ≤ k ∧ dot P'.exitD P'.exitD = 1 := by
  intro k
  induction k with
  | zero =>
    intro iesc ix P c ix' P' hu h
    simp only [traceLoop] at h
    injection h with h; injection h with h1 h; injection h with h2 h3; subst h3
    exact ⟨0, 0, .stop _ _, by simp, by simp, le_refl _, hu⟩
  | succ k ih =>
    intro iesc ix P c ix' P' hu h
    unfold traceLoop at h
    rw [Out.bind_eq_ok] at h
    obtain ⟨⟨c1, ix1, P1⟩, h1, h⟩ := h
    simp only at h
    have hm := (trace_moved D leak fuel kk capx capy ix P (by rw [hu]; norm_num) c1 ix1 P1 h1).flight hu
    rcases hm with ⟨e1, e2, e3, e4, e5⟩ | ⟨n, i, f, e1, ⟨e2, e3, e4⟩ | ⟨e2, e3, e4, e5⟩⟩
    · rw [if_pos e5] at h
      injection h with h; injection h with h1 h; injection h with h2 h3; subst h3
      refine ⟨0, 0, ?_, by simpa using e4, by simpa using e3, by omega, by rw [e2]; exact hu⟩
      rw [e1, e2]; exact .stop _ _
    · rw [if_pos e2] at h
      injection h with h; injection h with h1 h; injection h with h2 h3; subst h3
      refine ⟨0, _, ?_, by simpa using e4, e1, by omega, by rw [e3]; exact hu⟩
      rw [e3]; exact .last f
    · rw [if_neg (by simp [e2])] at h
      obtain ⟨m, len, p, q1, q2, q3, q4⟩ := ih _ _ _ _ _ _ e3 h
      refine ⟨m + 1, _, .bounce f e3 e4 p, ?_, ?_, by omega, q4⟩
      · rw [q1, e5]; push_cast; ring
      · rw [q2, e1]; ring

/-! ## What a path implies -/

theorem Path.length_nonneg {D : Descr ℝ} {capx capy : Nat → ℝ} {c d c' d' : V3 ℝ} {m : Nat} {len : ℝ}
    (h : Path D capx capy c d m len c' d') : 0 ≤ len := by
  induction h with
  | stop => exact le_refl _
  | last => exact gap_nonneg _ _
  | bounce _ _ _ _ ih => exact add_nonneg (gap_nonneg _ _) ih

theorem gap_comm (a b : V3 ℝ) : gap a b = gap b a := by unfold gap; congr 1; ring

/-- **C42.** The length of a path is at least the straight-line distance of its ends. -/
theorem Path.displacement {D : Descr ℝ} {capx capy : Nat → ℝ} {c d c' d' : V3 ℝ} {m : Nat} {len : ℝ}
    (h : Path D capx capy c d m len c' d') : gap c' c ≤ len := by
  induction h with
  | stop => rw [gap_self]
  | last => exact le_refl _
  | @bounce c d v n d' c' d'' i m len f _ _ _ ih => linarith [gap_triangle c' v c]

/-- **C43.** Every reflection moves the photon at least 10⁻⁵ downstream. -/
theorem Path.downstream {D : Descr ℝ} {capx capy : Nat → ℝ} {c d c' d' : V3 ℝ} {m : Nat} {len : ℝ}
    (h : Path D capx capy c d m len c' d') : (m : ℝ) * (1 / 10 ^ 5) ≤ c'.z - c.z := by
  induction h with
  | stop => simp
  | last f => have := f.adv; push_cast; linarith
  | bounce f _ _ _ ih => have := f.adv; push_cast; linarith

theorem mono_of_step {z : Nat → ℝ} {n : Nat} (hz : ∀ i < n, z i < z (i + 1)) {i j : Nat} (hij : i ≤ j) (hj : j ≤ n) : z i ≤ z j := by
  induction j, hij using Nat.le_induction with
  | base => exact le_refl _
  | succ j _ ih => exact (ih (by omega)).trans (hz j (by omega)).le

/-- …but never beyond the end of the optic. -/
theorem Path.inside {D : Descr ℝ} {capx capy : Nat → ℝ} {c d c' d' : V3 ℝ} {m : Nat} {len : ℝ}
    (h : Path D capx capy c d m len c' d') (hz : ∀ i < D.prof.nmax, D.prof.z i < D.prof.z (i + 1))
    (hc : c.z ≤ D.prof.z D.prof.nmax) : c'.z ≤ D.prof.z D.prof.nmax := by
  induction h with
  | stop => exact hc
  | last f => exact f.zhi.trans (mono_of_step hz f.inOptic (le_refl _))
  | bounce f _ _ _ ih => exact ih (f.zhi.trans (mono_of_step hz f.inOptic (le_refl _)))

end Polycap
