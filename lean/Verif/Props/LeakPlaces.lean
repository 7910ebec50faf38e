import Verif.Props.LeakUb
import Verif.Props.PcSelect

/-!
# C82: every recorded leak event is where the light goes

Over the reals.  A leak event is either recorded when light passes through glass (its place is on the straight line of a light ray
through the optic), or when a photon that entered another bore came out of it (its place is the extension of that photon's
light ray to the exit plane).  What is recorded as external leak left through the side of the optic, what is recorded as internal leak
heads for the exit window.
-/
namespace Polycap
open CNum

/-! ### Specification -/

/-- the point at distance `t` in direction `d` -/
def walk (c d : V3 ℝ) (t : ℝ) : V3 ℝ := ⟨c.x + t * d.x, c.y + t * d.y, c.z + t * d.z⟩

/-- where the straight line through `c` with direction `d` meets the exit plane -/
noncomputable def atExit (p : Profile ℝ) (c d : V3 ℝ) : V3 ℝ := lineAt c d (p.z p.nmax)

/-- the point is inside the hexagon of the exit window -/
def InWindow (p : Profile ℝ) (v : V3 ℝ) : Prop := InHex (p.ext p.nmax) v.x v.y

/-- `v`, on the line through `c` with direction `d`, is in the profile segment in which the line leaves the optic for good: it is inside the
hexagon at the upper end of the segment and outside at all profile points further down. -/
def LeavesAt (p : Profile ℝ) (c d v : V3 ℝ) : Prop :=
  v = lineAt c d v.z ∧ ∃ k < p.nmax, p.z k ≤ v.z ∧ v.z ≤ p.z (k + 1) ∧ InHex (p.ext k) (lineAt c d (p.z k)).x (lineAt c d (p.z k)).y ∧
    ∀ j, k < j → j ≤ p.nmax → ¬ InHex (p.ext j) (lineAt c d (p.z j)).x (lineAt c d (p.z j)).y

/-- on or outside the outer boundary of radius `R` -/
def AtRim (n_cap : Int) (R : ℝ) (v : V3 ℝ) : Prop :=
  if n_cap ≤ 3 then R ≤ Real.sqrt (v.x ^ 2 + v.y ^ 2) else ¬ InHex R v.x v.y

/-- The leak event `l` was recorded for light that was at `c`, inside the optic, after as many reflections as the event tells, and went on
through the glass in the direction the event tells, downstream: the event is on that way. -/
structure Passes (D : Descr ℝ) (c0 d0 : V3 ℝ) (l : Leak ℝ) (c : V3 ℝ) : Prop where
  ray : ∃ m : ℕ, (m : ℤ) = l.n_refl ∧ Ray D c0 d0 m c l.dir
  inside : InOptic D c
  down : 0 < l.dir.z
  on : ∃ t, 0 ≤ t ∧ l.coords = walk c l.dir t

/-- The leak event `l` was recorded for light that entered another bore with the direction and after the reflections the event tells, and
came to `c` with direction `d` after possibly more reflections: the event is where that light, going straight on, meets the exit plane. -/
structure Emerges (D : Descr ℝ) (c0 d0 : V3 ℝ) (l : Leak ℝ) (c d : V3 ℝ) : Prop where
  entered : ∃ (n : ℕ) (c1 : V3 ℝ), (n : ℤ) = l.n_refl ∧ Ray D c0 d0 n c1 l.dir ∧ ∃ m, n ≤ m ∧ Ray D c0 d0 m c d
  at_exit : d.z ≠ 0 → l.coords = atExit D.prof c d

/-- an external leak: through the side of the optic -/
inductive ExtPlace (D : Descr ℝ) (c0 d0 : V3 ℝ) (l : Leak ℝ) : Prop
  /-- straight on, the light leaves the optic at `v` and passes the exit plane beside the window -/
  | side {c v : V3 ℝ} (h : Passes D c0 d0 l c) (beside : ¬ InWindow D.prof (atExit D.prof c l.dir)) (leaves : LeavesAt D.prof c l.dir v)
      (at_v : c.z ≤ v.z → l.coords = v)
  /-- the light meets a bore on or outside the outer boundary -/
  | rim {c : V3 ℝ} (h : Passes D c0 d0 l c) (rim : ∀ R, ValueAt D.prof D.prof.ext l.coords.z R → AtRim D.n_cap R l.coords)
  /-- the light came out of another bore and passes the exit plane beside the window -/
  | emerges {c d : V3 ℝ} (h : Emerges D c0 d0 l c d) (beside : ¬ InWindow D.prof l.coords)

/-- an internal leak: out of the exit window, but not out of the bore the photon entered -/
inductive IntPlace (D : Descr ℝ) (c0 d0 : V3 ℝ) (l : Leak ℝ) : Prop
  /-- straight on through the glass, the light passes the exit plane inside the window -/
  | through {c : V3 ℝ} (h : Passes D c0 d0 l c) (window : InWindow D.prof (atExit D.prof c l.dir))
      (at_exit : D.n_cap ≤ 3 → l.coords = atExit D.prof c l.dir)
  /-- the light enters a bore in the last segment of the profile -/
  | bore {c : V3 ℝ} (h : Passes D c0 d0 l c) (last : D.prof.z (D.prof.nmax - 1) ≤ l.coords.z ∧ l.coords.z ≤ D.prof.z D.prof.nmax)
  /-- the light came out of another bore and passes the exit plane inside the window -/
  | emerges {c d : V3 ℝ} (h : Emerges D c0 d0 l c d) (window : InWindow D.prof l.coords)

/-! ### Wall tracing -/

theorem gap_line {c d v : V3 ℝ} (hu : dot d d = 1) (hd : 0 < d.z) (hv : v = lineAt c d v.z) (hz : c.z ≤ v.z) : walk c d (gap v c) = v := by
  have hg : gap v c = (v.z - c.z) / d.z := by
    unfold gap
    rw [hv]
    simp only [lineAt]
    have e : (c.x + (v.z - c.z) / d.z * d.x - c.x) ^ 2 + (c.y + (v.z - c.z) / d.z * d.y - c.y) ^ 2 + (v.z - c.z) ^ 2 =
        ((v.z - c.z) / d.z) ^ 2 := by
      unfold dot at hu
      have h1 : (v.z - c.z) ^ 2 = ((v.z - c.z) / d.z) ^ 2 * (d.z * d.z) := by field_simp
      have h2 : (c.x + (v.z - c.z) / d.z * d.x - c.x) ^ 2 + (c.y + (v.z - c.z) / d.z * d.y - c.y) ^ 2 + (v.z - c.z) ^ 2 =
        ((v.z - c.z) / d.z) ^ 2 * (d.x * d.x + d.y * d.y + d.z * d.z) := by rw [h1]; ring
      rw [h2, hu, mul_one]
    rw [e]
    exact Real.sqrt_sq (div_nonneg (by linarith) hd.le)
  rw [hg]
  conv_rhs => rw [hv]
  unfold walk lineAt
  simp only [V3.mk.injEq, true_and]
  field_simp
  ring

theorem atGrid_line (p : Profile ℝ) (c d : V3 ℝ) (j : Nat) : atGrid p c d j = lineAt c d (p.z j) := by
  rw [atGrid_eq]
  unfold lineAt
  simp only [V3.mk.injEq, and_true]
  constructor <;> ring

/-- the search for the exit point, from the exit plane, finds one (or runs off the arrays) -/
theorem pc_none (p : Profile ℝ) (hn : 1 ≤ p.nmax) (c d : V3 ℝ) (e e' : EArg) (hd : d.z ≠ 0) (ho : ownStatus p c ≠ 1)
    (h : pcIntersect p c d e = .ok (none, e')) : False := by
  have hid := segId_lt p.z 0 c.z p.nmax hn
  have hz0 : (d.z ==. (lit 0 : ℝ)) = false := by simpa using hd
  unfold pcIntersect at h
  simp only [hz0, Bool.false_eq_true, if_false] at h
  have ho' := ho
  unfold ownStatus at ho'
  simp only [ho', if_false] at h
  have fin : ∀ (dir : Int) (j : Int), pcFinish p c (revDir d) dir j ≠ .ok none := by
    intro dir j hf
    unfold pcFinish at hf
    simp only [Out.bind_eq_ok] at hf
    obtain ⟨zj, -, zk, -, ej, -, ek, -, hf⟩ := hf
    by_cases hdir : dir < 0
    · simp only [hdir, if_true] at hf
      generalize edgeZ ej ek _ _ (fabs (lit 0 *. _ +. _)) _ = z1 at hf
      generalize edgeZ ej ek _ _ (fabs (cospi6 *. _ +. lit (1/2) *. _)) _ = z2 at hf
      generalize edgeZ ej ek _ _ _ _ = z3 at hf
      have mx := selectZ_max (fun z => z >=. zj && z <=. zk) z1 z2 z3
      by_cases hv : (z1 >=. zj && z1 <=. zk) = true ∨ (z2 >=. zj && z2 <=. zk) = true ∨ (z3 >=. zj && z3 <=. zk) = true
      · obtain ⟨z, hz⟩ := mx.2 hv
        simp only [hz] at hf
        simp at hf
      · simp only [not_or, Bool.not_eq_true] at hv
        simp only [hv.1, hv.2.1, hv.2.2, selectZ, Bool.and_false, Bool.false_eq_true, if_false] at hf
        simp at hf
    · simp only [hdir, if_false] at hf
      generalize edgeZ ej ek _ _ (fabs (lit 0 *. _ +. _)) _ = z1 at hf
      generalize edgeZ ej ek _ _ (fabs (cospi6 *. _ +. lit (1/2) *. _)) _ = z2 at hf
      generalize edgeZ ej ek _ _ _ _ = z3 at hf
      have mx := selectZ_min (fun z => z <=. zj && z >=. zk) z1 z2 z3
      by_cases hv : (z1 <=. zj && z1 >=. zk) = true ∨ (z2 <=. zj && z2 >=. zk) = true ∨ (z3 <=. zj && z3 >=. zk) = true
      · obtain ⟨z, hz⟩ := mx.2 hv
        simp only [hz] at hf
        simp at hf
      · simp only [not_or, Bool.not_eq_true] at hv
        simp only [hv.1, hv.2.1, hv.2.2, selectZ, Bool.and_false, Bool.false_eq_true, if_false] at hf
        simp at hf
  rw [Out.bind_eq_ok] at h
  obtain ⟨x, hx, h⟩ := h
  cases x with
  | some j =>
    simp only [Out.bind_eq_ok] at h
    obtain ⟨r, hr, h⟩ := h
    injection h with h; injection h with h1 h2
    subst h1
    exact fin _ _ hr
  | none =>
    by_cases hr : ((revDir d).z <. lit 0) = true
    · simp only [hr, if_true] at hx
      rw [show ((segIdFrom p.z 0 c.z p.nmax : ℕ) : ℤ) + 1 = ((segIdFrom p.z 0 c.z p.nmax + 1 : ℕ) : ℤ) by push_cast; ring] at hx
      rcases pcSearch_down p c (revDir d) (ownStatus p c) (p.nmax + 3) (segIdFrom p.z 0 c.z p.nmax + 1) (by omega) (by omega) with
        ⟨j, -, -, -, h5⟩ | ⟨-, h3⟩
      · unfold ownStatus at h5; rw [h5] at hx; simp at hx
      · unfold ownStatus at h3; rw [h3] at hx; simp at hx
    · simp only [hr, Bool.false_eq_true, if_false] at hx
      rcases pcSearch_up p c (revDir d) (ownStatus p c) (p.nmax + 3) (segIdFrom p.z 0 c.z p.nmax) (by omega) (by omega) with
        ⟨j, -, -, -, -, h5⟩ | ⟨-, h3⟩
      · unfold ownStatus at h5; rw [h5] at hx; simp at hx
      · unfold ownStatus at h3; rw [h3] at hx; simp at hx

/-- what wall tracing from `c` in direction `d` finds -/
inductive WallFace (D : Descr ℝ) (c d : V3 ℝ) (w : Wall ℝ) : Prop
  | side (v : V3 ℝ) (hc : w.code = 3) (beside : ¬ InWindow D.prof (atExit D.prof c d)) (leaves : LeavesAt D.prof c d v) (hd : w.d = gap v c)
  | through (hc : w.code = 2) (window : InWindow D.prof (atExit D.prof c d)) (hd : D.n_cap ≤ 3 → w.d = gap (atExit D.prof c d) c)
  | bore (v : V3 ℝ) (hc : w.code = 2) (line : v = lineAt c d v.z) (hz : c.z ≤ v.z)
      (last : D.prof.z (D.prof.nmax - 1) ≤ v.z ∧ v.z ≤ D.prof.z D.prof.nmax) (hd : w.d = gap v c)
  | enter (hc : w.code = 1)

theorem wallExit_face {D : Descr ℝ} (g : Grid D.prof) (hext : ∀ j ≤ D.prof.nmax, 0 < D.prof.ext j) {c d last : V3 ℝ} (hd : 0 < d.z) {q r : Int} {w : Wall ℝ}
    (hl : D.n_cap ≤ 3 → last = atExit D.prof c d) (h : wallExit D.prof c d last q r = .ok w) : WallFace D c d w := by
  have h2 := g.two
  have hid := segId_end D.prof g
  obtain ⟨r1, r2, r3⟩ := revDir_ratio d hd
  have hinc := g.inc (D.prof.nmax - 1) (by omega)
  rw [show D.prof.nmax - 1 + 1 = D.prof.nmax by omega] at hinc
  have hat : atGrid D.prof c d D.prof.nmax = atExit D.prof c d := atGrid_line _ _ _ _
  have hzx : (atExit D.prof c d).z = D.prof.z D.prof.nmax := rfl
  unfold wallExit at h
  simp only [hat] at h
  have hown : ownStatus D.prof (atExit D.prof c d) = withinPcBoundary (D.prof.ext D.prof.nmax) (atExit D.prof c d).x (atExit D.prof c d).y := by
    unfold ownStatus
    rw [hzx, hid]
    congr 1
    unfold interpAt
    rw [linAt_interp, show D.prof.nmax - 1 + 1 = D.prof.nmax by omega]
    unfold linAt
    have : D.prof.z D.prof.nmax - D.prof.z (D.prof.nmax - 1) ≠ 0 := by linarith
    field_simp
    ring
  have hline : ∀ j, lineStatus D.prof (atExit D.prof c d) (revDir d) j =
      withinPcBoundary (D.prof.ext j) (lineAt c d (D.prof.z j)).x (lineAt c d (D.prof.z j)).y := by
    intro j
    unfold lineStatus
    simp only [projXY, real_add, real_mul, real_sub, real_div, atExit, lineAt]
    rw [mul_div_right_comm (revDir d).x, mul_div_right_comm (revDir d).y, r2, r3]
    congr 1 <;> (field_simp; ring)
  split at h
  · rename_i hin
    have hbes : ¬ InWindow D.prof (atExit D.prof c d) := (boundary_zero_iff.1 hin).2
    rw [Out.bind_eq_ok] at h
    obtain ⟨⟨x, e'⟩, hx, h⟩ := h
    rw [hin] at hown
    cases x with
    | none => exact (pc_none D.prof h2 _ _ _ _ hd.ne' (by rw [hown]; decide) hx).elim
    | some v =>
      simp only at h
      injection h with h; subst h
      obtain ⟨⟨t, t1, t2, t3⟩, ⟨k, hk, k1, k2, k3⟩, -⟩ := pc_intersect_sound_partial D.prof h2 g.inc _ _ _ _ _ hx
      rw [if_pos hd, hown] at k3
      refine .side v rfl hbes ⟨?_, k, hk, k1, k2, ?_, ?_⟩ (dist3_gap v c)
      · have hd' := hd.ne'
        simp only [atExit, lineAt] at t1 t2 t3
        have ht : t = (v.z - D.prof.z D.prof.nmax) / d.z := by field_simp; linarith
        cases v with
        | mk vx vy vz =>
          simp only at t1 t2 t3 ht
          simp only [lineAt, V3.mk.injEq, and_true]
          rw [t1, t2, ht]
          constructor <;> (field_simp; ring)
      · have := k3.1
        rw [hline] at this
        by_contra hc
        exact this (boundary_zero_iff.2 ⟨hext k hk.le, hc⟩).symm
      · intro j hj hj'
        rcases Nat.lt_or_ge j D.prof.nmax with hlt | hge
        · have := k3.2 j hj (by rw [hzx, hid]; omega)
          rw [hline] at this
          exact (boundary_zero_iff.1 this.symm).2
        · rw [show j = D.prof.nmax by omega]; exact hbes
  · rename_i hin
    injection h with h; subst h
    refine .through rfl ?_ (fun hn => by show dist3 last c = _; rw [hl hn, dist3_gap])
    by_contra hc
    exact hin (boundary_zero_iff.2 ⟨hext _ le_rfl, hc⟩)

theorem segs_one {p : Profile ℝ} {ns q r : Int} {c d cur : V3 ℝ} (hu : dot d d = 1) {zid : Nat} (hcur : c.z ≤ cur.z) {s : Int × V3 ℝ × V3 ℝ}
    (hs : segment (axisAt p ns q r zid) (axisAt p ns q r (zid + 1)) (p.cap zid) (p.cap (zid + 1))
      (atGrid p c d zid) (atGrid p c d (zid + 1)) d cur ⟨lit 0, lit 0, lit 0⟩ = s) (h1 : s.1 = 1) :
    s.1 = 1 ∧ zid + 1 = zid + 1 ∧ 0 < d.z ∧ s.2.1 = lineAt c d s.2.1.z ∧ c.z ≤ s.2.1.z ∧ p.z zid ≤ s.2.1.z ∧ s.2.1.z ≤ p.z (zid + 1) := by
  obtain ⟨s1, v, n⟩ := s
  simp only at h1
  subst h1
  have hax : ∀ i, (axisAt p ns q r i).z = p.z i := by intro i; unfold axisAt; split <;> rfl
  obtain ⟨hr, -, a1, a2, a3, a4, hx, hy, -⟩ := segment_success hs
  obtain ⟨-, -, -, -, g5, -⟩ := segRejects_false.mp hr
  rw [vnorm_unit _ hu] at a4 hx hy
  rw [hax] at a1 a2
  have hdz : 0 < d.z := by
    rcases eq_or_lt_of_le g5 with h0 | h0
    · rw [← h0, div_zero] at a4; norm_num at a4
    · exact h0
  refine ⟨rfl, rfl, hdz, ?_, by simp only; linarith, a2, a1⟩
  rw [atGrid_line] at hx hy
  simp only [lineAt] at hx hy
  have hzz := hdz.ne'
  cases v with
  | mk vx vy vz =>
    simp only [lineAt, V3.mk.injEq, and_true] at hx hy ⊢
    constructor
    · rw [hx]; field_simp; ring
    · rw [hy]; field_simp; ring

/-- the search along the walls of one bore -/
theorem wallSegs_hit {p : Profile ℝ} {ns q r : Int} {c d : V3 ℝ} (hu : dot d d = 1) : ∀ (k zid : Nat) (cur : V3 ℝ), c.z ≤ cur.z →
    (wallSegs p ns q r c d k zid cur).1 ≠ 1 ∧ (wallSegs p ns q r c d k zid cur).2.2 = cur ∨
    ∃ i, zid ≤ i ∧ i ≤ zid + k ∧ (wallSegs p ns q r c d k zid cur).1 = 1 ∧ (wallSegs p ns q r c d k zid cur).2.1 = i + 1 ∧
      0 < d.z ∧ (wallSegs p ns q r c d k zid cur).2.2 = lineAt c d (wallSegs p ns q r c d k zid cur).2.2.z ∧
      c.z ≤ (wallSegs p ns q r c d k zid cur).2.2.z ∧ p.z i ≤ (wallSegs p ns q r c d k zid cur).2.2.z ∧
      (wallSegs p ns q r c d k zid cur).2.2.z ≤ p.z (i + 1) := by
  intro k
  induction k with
  | zero =>
    intro zid cur hcur
    unfold wallSegs
    simp only
    generalize hs : segment (axisAt p ns q r zid) (axisAt p ns q r (zid + 1)) (p.cap zid) (p.cap (zid + 1))
      (atGrid p c d zid) (atGrid p c d (zid + 1)) d cur ⟨lit 0, lit 0, lit 0⟩ = s
    by_cases h1 : s.1 = 1
    · rw [if_pos h1]
      right
      exact ⟨zid, le_rfl, by omega, segs_one hu hcur hs h1⟩
    · rw [if_neg h1]
      left
      refine ⟨h1, ?_⟩
      rw [← hs]
      exact segment_failure_keeps_position _ _ _ _ _ _ _ _ _ (by rw [hs]; exact h1)
  | succ k ih =>
    intro zid cur hcur
    unfold wallSegs
    simp only
    generalize hs : segment (axisAt p ns q r zid) (axisAt p ns q r (zid + 1)) (p.cap zid) (p.cap (zid + 1))
      (atGrid p c d zid) (atGrid p c d (zid + 1)) d cur ⟨lit 0, lit 0, lit 0⟩ = s
    by_cases h1 : s.1 = 1
    · rw [if_pos h1]
      right
      exact ⟨zid, le_rfl, by omega, segs_one hu hcur hs h1⟩
    · rw [if_neg h1]
      have hk : s.2.1 = cur := by
        rw [← hs]
        exact segment_failure_keeps_position _ _ _ _ _ _ _ _ _ (by rw [hs]; exact h1)
      rw [hk]
      rcases ih (zid + 1) cur hcur with h | ⟨i, a, b, h⟩
      · exact Or.inl h
      · exact Or.inr ⟨i, by omega, by omega, h⟩

theorem wallEnd_face {D : Descr ℝ} (g : Grid D.prof) (hext : ∀ j ≤ D.prof.nmax, 0 < D.prof.ext j) {ns q r q' r' : Int} {c d cur : V3 ℝ} (hu : dot d d = 1)
    (hd : 0 < d.z) {k zid : Nat} (hk : zid + k < D.prof.nmax) (hcur : c.z ≤ cur.z) {w : Wall ℝ}
    (h : wallEnd D.prof c d (wallSegs D.prof ns q r c d k zid cur) q' r' = .ok w) : WallFace D c d w := by
  have h2 := g.two
  unfold wallEnd at h
  split at h
  · exact wallExit_face g hext hd (fun _ => atGrid_line _ _ _ _) h
  rename_i h1
  rcases wallSegs_hit (p := D.prof) (ns := ns) (q := q) (r := r) hu k zid cur hcur with ⟨a, -⟩ | ⟨i, i1, i2, -, e, -, l1, l2, l3, l4⟩
  · exact absurd a h1
  split at h
  · rename_i hn
    injection h with h; subst h
    have hi : i = D.prof.nmax - 1 := by omega
    subst hi
    rw [show D.prof.nmax - 1 + 1 = D.prof.nmax by omega] at l4
    exact .bore _ rfl l1 l2 ⟨l3, l4⟩ (dist3_gap _ _)
  · injection h with h; subst h
    exact .enter rfl

theorem wallStep_zid {p : Profile ℝ} {ns qi ri : Int} {c d : V3 ℝ} : ∀ (k : Nat) (dist : ℝ) (zid : Nat) {dist' : ℝ} {zid' : Nat} {ph : V3 ℝ} {q r : Int},
    zid < p.nmax → wallStep p ns qi ri c d k dist zid = .ok (.left dist' zid' ph q r) → zid' < p.nmax := by
  intro k
  induction k with
  | zero => intro dist zid dist' zid' ph q r hz h; simp [wallStep] at h
  | succ k ih =>
    intro dist zid dist' zid' ph q r hz h
    unfold wallStep at h
    simp only at h
    split at h
    · injection h with h; simp at h
    split at h
    · exact ih _ _ (segId_lt _ _ _ _ hz) h
    · injection h with h; injection h with h1 h2 h3 h4 h5
      rw [← h2]; exact segId_lt _ _ _ _ hz

theorem wallHex_face {D : Descr ℝ} (g : Grid D.prof) (hext : ∀ j ≤ D.prof.nmax, 0 < D.prof.ext j) (hn : ¬ D.n_cap ≤ 3) {ns : Int} {c d : V3 ℝ}
    (hu : dot d d = 1) (hd : 0 < d.z) {gg : Nat} : ∀ (f : Nat) (qi ri : Int) (dist : ℝ) (zid : Nat) (cur : V3 ℝ) {w : Wall ℝ}, zid < D.prof.nmax → c.z ≤ cur.z →
    wallHex D.prof ns c d gg f qi ri dist zid cur = .ok w → WallFace D c d w := by
  intro f
  induction f with
  | zero => intro qi ri dist zid cur w hz hc h; simp [wallHex] at h
  | succ f ih =>
    intro qi ri dist zid cur w hz hc h
    unfold wallHex at h
    rw [Out.bind_eq_ok] at h
    obtain ⟨st, hst, h⟩ := h
    cases st with
    | stumbled dd => injection h with h; subst h; exact .enter rfl
    | left dist' zid' ph q r =>
      have hz' := wallStep_zid _ _ _ hz hst
      simp only at h
      split at h
      · exact wallExit_face g hext hd (fun h => absurd h hn) h
      split at h
      · refine ih _ _ _ _ _ (by omega) ?_ h
        rcases wallSegs_hit (p := D.prof) (ns := ns) (q := q) (r := r) hu (D.prof.nmax - 1 - (zid' + 1)) zid' cur hc with ⟨-, e⟩ | ⟨i, -, -, -, -, -, -, l2, -⟩
        · rw [e]; exact hc
        · exact l2
      · exact wallEnd_face g hext hu hd (by omega) hc h

theorem traceWall_face {D : Descr ℝ} (g : Grid D.prof) (hext : ∀ j ≤ D.prof.nmax, 0 < D.prof.ext j) (hn : 1 ≤ D.n_cap)
    {fuel : Nat} {c d : V3 ℝ} (hu : dot d d = 1) (hd : 0 < d.z) (h0 : 0 ≤ c.z) {w : Wall ℝ} (hw : 0 < w.code) (h : traceWall D fuel c d = .ok w) :
    InOptic D c ∧ WallFace D c d w := by
  have h2 := g.two
  unfold traceWall at h
  simp only at h
  split at h
  · injection h with h; subst h; simp at hw
  rename_i hz
  have hz : c.z < D.prof.z D.prof.nmax := by simpa using hz
  have hR := wallExt_value g h0 hz.le
  have hRp := hR.pos g hext
  have hid := segId_lt D.prof.z 0 c.z D.prof.nmax h2
  split at h
  · rename_i hn'
    split at h
    · injection h with h; subst h; simp at hw
    rename_i hs
    refine ⟨⟨h0, hz, _, hR, ?_⟩, wallEnd_face g hext hu hd (by omega) le_rfl h⟩
    unfold Outside
    rw [if_pos ((nShells_zero_iff _ hn).1 hn')]
    have hs : Real.sqrt (c.x * c.x + c.y * c.y) ≤ wallExt D.prof (segIdFrom D.prof.z 0 c.z D.prof.nmax) c.z := by simpa using hs
    rw [not_lt, pow_two, pow_two]
    exact hs
  · rename_i hn'
    have hn3 : ¬ D.n_cap ≤ 3 := fun hc => hn' ((nShells_zero_iff _ hn).2 hc)
    split at h
    · injection h with h; subst h; simp at hw
    rename_i hs
    refine ⟨⟨h0, hz, _, hR, ?_⟩, wallHex_face g hext hn3 hu hd _ _ _ _ _ _ hid le_rfl h⟩
    unfold Outside
    rw [if_neg hn3]
    intro hi
    exact hs (boundary_zero_iff.2 ⟨hRp, hi⟩)

/-! ### Records of light passing through glass -/

theorem extAt_value {p : Profile ℝ} (g : Grid p) {z : ℝ} (h0 : 0 ≤ z) (h1 : z ≤ p.z p.nmax) : ValueAt p p.ext z (extAt p 0 z) := by
  have h := wallExt_value g h0 h1
  have e : wallExt p (segIdFrom p.z 0 z p.nmax) z = extAt p 0 z := by
    unfold wallExt extAt
    split
    · rfl
    · rename_i he
      have he : p.z (segIdFrom p.z 0 z p.nmax) = z := by simpa [CNum.bne] using he
      unfold interpAt
      rw [linAt_interp]
      unfold linAt
      rw [he]; simp
  rw [← e]; exact h

/-- what is recorded of light that passed through the glass from `P.exitC` -/
theorem pass_place {D : Descr ℝ} (g : Grid D.prof) (hext : ∀ j ≤ D.prof.nmax, 0 < D.prof.ext j) (hn : 1 ≤ D.n_cap) {c0 d0 : V3 ℝ} {l : Leak ℝ} {c : V3 ℝ}
    (hray : ∃ m : ℕ, (m : ℤ) = l.n_refl ∧ Ray D c0 d0 m c l.dir) (hi : InOptic D c) (hu : dot l.dir l.dir = 1) (hd : 0 < l.dir.z)
    {w : Wall ℝ} (hwd : 0 ≤ w.d) (hl : l.coords = walk c l.dir w.d) (hf : WallFace D c l.dir w) :
    (wallCode D w.code l.coords = 3 → ExtPlace D c0 d0 l) ∧ (wallCode D w.code l.coords = 2 → IntPlace D c0 d0 l) := by
  have hp : Passes D c0 d0 l c := ⟨hray, hi, hd, w.d, hwd, hl⟩
  have hcz : c.z ≤ l.coords.z := by
    rw [hl]; show c.z ≤ c.z + w.d * l.dir.z
    have := mul_nonneg hwd hd.le; linarith
  cases hf with
  | side v hc beside leaves hd' =>
    have hcode : wallCode D w.code l.coords = 3 := by unfold wallCode; rw [if_neg (by rw [hc]; decide), hc]
    rw [hcode]
    refine ⟨fun _ => .side hp beside leaves (fun hz => ?_), fun h => absurd h (by decide)⟩
    rw [hl, hd', gap_line hu hd leaves.1 hz]
  | through hc window hd' =>
    have hcode : wallCode D w.code l.coords = 2 := by unfold wallCode; rw [if_neg (by rw [hc]; decide), hc]
    rw [hcode]
    refine ⟨fun h => absurd h (by decide), fun _ => .through hp window (fun h3 => ?_)⟩
    rw [hl, hd' h3, gap_line hu hd rfl hi.2.1.le]
  | bore v hc line hz last hd' =>
    have hcode : wallCode D w.code l.coords = 2 := by unfold wallCode; rw [if_neg (by rw [hc]; decide), hc]
    rw [hcode]
    refine ⟨fun h => absurd h (by decide), fun _ => .bore hp ?_⟩
    rw [hl, hd', gap_line hu hd line hz]
    exact last
  | enter hc =>
    unfold wallCode
    rw [if_pos hc]
    simp only
    constructor
    · intro h
      refine .rim hp (fun R hR => ?_)
      have h1 : l.coords.z ≤ D.prof.z D.prof.nmax := by
        obtain ⟨i, hi, -, b, -⟩ := hR
        exact b.trans (mono_of_step g.inc (by omega) le_rfl)
      have hv := extAt_value g (hi.1.trans hcz) h1
      rw [hR.unique g hv]
      have hp := hv.pos g hext
      unfold AtRim
      split at h
      · rename_i hn'
        rw [if_pos ((nShells_zero_iff _ hn).1 hn')]
        split at h
        · rename_i hs
          have hs : extAt D.prof 0 l.coords.z ≤ Real.sqrt (l.coords.x * l.coords.x + l.coords.y * l.coords.y) := by simpa using hs
          rw [pow_two, pow_two]; exact hs
        · exact absurd h (by decide)
      · rename_i hn'
        rw [if_neg (fun hc => hn' ((nShells_zero_iff _ hn).2 hc))]
        split at h
        · rename_i hs; exact (boundary_zero_iff.1 hs).2
        · exact absurd h (by decide)
    · intro h
      split at h <;> (split at h <;> exact absurd h (by decide))

/-! ### The photon in flight -/

/-- the photon is on a light ray, with the number of reflections it counted, and its leak events are in their places -/
structure OnCourse (D : Descr ℝ) (c0 d0 : V3 ℝ) (P : Photon ℝ) : Prop where
  unit : dot P.exitD P.exitD = 1
  pos : 0 ≤ P.exitC.z
  ray : ∃ m : ℕ, (m : ℤ) = P.i_refl ∧ Ray D c0 d0 m P.exitC P.exitD
  ext : ∀ l ∈ P.ext, ExtPlace D c0 d0 l
  int : ∀ l ∈ P.int, IntPlace D c0 d0 l

theorem all_snoc {β : Type} {p : β → Prop} {ls : List β} (h : ∀ l ∈ ls, p l) {x : β} (hx : p x) : ∀ l ∈ ls ++ [x], p l := by
  intro l hl
  rcases List.mem_append.1 hl with hl | hl
  · exact h l hl
  · simp only [List.mem_singleton] at hl; subst hl; exact hx

theorem all_append {β : Type} {p : β → Prop} {ls ms : List β} (h : ∀ l ∈ ls, p l) (g : ∀ l ∈ ms, p l) : ∀ l ∈ ls ++ ms, p l := by
  intro l hl
  rcases List.mem_append.1 hl with hl | hl
  · exact h l hl
  · exact g l hl

/-- the tracing function keeps the photon on light rays -/
def TracePlace (D : Descr ℝ) (c0 d0 : V3 ℝ) (tr : Nat → Photon ℝ → Out (Int × Nat × Photon ℝ)) : Prop :=
  ∀ ix P c ix' P', tr ix P = .ok (c, ix', P') → OnCourse D c0 d0 P → OnCourse D c0 d0 P' ∧ P.i_refl ≤ P'.i_refl

theorem traceLoop_place {D : Descr ℝ} {c0 d0 : V3 ℝ} {tr : Nat → Photon ℝ → Out (Int × Nat × Photon ℝ)} (htr : TracePlace D c0 d0 tr) :
    ∀ (k : Nat) (iesc : Int) (ix : Nat) (P : Photon ℝ) (x), traceLoop tr k iesc ix P = .ok x → OnCourse D c0 d0 P →
      OnCourse D c0 d0 x.2.2 ∧ P.i_refl ≤ x.2.2.i_refl := by
  intro k
  induction k with
  | zero => intro iesc ix P x hx hP; simp only [traceLoop] at hx; injection hx with hx; subst hx; exact ⟨hP, le_rfl⟩
  | succ k ih =>
    intro iesc ix P x hx hP
    unfold traceLoop at hx
    rw [Out.bind_eq_ok] at hx
    obtain ⟨⟨c, i, Q⟩, hy, hx⟩ := hx
    obtain ⟨h1, h2⟩ := htr _ _ _ _ _ hy hP
    split at hx
    · injection hx with hx; subst hx; exact ⟨h1, h2⟩
    · obtain ⟨h3, h4⟩ := ih _ _ _ _ hx h1
      exact ⟨h3, h2.trans h4⟩

theorem trace_place {D : Descr ℝ} {c0 d0 : V3 ℝ} {leak : Bool} {fuel k : Nat}
    (hrefl : ∀ (n : V3 ℝ) (P : Photon ℝ) (c : Int) (P' : Photon ℝ), reflect D leak fuel k n P = .ok (c, P') → 0 < P.exitD.z → OnCourse D c0 d0 P →
      (∀ l ∈ P'.ext, ExtPlace D c0 d0 l) ∧ (∀ l ∈ P'.int, IntPlace D c0 d0 l))
    {capx capy : Nat → ℝ} (hax : IsAxis D capx capy) : TracePlace D c0 d0 (trace D leak fuel k capx capy) := by
  intro ix Q c ix' Q' hq hQ
  have huu := vnorm_unit _ hQ.unit
  have hne : dot Q.exitD Q.exitD ≠ 0 := by rw [hQ.unit]; norm_num
  have hm := (trace_moved D leak fuel k capx capy ix Q hne c ix' Q' hq).flight hQ.unit
  have hleaks : (∀ l ∈ Q'.ext, ExtPlace D c0 d0 l) ∧ (∀ l ∈ Q'.int, IntPlace D c0 d0 l) := by
    unfold trace capilTrace at hq
    simp only at hq
    split at hq
    · injection hq with h; injection h with h1 h; injection h with h2 h3; subst h3; exact ⟨hQ.4, hQ.5⟩
    · injection hq with h; injection h with h1 h; injection h with h2 h3; subst h3; exact ⟨hQ.4, hQ.5⟩
    · rename_i j v n ca hs
      obtain ⟨d1, d2, d3⟩ := traceSearch_hit_line D capx capy _ (by simp only [huu]; exact hQ.unit) _ _ _ _ _ _ _ hs
      simp only [huu] at d1 d2 d3
      unfold traceHit at hq
      simp only at hq
      split at hq
      · injection hq with h; injection h with h1 h; injection h with h2 h3; subst h3; exact ⟨hQ.4, hQ.5⟩
      split at hq
      · simp at hq
      split at hq
      · injection hq with h; injection h with h1 h; injection h with h2 h3; subst h3; exact ⟨hQ.4, hQ.5⟩
      split at hq
      · injection hq with h; injection h with h1 h; injection h with h2 h3; subst h3; exact ⟨hQ.4, hQ.5⟩
      rw [Out.bind_eq_ok] at hq
      obtain ⟨⟨rc, R⟩, hR, hq⟩ := hq
      obtain ⟨m, hm, hr⟩ := hQ.ray
      have hF := hrefl _ _ _ _ hR (by simp only [huu]; exact d1)
        ⟨by simp only [huu]; exact hQ.unit, hQ.pos.trans d3, ⟨m, hm, by simp only [huu]; exact hr.toLine d1 d2 d3⟩, hQ.4, hQ.5⟩
      injection hq with h
      unfold afterReflect at h
      simp only at h
      split at h
      · injection h with h1 h; injection h with h2 h3; subst h3; exact hF
      split at h
      · injection h with h1 h; injection h with h2 h3; subst h3; exact hF
      · injection h with h1 h; injection h with h2 h3; subst h3; exact hF
  obtain ⟨m, hmr, hr⟩ := hQ.ray
  rcases hm with ⟨e1, e2, -, e4, -⟩ | ⟨n, i, f, -, ⟨-, e3, e4⟩ | ⟨-, e3, e4, e5⟩⟩
  · exact ⟨⟨by rw [e2]; exact hQ.unit, by rw [e1]; exact hQ.pos, ⟨m, by rw [e4]; exact hmr, by rw [e1, e2]; exact hr⟩, hleaks.1, hleaks.2⟩, e4.ge⟩
  · have hz : Q.exitC.z ≤ Q'.exitC.z := by have := f.adv; linarith
    exact ⟨⟨by rw [e3]; exact hQ.unit, hQ.pos.trans hz, ⟨m, by rw [e4]; exact hmr, by rw [e3]; exact hr.toLine f.fwd f.line hz⟩, hleaks.1, hleaks.2⟩, e4.ge⟩
  · have hz : Q.exitC.z ≤ Q'.exitC.z := by have := f.adv; linarith
    exact ⟨⟨e3, hQ.pos.trans hz, ⟨m + 1, by push_cast; rw [e5, hmr], .bounce hr hax f e3 e4⟩, hleaks.1, hleaks.2⟩, by rw [e5]; omega⟩

theorem toExit_line (p : Profile ℝ) (c d : V3 ℝ) (hd : d.z ≠ 0) : toExit p c d = atExit p c d := by
  unfold toExit atExit lineAt
  simp only [real_add, real_mul, real_div, real_sub, V3.mk.injEq]
  refine ⟨by ring, by ring, ?_⟩
  field_simp; ring

theorem reflect_place {D : Descr ℝ} (g : Grid D.prof) (hext : ∀ j ≤ D.prof.nmax, 0 < D.prof.ext j) (hn : 1 ≤ D.n_cap) (c0 d0 : V3 ℝ) (leak : Bool)
    (fuel : Nat) : ∀ (k : Nat) (n : V3 ℝ) (P : Photon ℝ) (c : Int) (P' : Photon ℝ), reflect D leak fuel k n P = .ok (c, P') → 0 < P.exitD.z →
      OnCourse D c0 d0 P → (∀ l ∈ P'.ext, ExtPlace D c0 d0 l) ∧ (∀ l ∈ P'.int, IntPlace D c0 d0 l) := by
  intro k
  induction k with
  | zero => intro n P c P' h; simp [reflect] at h
  | succ k ih =>
    intro n P c P' h hz hP
    have huu := vnorm_unit _ hP.unit
    have hren : renorm leak P = P := by
      unfold renorm; cases leak <;> simp [huu]
    unfold reflect reflectBody at h
    simp only [huu] at h
    split at h
    · injection h with h; injection h with h1 h2; subst h2; exact ⟨hP.4, hP.5⟩
    rw [Out.bind_eq_ok] at h
    obtain ⟨w, hw, h⟩ := h
    rw [hren] at h
    have hwd := wallOf_d _ _ _ _ _ hw
    unfold reflectRest at h
    simp only at h
    split at h
    · injection h with h; injection h with h1 h2; subst h2; exact ⟨hP.4, hP.5⟩
    rename_i hcode
    split at h
    · simp at h
    split at h
    · injection h with h; injection h with h1 h2; subst h2; exact ⟨hP.4, hP.5⟩
    split at h
    swap
    · injection h with h; injection h with h1 h2; subst h2; exact ⟨hP.4, hP.5⟩
    rename_i hflag
    have hlk : leak = true := by
      by_contra hl
      rw [Bool.not_eq_true] at hl
      rw [hl] at hflag
      rw [(reflEnergies_shape _ _ _ _ _ _ _ _ _).2.2 rfl] at hflag
      exact absurd hflag (by decide)
    have hpos : 0 < w.code := by
      by_contra hc
      exact hcode ⟨hlk, by omega⟩
    unfold wallOf at hw
    rw [hlk, if_pos rfl, huu] at hw
    obtain ⟨hin, hface⟩ := traceWall_face g hext hn hP.unit hz hP.pos hpos hw
    obtain ⟨m, hm, hr⟩ := hP.ray
    unfold reflectLeak at h
    simp only at h
    have hal := along_unit (c := P.exitC) (t := w.d) hP.unit
    split at h
    · rename_i hc3
      injection h with h; injection h with h1 h2; subst h2
      exact ⟨all_snoc hP.4 ((pass_place g hext hn ⟨m, hm, hr⟩ hin hP.unit hz hwd hal hface).1 hc3), hP.5⟩
    split at h
    · rename_i hc2
      injection h with h; injection h with h1 h2; subst h2
      exact ⟨hP.4, all_snoc hP.5 ((pass_place g hext hn ⟨m, hm, hr⟩ hin hP.unit hz hwd hal hface).2 hc2)⟩
    split at h
    swap
    · injection h with h; injection h with h1 h2; subst h2; exact ⟨hP.4, hP.5⟩
    split at h
    · simp at h
    rename_i T hT
    obtain ⟨t1, t2, t3, t4, t5⟩ := photonNew_fields hT
    rw [Out.bind_eq_ok] at h
    obtain ⟨x, hx, h⟩ := h
    obtain ⟨hL, hcount⟩ := traceLoop_place (trace_place ih (isAxis_cap D hn w.q w.r)) _ _ _ _ _ hx (by
      refine ⟨?_, ?_, ⟨m, hm, ?_⟩, ?_, ?_⟩
      · show dot T.exitD T.exitD = 1; rw [t4]; exact hP.unit
      · show 0 ≤ T.exitC.z; rw [t3]; exact hP.pos.trans (along_z P.exitC P.exitD w.d hwd hz.le)
      · show Ray D c0 d0 m T.exitC T.exitD
        rw [t3, t4, hal]
        exact .onward _ hwd hr
      · intro l hl; simp [tempPhoton, t1] at hl
      · intro l hl; simp [tempPhoton, t2] at hl)
    split at h
    · injection h with h; injection h with h1 h2; subst h2; exact ⟨hP.4, hP.5⟩
    injection h with h; injection h with h1 h2; subst h2
    have hE := all_append hP.4 hL.4
    have hI := all_append hP.5 hL.5
    obtain ⟨m', hm', hr'⟩ := hL.ray
    have hcount : P.i_refl ≤ x.2.2.i_refl := hcount
    have hem : ∀ lk : Leak ℝ, lk.dir = P.exitD → lk.n_refl = P.i_refl → lk.coords = toExit D.prof x.2.2.exitC x.2.2.exitD →
        Emerges D c0 d0 lk x.2.2.exitC x.2.2.exitD := by
      intro lk l1 l2 l3
      refine ⟨⟨m, P.exitC, by rw [l2]; exact hm, by rw [l1]; exact hr, m', by omega, hr'⟩, fun hd => ?_⟩
      rw [l3, toExit_line _ _ _ hd]
    unfold recordTemp
    simp only
    split
    · split
      · rename_i hb
        exact ⟨all_snoc hE (.emerges (hem _ rfl rfl rfl) (boundary_zero_iff.1 hb).2), hI⟩
      · split
        · rename_i hb
          exact ⟨hE, all_snoc hI (.emerges (hem _ rfl rfl rfl) ((boundary_one_iff _ _ _).1 hb).2)⟩
        · exact ⟨hE, hI⟩
    · exact ⟨hE, hI⟩

/-- **C82.**  Every leak event recorded by a launch is where the light of the photon goes, and in the list it belongs to: external
leaks go out through the side of the optic, internal leaks out of the exit window.  For every photon starting at `z ≥ 0` and moving
downstream, every optic with a valid grid and positive exterior radii, any energies, with any outcome of the launch. -/
theorem launch_leak_places (lib : Xray ℝ) (D : Descr ℝ) (g : Grid D.prof) (hext : ∀ j ≤ D.prof.nmax, 0 < D.prof.ext j) (hn : 1 ≤ D.n_cap)
    (leak : Bool) (fuel k : Nat) (P : Photon ℝ) (h0 : 0 ≤ P.startC.z) (hz : 0 < P.startD.z) (es : List ℝ)
    (hes : es ≠ []) (hb : ∀ e ∈ es, 1 ≤ e ∧ e ≤ 100) (c : Int) (o : WOut ℝ) (P' : Photon ℝ)
    (h : launch lib (some D) leak fuel k (some P) (some es) true = .ok (c, o, some P')) :
    (∀ l ∈ P'.ext, ExtPlace D P.startC (vnorm P.startD) l) ∧ (∀ l ∈ P'.int, IntPlace D P.startC (vnorm P.startD) l) := by
  obtain ⟨D', P'', es', e1, e2, e3, -, -, -, h'⟩ := launch_valid lib (some D) leak fuel k (some P) (some es) true (not_argsBad hes hb)
  injection e1 with e1; injection e2 with e2; injection e3 with e3; subst e1 e2 e3
  rw [h', Out.bind_eq_ok] at h
  obtain ⟨⟨c', o', Q⟩, hx, h⟩ := h
  injection h with h; injection h with h1 h; injection h with h2 h3; injection h3 with h3
  simp only at h1 h2 h3
  subst h1 h2 h3
  have hne : dot P.startD P.startD ≠ 0 := by
    have : 0 < P.startD.z * P.startD.z := mul_pos hz hz
    unfold dot
    nlinarith [mul_self_nonneg P.startD.x, mul_self_nonneg P.startD.y]
  have hu := vnorm_dot _ hne
  have hv : vnorm (vnorm P.startD) = vnorm P.startD := vnorm_unit _ hu
  have hexd : (launchInit lib D es P).exitD = vnorm P.startD := hv
  have hzv : 0 < (vnorm P.startD).z := by
    show 0 < P.startD.z / Real.sqrt _
    refine div_pos hz (Real.sqrt_pos.2 ?_)
    have : 0 < P.startD.z * P.startD.z := mul_pos hz hz
    simp only [real_mul, real_add]
    nlinarith [mul_self_nonneg P.startD.x, mul_self_nonneg P.startD.y]
  have hI : OnCourse D P.startC (vnorm P.startD) (launchInit lib D es P) := by
    refine ⟨by rw [hexd]; exact hu, h0, ⟨0, rfl, ?_⟩, ?_, ?_⟩
    · rw [hexd]; exact .start
    · intro l hl; simp [launchInit] at hl
    · intro l hl; simp [launchInit] at hl
  cases launchBody_ended _ _ _ _ _ _ _ _ _ _ hx with
  | outside => exact ⟨hI.4, hI.5⟩
  | glass => exact ⟨hI.4, hI.5⟩
  | front qr _ _ _ _ x hy =>
    exact reflect_place g hext hn _ _ leak fuel k _ _ x.1 x.2 hy (by rw [hexd]; exact hzv) hI
  | within qr _ _ _ _ _ w hw c o P' hy =>
    obtain ⟨hwd, -⟩ := traceWall_d _ _ _ _ _ hw
    rw [hexd, hv] at hw hy
    have hal := along_unit (c := P.startC) (t := w.d) hu
    unfold launchWall at hy
    simp only at hy
    split at hy
    · injection hy with h; injection h with h1 h; injection h with h2 h3; subst h3; exact ⟨hI.4, hI.5⟩
    rename_i hcode
    split at hy
    · simp at hy
    obtain ⟨hin, hface⟩ := traceWall_face g hext hn hu hzv h0 (by omega) hw
    have hlk : ∀ lk : Leak ℝ, lk.dir = vnorm P.startD → lk.n_refl = 0 → lk.coords = along P.startC (vnorm P.startD) w.d →
        (w.code = 3 → ExtPlace D P.startC (vnorm P.startD) lk) ∧ (w.code = 2 → IntPlace D P.startC (vnorm P.startD) lk) := by
      intro lk l1 l2 l3
      have hh := pass_place (l := lk) (c := P.startC) (c0 := P.startC) (d0 := vnorm P.startD) g hext hn
        ⟨0, by rw [l2]; rfl, by rw [l1]; exact .start⟩ hin (by rw [l1]; exact hu) (by rw [l1]; exact hzv) hwd
        (by rw [l3, l1, hal]; rfl) (by rw [l1]; exact hface)
      refine ⟨fun hc => hh.1 ?_, fun hc => hh.2 ?_⟩
      · unfold wallCode; rw [if_neg (by rw [hc]; decide), hc]
      · unfold wallCode; rw [if_neg (by rw [hc]; decide), hc]
    split at hy
    · rename_i hc
      injection hy with h; injection h with h1 h; injection h with h2 h3; subst h3
      exact ⟨all_snoc hI.4 ((hlk _ rfl rfl rfl).1 hc), hI.5⟩
    split at hy
    · rename_i hc
      injection hy with h; injection h with h1 h; injection h with h2 h3; subst h3
      exact ⟨hI.4, all_snoc hI.5 ((hlk _ rfl rfl rfl).2 hc)⟩
    rw [Out.bind_eq_ok] at hy
    obtain ⟨x, hx, hy⟩ := hy
    obtain ⟨hL, -⟩ := traceLoop_place (trace_place (reflect_place g hext hn _ _ leak fuel k) (isAxis_ax D hn (w.q, w.r))) _ _ _ _ _ hx (by
      refine ⟨hu, h0.trans (along_z P.startC (vnorm P.startD) w.d hwd hzv.le), ⟨0, rfl, ?_⟩, hI.4, hI.5⟩
      show Ray D P.startC (vnorm P.startD) 0 (along P.startC (vnorm P.startD) w.d) (vnorm P.startD)
      rw [hal]
      exact .onward _ hwd .start)
    split at hy
    · injection hy with h; injection h with h1 h; injection h with h2 h3; subst h3; exact ⟨hL.4, hL.5⟩
    injection hy with h; injection h with h1 h; injection h with h2 h3; subst h3
    obtain ⟨m', hm', hr'⟩ := hL.ray
    have hem : ∀ lk : Leak ℝ, lk.dir = x.2.2.exitD → lk.n_refl = x.2.2.i_refl → lk.coords = toExit D.prof x.2.2.exitC x.2.2.exitD →
        Emerges D P.startC (vnorm P.startD) lk x.2.2.exitC x.2.2.exitD := by
      intro lk l1 l2 l3
      refine ⟨⟨m', x.2.2.exitC, by rw [l2]; exact hm', by rw [l1]; exact hr', m', le_rfl, hr'⟩, fun hd => ?_⟩
      rw [l3, toExit_line _ _ _ hd]
    simp only [finish, clearWall]
    unfold recordLaunch
    simp only
    split
    · split
      · rename_i hb
        exact ⟨all_snoc hL.4 (.emerges (hem _ rfl rfl rfl) (boundary_zero_iff.1 hb).2), hL.5⟩
      · split
        · rename_i hb
          exact ⟨hL.4, all_snoc hL.5 (.emerges (hem _ rfl rfl rfl) ((boundary_one_iff _ _ _).1 hb).2)⟩
        · exact ⟨hL.4, hL.5⟩
    · exact ⟨hL.4, hL.5⟩
  | inside qr _ _ c o P' hy =>
    obtain ⟨iesc, ix, Q', ht, -, -, -, -, -, rfl⟩ := launchInside_inv _ _ _ _ _ _ _ _ _ hy
    obtain ⟨hL, -⟩ := traceLoop_place (trace_place (reflect_place g hext hn _ _ leak fuel k) (isAxis_ax D hn qr)) _ _ _ _ _ ht hI
    exact ⟨hL.4, hL.5⟩

/-- the launch of `lk_leaks` meets the hypotheses: its leak event is where the straight line meets the exit plane -/
example : ∃ P' l, launch zLib (some lkD) true 0 1 (some (exP ⟨3/2, 0, 0⟩ ⟨0, 5/13, 12/13⟩ 0)) (some [10]) true = .ok (2, .uninit, some P') ∧
    l ∈ P'.int ∧ IntPlace lkD ⟨3/2, 0, 0⟩ ⟨0, 5/13, 12/13⟩ l := by
  obtain ⟨P', l, h, hl⟩ := lk_leaks
  refine ⟨P', l, h, by simp [hl], ?_⟩
  have := (launch_leak_places zLib lkD exGrid (by intro j _; simp [lkD, exD, exProf]) (by simp [lkD, exD]) true 0 1 _ (le_refl _)
    (by show (0:ℝ) < 12/13; norm_num) [10] (by simp) (by intro e he; simp at he; subst he; norm_num) _ _ _ h).2 l (by simp [hl])
  rw [show (exP ⟨3/2, 0, 0⟩ ⟨0, 5/13, 12/13⟩ 0).startC = ⟨3/2, 0, 0⟩ from rfl, show (exP ⟨3/2, 0, 0⟩ ⟨0, 5/13, 12/13⟩ 0).startD = ⟨0, 5/13, 12/13⟩ from rfl,
    vnorm_unit (⟨0, 5/13, 12/13⟩ : V3 ℝ) (by unfold dot; norm_num)] at this
  exact this

/-! ### The finding: an internal leak inside the optic

The tube of the examples, a photon that hits its front face at (3/2, 0, 0) and flies towards the axis.  It enters the bore at
(7/10, 0, 3/5), inside the optic (which ends at z = 1): the event recorded as internal leak is there, not on the exit plane. -/

theorem bore_seg : ∃ n, segment (axisAt lkD.prof 0 0 0 0) (axisAt lkD.prof 0 0 0 (0 + 1)) (lkD.prof.cap 0) (lkD.prof.cap (0 + 1))
    (atGrid lkD.prof ⟨3/2, 0, 0⟩ ⟨-4/5, 0, 3/5⟩ 0) (atGrid lkD.prof ⟨3/2, 0, 0⟩ ⟨-4/5, 0, 3/5⟩ (0 + 1)) ⟨-4/5, 0, 3/5⟩ ⟨3/2, 0, 0⟩ ⟨lit 0, lit 0, lit 0⟩ =
      (1, ⟨7/10, 0, 3/5⟩, n) := by
  have a0 : axisAt lkD.prof 0 0 0 0 = ⟨0, 0, 0⟩ := by simp [axisAt, lkD, exD, exProf]
  have a1 : axisAt lkD.prof 0 0 0 (0 + 1) = ⟨0, 0, 1⟩ := by simp [axisAt, lkD, exD, exProf]
  have r0 : lkD.prof.cap 0 = 1 := by simp [lkD, exD, exProf]
  have r1 : lkD.prof.cap (0 + 1) = 1/2 := by simp [lkD, exD, exProf]
  have p0 : atGrid lkD.prof ⟨3/2, 0, 0⟩ ⟨-4/5, 0, 3/5⟩ 0 = ⟨3/2, 0, 0⟩ := by rw [atGrid_eq]; simp [lkD, exD, exProf]
  have p1 : atGrid lkD.prof ⟨3/2, 0, 0⟩ ⟨-4/5, 0, 3/5⟩ (0 + 1) = ⟨1/6, 0, 1⟩ := by
    rw [atGrid_eq]; simp [lkD, exD, exProf]; norm_num
  rw [a0, a1, r0, r1, p0, p1]
  have hg : genCoeff ⟨0, 0, 0⟩ ⟨0, 0, 1⟩ 1 (1/2) ⟨-4/5, 0, 3/5⟩ ≠ 0 := by
    simp only [genCoeff]; norm_num
  have hr : segRejects (⟨0, 0, 0⟩ : V3 ℝ) ⟨0, 0, 1⟩ 1 (1/2) ⟨3/2, 0, 0⟩ ⟨1/6, 0, 1⟩ ⟨-4/5, 0, 3/5⟩ = false := by
    rw [segRejects_false]; norm_num
  generalize hs : segment (⟨0, 0, 0⟩ : V3 ℝ) ⟨0, 0, 1⟩ 1 (1/2) ⟨3/2, 0, 0⟩ ⟨1/6, 0, 1⟩ ⟨-4/5, 0, 3/5⟩ ⟨3/2, 0, 0⟩ ⟨lit 0, lit 0, lit 0⟩ = s
  obtain ⟨c, v, n⟩ := s
  have root : ∀ z : ℝ, 0 ≤ z → z ≤ 1 → (OnWall ⟨0, 0, 0⟩ ⟨0, 0, 1⟩ 1 (1/2) (lineAt ⟨3/2, 0, 0⟩ ⟨-4/5, 0, 3/5⟩ z) ↔ z = 3/5) := by
    intro z z0 z1
    simp only [OnWall, lineAt, linAt]
    constructor
    · intro h
      norm_num at h
      have : (z - 3/5) * (z - 15/11) = 0 := by nlinarith
      rcases mul_eq_zero.1 this with h | h
      · linarith
      · linarith
    · intro h; subst h; norm_num
  have hc : c = 1 := by
    by_contra hc
    obtain ⟨z', h1, h2, h3, h4, h5⟩ := segment_complete _ _ _ _ _ _ _ _ _ (by norm_num) hg hr (by rw [hs]; exact hc) (3/5) (by norm_num) (by norm_num)
      (by norm_num) ((root _ (by norm_num) (by norm_num)).2 rfl)
    simp only at h1 h2 h3 h4
    have := (root z' h1 (by linarith)).1 h5
    rw [this] at h4; norm_num at h4
  subst hc
  obtain ⟨l, -, z0, z1, -, w, -⟩ := segment_sound _ _ _ _ _ _ _ _ _ _ _ (by norm_num) hg hs
  rw [l] at w
  have hz := (root v.z z0 z1).1 w
  refine ⟨n, ?_⟩
  rw [l, hz]
  simp only [lineAt]
  norm_num

theorem bore_wall (fuel : Nat) : traceWall lkD fuel ⟨3/2, 0, 0⟩ ⟨-4/5, 0, 3/5⟩ = .ok ⟨2, 1, 0, 0⟩ := by
  have hns : nShells (α := ℝ) lkD.n_cap = 0 := nShells_one
  have hzid : segIdFrom lkD.prof.z 0 (0:ℝ) lkD.prof.nmax = 0 := segId_zero _ _ _ 0 (by simp [lkD, exD, exProf]) (by intro i h1 h2; omega)
  have hge : (((0:ℝ)) >=. lkD.prof.z lkD.prof.nmax) = false := by
    simp only [ge, real_le, decide_eq_false_iff_not, lkD, exD, exProf]; norm_num
  have hext : wallExt lkD.prof 0 (0:ℝ) = 2 := by
    unfold wallExt interpAt
    split
    · rw [linAt_interp]; simp [linAt, lkD, exD, exProf]
    · rfl
  have hsq : (sqrt (((3/2:ℝ)) *. (3/2) +. (0:ℝ) *. 0) >. (2:ℝ)) = false := by
    simp only [real_sqrt, real_mul, real_add, gt, real_lt, decide_eq_false_iff_not, not_lt]
    rw [show (3/2 * (3/2) + 0 * 0 : ℝ) = (3/2) ^ 2 by norm_num, Real.sqrt_sq (by norm_num)]; norm_num
  obtain ⟨n, hseg⟩ := bore_seg
  unfold traceWall
  simp only [hge, hzid, hext, hns, hsq, Bool.false_eq_true, if_false, if_true]
  rw [show lkD.prof.nmax - 1 - (0 + 1) = 0 from rfl]
  unfold wallSegs
  simp only [hseg, if_true]
  unfold wallEnd
  have hg : gap ⟨7/10, 0, 3/5⟩ ⟨3/2, 0, 0⟩ = 1 := by
    unfold gap
    rw [Real.sqrt_eq_one]; norm_num
  rw [if_neg (by simp), if_pos (by show 1 ≤ 0 + 1; omega), dist3_gap, hg]

theorem bore_reflect (k : Nat) (P : Photon ℝ) (hC : P.exitC = ⟨3/2, 0, 0⟩) (hD : P.exitD = ⟨-4/5, 0, 3/5⟩) (hch : P.chans = [⟨10, 1, 0, 1/2⟩])
    (hco : P.coef = true) (hi : P.int = []) : ∃ c P' l, reflect lkD true 0 (k + 1) ⟨0, 0, 1⟩ P = .ok (c, P') ∧ P'.int = [l] ∧ l.coords = ⟨7/10, 0, 3/5⟩ := by
  have hw1 := bore_wall 0
  have e0 : ((0:ℚ):ℝ) = 0 := by norm_num
  have e1 : ((1:ℚ):ℝ) = 1 := by norm_num
  have e4 : ((1/10^4:ℚ):ℝ) = 1/10^4 := by norm_num
  have hu : dot (⟨-4/5, 0, 3/5⟩ : V3 ℝ) ⟨-4/5, 0, 3/5⟩ = 1 := by unfold dot; norm_num
  have huu := vnorm_unit _ hu
  have hsc : scalar (⟨-4/5, 0, 3/5⟩ : V3 ℝ) ⟨0, 0, 1⟩ = 3/5 := by rw [scalar_real]; unfold dot; norm_num
  have hneg : ((3/5 : ℝ) <. lit 0) = false := by simp only [real_lt, real_lit, e0, decide_eq_false_iff_not]; norm_num
  have hp := reflectivity_probability 10 (223/100) (1/2) 0 ⟨0, 0, 1⟩ ⟨-4/5, 0, 3/5⟩ P.exitE P.exitE (by norm_num) (by norm_num) (by norm_num) le_rfl
    (by simp only [reflAlfa, cHC, cNAVOG, cR0, mpi, real_mul, real_div, real_lit]; norm_num) (by unfold dot; norm_num)
  have hrough : roughFactor (1:ℝ) 10 (3/5) ≤ 1 / 2 := by
    simp only [roughFactor, real_mul, real_exp, real_lit]
    have h : Real.exp (((-1:ℚ):ℝ) * (((101358/10^5:ℚ):ℝ) * 10 * (3/5) * 1) * (((101358/10^5:ℚ):ℝ) * 10 * (3/5) * 1)) ≤ Real.exp (-1) := by
      apply Real.exp_le_exp.2; norm_num
    refine h.trans ?_
    rw [Real.exp_neg, one_div]
    exact inv_anti₀ (by norm_num) (by have := Real.add_one_le_exp (1:ℝ); linarith)
  unfold reflect reflectBody
  simp only [hD, vnorm_z, huu, hsc, hneg, Bool.false_eq_true, if_false, wallOf, renorm, if_true, hC, hw1, Out.bind_ok]
  unfold reflectRest
  rw [if_neg (by simp), if_neg (by simp [hco])]
  simp only [hch, reflEnergies]
  rw [show lkD.density = 223/100 from rfl, show lkD.sig_rough = 1 from rfl]
  generalize reflPolar (10:ℝ) (223/100) (1/2) 0 ⟨0, 0, 1⟩ ⟨-4/5, 0, 3/5⟩ P.exitE P.exitE = x at hp ⊢
  have hr1 : (x.1 <. lit 0 || x.1 >. lit 1) = false := by
    simp only [gt, real_lt, real_lit, e0, e1, Bool.or_eq_false_iff, decide_eq_false_iff_not]
    exact ⟨by linarith [hp.1], by linarith [hp.2]⟩
  have hfl : (leakWeight x.1 (roughFactor (1:ℝ) 10 (3/5)) 1 1 0 >=. lit (1/10^4)) = true := by
    simp only [leakWeight, ge, real_le, real_lit, e1, e4, decide_eq_true_eq, real_sub, real_mul, real_exp, mul_zero, Real.exp_zero, mul_one]
    have h1 := hrough
    have h2 : 0 ≤ roughFactor (1:ℝ) 10 (3/5) := by simp only [roughFactor, real_exp]; exact (Real.exp_pos _).le
    nlinarith [hp.1, hp.2]
  simp only [hr1, hfl, Bool.false_eq_true, if_false, Bool.true_and, Bool.or_false, Bool.not_true, if_true]
  unfold reflectLeak
  have hcode : ∀ lc : V3 ℝ, wallCode lkD 2 lc = 2 := fun lc => by unfold wallCode; rw [if_neg (by decide)]
  simp only [hcode, hi]
  rw [if_neg (by decide), if_pos trivial]
  refine ⟨_, _, _, rfl, rfl, ?_⟩
  show along ⟨3/2, 0, 0⟩ ⟨-4/5, 0, 3/5⟩ 1 = _
  rw [along_unit hu]
  simp only [V3.mk.injEq]
  norm_num

/-- **C82**, the stronger statement – internal leaks leave through the exit window – fails: this launch records an internal leak at
(7/10, 0, 3/5), inside the optic of length 1, at a point of the wall of the bore. -/
theorem leak_inside_optic : ∃ P' l, launch zLib (some lkD) true 0 1 (some (exP ⟨3/2, 0, 0⟩ ⟨-4/5, 0, 3/5⟩ 0)) (some [10]) true = .ok (2, .uninit, some P') ∧
    P'.int = [l] ∧ l.coords = ⟨7/10, 0, 3/5⟩ ∧ lkD.prof.z lkD.prof.nmax = 1 ∧ InOptic lkD l.coords := by
  have hb : ¬ ArgsBad (some lkD) (some (exP ⟨3/2, 0, 0⟩ ⟨-4/5, 0, 3/5⟩ 0)) (some [(10:ℝ)]) true :=
    not_argsBad (by simp) (by intro e he; simp at he; subst he; norm_num)
  obtain ⟨D', P'', es', e1, e2, e3, -, -, -, h'⟩ :=
    launch_valid zLib (some lkD) true 0 1 (some (exP ⟨3/2, 0, 0⟩ ⟨-4/5, 0, 3/5⟩ 0)) (some [(10:ℝ)]) true hb
  injection e1 with e1; injection e2 with e2; injection e3 with e3; subst e1 e2 e3
  rw [h']
  have e0 : ((0:ℚ):ℝ) = 0 := by norm_num
  have hs32 : Real.sqrt ((3/2:ℝ) ^ 2 + 0 ^ 2) = 3/2 := by
    rw [show ((3/2:ℝ) ^ 2 + 0 ^ 2) = (3/2) ^ 2 by norm_num]; exact Real.sqrt_sq (by norm_num)
  have hc : launchCap lkD ⟨3/2, 0, 0⟩ = some (0, 0) := ex_cap (c := ⟨3/2, 0, 0⟩) (by norm_num) (by norm_num)
  have hw : startsInWall lkD (0, 0) ⟨3/2, 0, 0⟩ = true := by
    show startsInWall exD (0, 0) ⟨3/2, 0, 0⟩ = true
    rw [ex_glass (by norm_num) (by norm_num), hs32]; norm_num
  have hz0 : (((0:ℝ)) ==. lit 0) = true := by simp only [real_beq, real_lit, e0, decide_true]
  have q4 : (launchInit zLib lkD [10] (exP ⟨3/2, 0, 0⟩ ⟨-4/5, 0, 3/5⟩ 0)).coef = true := by
    show (!scatfRejects exD [10]) = true
    rw [ex_scatf]; rfl
  have q5 : (launchInit zLib lkD [10] (exP ⟨3/2, 0, 0⟩ ⟨-4/5, 0, 3/5⟩ 0)).chans = [⟨10, 1, 0, 1/2⟩] := by
    simp [launchInit, amuOf, scatfOf, lkD, exD, zLib]
    norm_num
  have huu := vnorm_unit (⟨-4/5, 0, 3/5⟩ : V3 ℝ) (by unfold dot; norm_num)
  have q3 : (launchInit zLib lkD [10] (exP ⟨3/2, 0, 0⟩ ⟨-4/5, 0, 3/5⟩ 0)).exitD = ⟨-4/5, 0, 3/5⟩ := by
    show vnorm (vnorm _) = _
    rw [show (exP ⟨3/2, 0, 0⟩ ⟨-4/5, 0, 3/5⟩ 0).startD = ⟨-4/5, 0, 3/5⟩ from rfl, huu, huu]
  obtain ⟨c, P', l, hr, hl, hco⟩ := bore_reflect 0 _ rfl q3 q5 q4 rfl
  have q1 : (launchInit zLib lkD [10] (exP ⟨3/2, 0, 0⟩ ⟨-4/5, 0, 3/5⟩ 0)).startC = ⟨3/2, 0, 0⟩ := rfl
  refine ⟨finish P', l, ?_, hl, hco, by simp [lkD, exD, exProf], ?_⟩
  · unfold launchBody
    simp only [q1, hc, hw, if_true, hz0, Bool.and_true]
    have e1 : (⟨lit 0, lit 0, lit 1⟩ : V3 ℝ) = ⟨0, 0, 1⟩ := by simp
    rw [e1, hr]
    rfl
  · rw [hco]
    refine ⟨by norm_num, by simp [lkD, exD, exProf]; norm_num, 2, ⟨0, by simp [lkD, exD, exProf], by simp [lkD, exD, exProf]; norm_num,
      by simp [lkD, exD, exProf]; norm_num, by simp [lkD, exD, exProf, linAt]⟩, ?_⟩
    unfold Outside
    rw [if_pos (by simp [lkD, exD])]
    rw [show ((7/10:ℝ)) ^ 2 + 0 ^ 2 = (7/10) ^ 2 by norm_num, Real.sqrt_sq (by norm_num)]
    norm_num

end Polycap

namespace Polycap
open CNum

/-- `c0`, `d0` is a start that the source `S` gives its photons: on the entrance plane, on the straight line from a point of the source
spot, downstream, unit direction -/
def SourceStart (S : Src ℝ) (c0 d0 : V3 ℝ) : Prop :=
  c0.z = 0 ∧ 0 < d0.z ∧ dot d0 d0 = 1 ∧ ∃ s : V3 ℝ, s.z = 0 ∧ (∃ f, 0 ≤ f ∧ f ≤ 1 ∧ OnEllipse S f s) ∧ OnRay s d0 c0 S.d_source

/-- the leak events of one simulated photon -/
theorem attempt_leak_places {lib : Xray ℝ} {S : Src ℝ} {D : Descr ℝ} (G : GoodSetup lib S D) (hext : ∀ j ≤ D.prof.nmax, 0 < D.prof.ext j) {leak : Bool}
    {fuel k : Nat} {u : Nat → ℝ} (hu : ∀ i, 0 ≤ u i ∧ u i ≤ 1) {n : Nat} {p : Attempt ℝ} {m : Nat} (h : attempt lib S D leak fuel k u n = .ok (p, m)) :
    ∃ c0 d0, SourceStart S c0 d0 ∧ (∀ l ∈ p.ph.ext, ExtPlace D c0 d0 l) ∧ (∀ l ∈ p.ph.int, IntPlace D c0 d0 l) := by
  obtain ⟨x, hx, -, hl⟩ := attempt_ok h
  obtain ⟨c0, d0, du, he, hs, hray⟩ := source_photon_geometry S G.src D u hu fuel n x m hx
  obtain ⟨-, -, hes, hb, -⟩ := (scatf_accepts_iff D S.energies).mp G.comp
  have := launch_leak_places lib D G.grid hext G.caps leak fuel k _ c0.ge d0 _ hes hb _ _ _ hl
  rw [vnorm_unit _ du] at this
  exact ⟨_, _, ⟨c0, d0, du, _, hs, he, hray⟩, this⟩

end Polycap

namespace Polycap.Get
open CNum Polycap.H5

/-- the leak event `g`, as handed out, is the event `l` -/
structure Is (g : GLeak ℝ) (l : Leak ℝ) : Prop where
  coords : g.coords = l.coords
  dir : g.dir = l.dir
  refl : g.nRefl = l.n_refl
  weight : g.weight = l.weight

theorem handed_is {ne : Nat} {l : Leak ℝ} (h : LeakOk 0 l) (hl : l.weight.length = ne) (ev : Option (V3 ℝ)) :
    Is ⟨l.coords, rebuilt l.dir.x l.dir.y, ev, ne, l.n_refl, l.weight.take ne⟩ l :=
  ⟨rfl, rebuilt_direction l.dir h.unit h.down, rfl, List.take_of_length_le hl.le⟩

/-- **C82** for the results of a simulation: every external (internal) leak event handed out is where the light of a photon of the
source goes: out through the side (through the exit window). -/
theorem simulation_leak_places (lib : Xray ℝ) (a : SimArgs ℝ) (omp : Int) (e : EArg) (r : TE ℝ) (e' : EArg) (h : SimOutcome lib a omp e (some r) e')
    {S : Src ℝ} {D : Descr ℝ} (hS : a.source = some (S, some D)) (G : GoodSetup lib S D) (hext : ∀ j ≤ D.prof.nmax, 0 < D.prof.ext j) (ok : Nat → Bool)
    (e'' : EArg) (x : LeakOut ℝ) (gs : List (GLeak ℝ)) (hx : x.leaks = .arr gs) :
    (getExt ok (some (some r)) e' = .ok (true, e'', x) → ∀ g ∈ gs, ∃ c0 d0 l, SourceStart S c0 d0 ∧ Is g l ∧ ExtPlace D c0 d0 l) ∧
    (getInt ok (some (some r)) e' = .ok (true, e'', x) → ∀ g ∈ gs, ∃ c0 d0 l, SourceStart S c0 d0 ∧ Is g l ∧ IntPlace D c0 d0 l) := by
  cases h with
  | ran h S' D' hs u hu fuel k asg hd n s hr hf =>
    rw [hS] at hs
    simp only [Option.some.injEq, Prod.mk.injEq] at hs
    obtain ⟨rfl, rfl⟩ := hs
    have hall := allHist_mem hr hf
    have R := simulation_reports hd hr hf S.energies
    obtain ⟨ps, es, is, hp, h2, h3, h4, hH⟩ := reports_hold R (effs_length hr hf S.energies) rfl
    have hok : ∀ y ∈ allHist (simCfg lib S D a omp u fuel k) (fun t => (s.thr t).hist),
        (∀ l ∈ y.2.ph.ext, LeakOk 0 l ∧ l.weight.length = S.energies.length) ∧ (∀ l ∈ y.2.ph.int, LeakOk 0 l ∧ l.weight.length = S.energies.length) := by
      intro y hy
      obtain ⟨t, ht, q, q', hq⟩ := hall y hy
      exact attempt_leaks G (real_unit hu t) (show attempt lib S D a.leak fuel k (u t) q = .ok (y.2, q') from hq)
    have hpl : ∀ y ∈ allHist (simCfg lib S D a omp u fuel k) (fun t => (s.thr t).hist),
        ∃ c0 d0, SourceStart S c0 d0 ∧ (∀ l ∈ y.2.ph.ext, ExtPlace D c0 d0 l) ∧ (∀ l ∈ y.2.ph.int, IntPlace D c0 d0 l) := by
      intro y hy
      obtain ⟨t, ht, q, q', hq⟩ := hall y hy
      exact attempt_leak_places G hext (real_unit hu t) (show attempt lib S D a.leak fuel k (u t) q = .ok (y.2, q') from hq)
    have htr : ∀ {l : Leak ℝ}, l.weight.length = S.energies.length →
        trunc (simCfg lib S D a omp u fuel k).ne l = l := by
      intro l hl
      change trunc S.energies.length l = l
      unfold trunc; rw [List.take_of_length_le hl.le]
    have he : ∀ l ∈ es, (LeakOk 0 l ∧ l.weight.length = S.energies.length) ∧ ∃ c0 d0, SourceStart S c0 d0 ∧ ExtPlace D c0 d0 l := by
      intro l hl
      have := h3.mem_iff.1 hl
      split at this
      · obtain ⟨y, hy, hly⟩ := List.mem_flatMap.1 this
        split at hly
        · obtain ⟨l0, hl0, rfl⟩ := List.mem_map.1 hly
          have h1 := (hok y hy).1 l0 hl0
          obtain ⟨c0, d0, k1, k2, -⟩ := hpl y hy
          rw [htr h1.2]
          exact ⟨h1, c0, d0, k1, k2 l0 hl0⟩
        · simp at hly
      · simp at this
    have hi : ∀ l ∈ is, (LeakOk 0 l ∧ l.weight.length = S.energies.length) ∧ ∃ c0 d0, SourceStart S c0 d0 ∧ IntPlace D c0 d0 l := by
      intro l hl
      have := h4.mem_iff.1 hl
      split at this
      · obtain ⟨y, hy, hly⟩ := List.mem_flatMap.1 this
        split at hly
        · obtain ⟨l0, hl0, rfl⟩ := List.mem_map.1 hly
          have h1 := (hok y hy).2 l0 hl0
          obtain ⟨c0, d0, k1, -, k2⟩ := hpl y hy
          rw [htr h1.2]
          exact ⟨h1, c0, d0, k1, k2 l0 hl0⟩
        · simp at hly
      · simp at this
    constructor
    · intro hg
      by_cases h0 : (results (simCfg lib S D a omp u fuel k) S.energies s).iExt = 0
      · rw [getExt, getLeaks, if_pos h0] at hg; injection hg with hg; injection hg with h1 _; cases h1
      obtain ⟨k1, k2⟩ := extleak_data ok hH h0 e
      by_cases hok : ∀ k < 1 + 2 * (results (simCfg lib S D a omp u fuel k) S.energies s).iExt, ok k = true
      · rw [k1 hok] at hg
        injection hg with hg; injection hg with h1 hg; injection hg with h5 h6
        rw [← h6] at hx
        simp only [List.zipWith_map, List.zipWith_self, Cell.arr.injEq] at hx
        subst hx
        intro g hgm
        obtain ⟨l, hl, rfl⟩ := List.mem_map.1 hgm
        obtain ⟨⟨q1, q2⟩, c0, d0, q3, q4⟩ := he l hl
        exact ⟨c0, d0, l, q3, handed_is q1 q2 none, q4⟩
      · obtain ⟨o, ho⟩ := k2 hok
        rw [ho] at hg; injection hg with hg; injection hg with h1 _; cases h1
    · intro hg
      by_cases h0 : (results (simCfg lib S D a omp u fuel k) S.energies s).iInt = 0
      · rw [getInt, getLeaks, if_pos h0] at hg; injection hg with hg; injection hg with h1 _; cases h1
      obtain ⟨k1, k2⟩ := intleak_data ok hH h0 e
      by_cases hok : ∀ k < 1 + 2 * (results (simCfg lib S D a omp u fuel k) S.energies s).iInt, ok k = true
      · rw [k1 hok] at hg
        injection hg with hg; injection hg with h1 hg; injection hg with h5 h6
        rw [← h6] at hx
        simp only [List.zip_map', List.zipWith_map, List.zipWith_self, Cell.arr.injEq] at hx
        subst hx
        intro g hgm
        obtain ⟨l, hl, rfl⟩ := List.mem_map.1 hgm
        obtain ⟨⟨q1, q2⟩, c0, d0, q3, q4⟩ := hi l hl
        exact ⟨c0, d0, l, q3, handed_is q1 q2 _, q4⟩
      · obtain ⟨o, ho⟩ := k2 hok
        rw [ho] at hg; injection hg with hg; injection hg with h1 _; cases h1

end Polycap.Get
