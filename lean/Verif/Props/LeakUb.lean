import Verif.Props.LeakRecords
import Verif.Props.PcIntersect

/-!
# C74: when a launch with leak calculation reads outside the profile

Over the reals.  The only undefined behaviour of a launch (valid grid, accepted composition, photon moving downstream) is the search for
the point where a leaking photon left the optic: it runs off the front of the profile arrays exactly for photons whose whole straight
line is outside the optic at every profile point.
-/
namespace Polycap
open CNum

/-- The straight line through `c` with direction `d` is outside the optic's hexagon at every profile point. -/
def MissesOptic (p : Profile ℝ) (c d : V3 ℝ) : Prop :=
  ∀ j ≤ p.nmax, ¬ InHex (p.ext j) (c.x + (p.z j - c.z) / d.z * d.x) (c.y + (p.z j - c.z) / d.z * d.y)

theorem boundary_zero_iff {r x y : ℝ} : withinPcBoundary r x y = 0 ↔ 0 < r ∧ ¬ InHex r x y := by
  refine ⟨fun h => ?_, fun h => (boundary_spec r x y).2.2 h.1 h.2⟩
  have h1 : ¬ withinPcBoundary r x y = -1 := by rw [h]; decide
  have h2 : ¬ withinPcBoundary r x y = 1 := by rw [h]; decide
  rw [boundary_error_iff] at h1
  rw [boundary_one_iff] at h2
  have := not_le.1 h1
  exact ⟨this, fun hx => h2 ⟨this, hx⟩⟩

theorem revDir_ratio (d : V3 ℝ) (hd : 0 < d.z) : (revDir d).z < 0 ∧ (revDir d).x / (revDir d).z = d.x / d.z ∧
    (revDir d).y / (revDir d).z = d.y / d.z := by
  have hn : 0 < Real.sqrt (d.x ^ 2 + d.y ^ 2 + d.z ^ 2) := Real.sqrt_pos.2 (by positivity)
  have e : ((-1:ℚ):ℝ) = -1 := by norm_num
  have key : revDir d = ⟨-d.x / Real.sqrt (d.x ^ 2 + d.y ^ 2 + d.z ^ 2), -d.y / Real.sqrt (d.x ^ 2 + d.y ^ 2 + d.z ^ 2),
      -d.z / Real.sqrt (d.x ^ 2 + d.y ^ 2 + d.z ^ 2)⟩ := by
    simp only [revDir, vnorm, real_mul, real_lit, e, real_sqrt, real_add, real_div, neg_mul, one_mul]
    simp only [pow_two] at *
    simp
  rw [key]
  refine ⟨div_neg_of_neg_of_pos (by linarith) hn, ?_, ?_⟩ <;> (simp only; field_simp)

theorem segId_end (p : Profile ℝ) (g : Grid p) : segIdFrom p.z 0 (p.z p.nmax) p.nmax = p.nmax - 1 := by
  have h2 := g.two
  rcases segId_spec p.z 0 (p.z p.nmax) p.nmax with ⟨a, b, c⟩ | ⟨a, b⟩
  · by_contra hne
    have := c (p.nmax - 1) (by omega) (by omega)
    simp only [real_le, decide_eq_false_iff_not, not_le] at this
    have := g.inc (p.nmax - 1) (by omega)
    rw [show p.nmax - 1 + 1 = p.nmax by omega] at this
    linarith
  · have := b (p.nmax - 1) (by omega)
    simp only [real_le, decide_eq_false_iff_not, not_le] at this
    have := g.inc (p.nmax - 1) (by omega)
    rw [show p.nmax - 1 + 1 = p.nmax by omega] at this
    linarith

/-- **C74**, the search for the exit point of a leaking photon, exactly: outside the arrays iff the line misses the optic everywhere. -/
theorem wallExit_ub_iff (p : Profile ℝ) (g : Grid p) (hext : ∀ j ≤ p.nmax, 0 < p.ext j) (c d last : V3 ℝ) (hd : 0 < d.z) (q r : Int) :
    wallExit p c d last q r = .ub ↔ MissesOptic p c d := by
  have h2 := g.two
  have hid := segId_end p g
  obtain ⟨r1, r2, r3⟩ := revDir_ratio d hd
  have hinc := g.inc (p.nmax - 1) (by omega)
  rw [show p.nmax - 1 + 1 = p.nmax by omega] at hinc
  have hat : ∀ j, atGrid p c d j = ⟨c.x + (p.z j - c.z) / d.z * d.x, c.y + (p.z j - c.z) / d.z * d.y, p.z j⟩ := by
    intro j
    simp only [atGrid, projXY, real_add, real_mul, real_sub, real_div, V3.mk.injEq, and_true]
    constructor <;> ring
  have hz : (d.z ==. lit 0) = false := by
    simp only [real_beq, real_lit, Rat.cast_zero, decide_eq_false_iff_not]; exact hd.ne'
  have hrz : ((revDir d).z <. lit 0) = true := by
    simp only [real_lt, real_lit, Rat.cast_zero, decide_eq_true_eq]; exact r1
  have hown : ownStatus p (atGrid p c d p.nmax) = withinPcBoundary (p.ext p.nmax) (atGrid p c d p.nmax).x (atGrid p c d p.nmax).y := by
    unfold ownStatus
    rw [show (atGrid p c d p.nmax).z = p.z p.nmax by rw [hat], hid]
    congr 1
    unfold interpAt
    rw [linAt_interp, show p.nmax - 1 + 1 = p.nmax by omega]
    unfold linAt
    have : p.z p.nmax - p.z (p.nmax - 1) ≠ 0 := by linarith
    field_simp
    ring
  have hline : ∀ j, lineStatus p (atGrid p c d p.nmax) (revDir d) j =
      withinPcBoundary (p.ext j) (c.x + (p.z j - c.z) / d.z * d.x) (c.y + (p.z j - c.z) / d.z * d.y) := by
    intro j
    unfold lineStatus
    rw [hat]
    simp only [projXY, real_add, real_mul, real_sub, real_div]
    rw [mul_div_right_comm (revDir d).x, mul_div_right_comm (revDir d).y, r2, r3]
    congr 1 <;> (field_simp; ring)
  unfold wallExit
  simp only
  by_cases hin : withinPcBoundary (p.ext p.nmax) (atGrid p c d p.nmax).x (atGrid p c d p.nmax).y = 0
  · rw [if_pos hin]
    have hub := pc_intersect_oob_iff p h2 (atGrid p c d p.nmax) d none
    rw [show (atGrid p c d p.nmax).z = p.z p.nmax by rw [hat], hid, hown, hin] at hub
    simp only [hz, hrz, if_true, true_and, hline] at hub
    have hM : MissesOptic p c d ↔ pcIntersect p (atGrid p c d p.nmax) d none = .ub := by
      rw [hub]
      constructor
      · intro hm
        refine ⟨by decide, fun j hj => ?_⟩
        rw [eq_comm, boundary_zero_iff]
        exact ⟨hext j (by omega), hm j (by omega)⟩
      · rintro ⟨-, hm⟩ j hj
        by_cases hjn : j = p.nmax
        · subst hjn
          have := (boundary_zero_iff.1 hin).2
          rwa [hat] at this
        · exact (boundary_zero_iff.1 (hm j (by omega)).symm).2
    rw [hM]
    generalize pcIntersect p (atGrid p c d p.nmax) d none = x
    cases x with
    | ok x => simp only [Out.bind_ok]; rcases x with ⟨_ | _, _⟩ <;> simp
    | ub => simp
    | fuel => simp
  · rw [if_neg hin]
    simp only [reduceCtorEq, false_iff]
    intro hm
    apply hin
    rw [boundary_zero_iff]
    refine ⟨hext _ le_rfl, ?_⟩
    have := hm p.nmax le_rfl
    rwa [hat]

theorem wallEnd_ub {p : Profile ℝ} {c d : V3 ℝ} {s : Int × Nat × V3 ℝ} {q r : Int} (h : wallEnd p c d s q r = .ub) :
    ∃ last q' r', wallExit p c d last q' r' = .ub := by
  unfold wallEnd at h
  split at h
  · exact ⟨_, _, _, h⟩
  split at h <;> simp at h

theorem wallStep_ub (p : Profile ℝ) (ns qi ri : Int) (c d : V3 ℝ) : ∀ (k : Nat) (dist : ℝ) (zid : Nat), wallStep p ns qi ri c d k dist zid ≠ .ub := by
  intro k
  induction k with
  | zero => intro dist zid; simp [wallStep]
  | succ k ih =>
    intro dist zid
    unfold wallStep
    simp only
    split
    · simp
    split
    · exact ih _ _
    · simp

theorem wallHex_ub {p : Profile ℝ} {ns : Int} {c d : V3 ℝ} {g : Nat} : ∀ (f : Nat) (qi ri : Int) (dist : ℝ) (zid : Nat) (cur : V3 ℝ),
    wallHex p ns c d g f qi ri dist zid cur = .ub → ∃ last q' r', wallExit p c d last q' r' = .ub := by
  intro f
  induction f with
  | zero => intro qi ri dist zid cur h; simp [wallHex] at h
  | succ f ih =>
    intro qi ri dist zid cur h
    unfold wallHex at h
    cases hs : wallStep p ns qi ri c d g dist zid with
    | ub => exact absurd hs (wallStep_ub _ _ _ _ _ _ _ _ _)
    | fuel => rw [hs] at h; simp at h
    | ok x =>
      rw [hs, Out.bind_ok] at h
      cases x with
      | stumbled dd => simp at h
      | left dist zid ph q r =>
        simp only at h
        split at h
        · exact ⟨_, _, _, h⟩
        split at h
        · exact ih _ _ _ _ _ h
        · exact wallEnd_ub h

/-- `c` is a point of the optic, before its end. -/
def InOptic (D : Descr ℝ) (c : V3 ℝ) : Prop :=
  0 ≤ c.z ∧ c.z < D.prof.z D.prof.nmax ∧ ∃ R, ValueAt D.prof D.prof.ext c.z R ∧ ¬ Outside D.n_cap R c

theorem ValueAt.pos {p : Profile ℝ} (g : Grid p) {v : Nat → ℝ} (hv : ∀ j ≤ p.nmax, 0 < v j) {z r : ℝ} (h : ValueAt p v z r) : 0 < r := by
  obtain ⟨i, hi, a, b, rfl⟩ := h
  have h0 := hv i (by omega)
  have h1 := hv (i + 1) (by omega)
  have hz := g.inc i hi
  have hd : 0 < p.z (i + 1) - p.z i := by linarith
  have e : linAt (p.z i) (p.z (i + 1)) (v i) (v (i + 1)) z =
      (v i * (p.z (i + 1) - z) + v (i + 1) * (z - p.z i)) / (p.z (i + 1) - p.z i) := by
    unfold linAt; field_simp; ring
  rw [e]
  apply div_pos _ hd
  rcases eq_or_lt_of_le a with e | e
  · rw [← e]; nlinarith
  · nlinarith [mul_pos h1 (sub_pos.2 e), mul_nonneg h0.le (sub_nonneg.2 b)]

theorem wallExt_value {p : Profile ℝ} (g : Grid p) {z : ℝ} (h0 : 0 ≤ z) (h1 : z ≤ p.z p.nmax) :
    ValueAt p p.ext z (wallExt p (segIdFrom p.z 0 z p.nmax) z) := by
  have h2 := g.two
  obtain ⟨a, b, c⟩ : segIdFrom p.z 0 z p.nmax < p.nmax ∧ p.z (segIdFrom p.z 0 z p.nmax) ≤ z ∧ z ≤ p.z (segIdFrom p.z 0 z p.nmax + 1) := by
    rcases segId_spec p.z 0 z p.nmax with ⟨a, b, c⟩ | ⟨a, b⟩
    · refine ⟨a, by simpa using b, ?_⟩
      by_cases hl : segIdFrom p.z 0 z p.nmax + 1 < p.nmax
      · have := c _ (Nat.lt_succ_self _) hl
        simp only [real_le, decide_eq_false_iff_not, not_le] at this
        exact this.le
      · rw [show segIdFrom p.z 0 z p.nmax + 1 = p.nmax by omega]; exact h1
    · have := b 0 (by omega)
      simp only [real_le, decide_eq_false_iff_not, not_le, g.start] at this
      linarith
  refine ⟨_, a, b, c, ?_⟩
  unfold wallExt
  split
  · unfold interpAt; rw [linAt_interp]
  · rename_i he
    have he : p.z (segIdFrom p.z 0 z p.nmax) = z := by simpa [CNum.bne] using he
    unfold linAt
    rw [he]; simp

theorem traceWall_ub {D : Descr ℝ} (g : Grid D.prof) (hext : ∀ j ≤ D.prof.nmax, 0 < D.prof.ext j) (hn : 1 ≤ D.n_cap)
    {fuel : Nat} {c d : V3 ℝ} (h0 : 0 ≤ c.z) (h : traceWall D fuel c d = .ub) :
    InOptic D c ∧ ∃ last q' r', wallExit D.prof c d last q' r' = .ub := by
  unfold traceWall at h
  simp only at h
  split at h
  · simp at h
  rename_i hz
  have hz : c.z < D.prof.z D.prof.nmax := by simpa using hz
  have hR := wallExt_value g h0 hz.le
  have hRp := hR.pos g hext
  split at h
  · rename_i hn'
    split at h
    · simp at h
    rename_i hs
    refine ⟨⟨h0, hz, _, hR, ?_⟩, wallEnd_ub h⟩
    unfold Outside
    rw [if_pos ((nShells_zero_iff _ hn).1 hn')]
    have hs : Real.sqrt (c.x * c.x + c.y * c.y) ≤ wallExt D.prof (segIdFrom D.prof.z 0 c.z D.prof.nmax) c.z := by simpa using hs
    rw [not_lt, pow_two, pow_two]
    exact hs
  · rename_i hn'
    split at h
    · simp at h
    rename_i hs
    refine ⟨⟨h0, hz, _, hR, ?_⟩, wallHex_ub _ _ _ _ _ _ h⟩
    unfold Outside
    rw [if_neg (fun hc => hn' ((nShells_zero_iff _ hn).2 hc))]
    intro hi
    exact hs (boundary_zero_iff.2 ⟨hRp, hi⟩)

/-- `ax`, `ay` are the axis of a capillary of the optic (of the central one for a monocapillary). -/
def IsAxis (D : Descr ℝ) (ax ay : Nat → ℝ) : Prop :=
  ∃ q r : Int, ∀ i, ax i = centreX (nShells (α := ℝ) D.n_cap) (D.prof.ext i) q r ∧ ay i = centreY (nShells (α := ℝ) D.n_cap) (D.prof.ext i) r

/-- Light rays in the optic: `Ray D c0 d0 m c d` – from `c0` in direction `d0`, after `m` mirror reflections at walls of capillaries and
otherwise straight on (through air or glass), the light is at `c` with direction `d`. -/
inductive Ray (D : Descr ℝ) (c0 d0 : V3 ℝ) : Nat → V3 ℝ → V3 ℝ → Prop
  | start : Ray D c0 d0 0 c0 d0
  | onward {m : Nat} {c d : V3 ℝ} (t : ℝ) (ht : 0 ≤ t) (h : Ray D c0 d0 m c d) : Ray D c0 d0 m ⟨c.x + t * d.x, c.y + t * d.y, c.z + t * d.z⟩ d
  | bounce {m : Nat} {c d v n d' : V3 ℝ} {i : Nat} {ax ay : Nat → ℝ} (h : Ray D c0 d0 m c d) (axis : IsAxis D ax ay)
      (f : Flight D ax ay c d v n i) (unit : dot d' d' = 1) (mirror : Mirror d n d') : Ray D c0 d0 (m + 1) v d'

/-- The one reason for undefined behaviour of a launch from `c0` in direction `d0`: the light comes to a point `c` of the optic
with a direction `d` downstream such that its straight line misses the optic at every profile point. -/
def LeakMisses (D : Descr ℝ) (c0 d0 : V3 ℝ) : Prop :=
  ∃ m c d, Ray D c0 d0 m c d ∧ InOptic D c ∧ 0 < d.z ∧ MissesOptic D.prof c d

theorem wallExit_ub_dir {p : Profile ℝ} {c d last : V3 ℝ} {q r : Int} (h : wallExit p c d last q r = .ub) : d.z ≠ 0 := by
  intro hd
  unfold wallExit at h
  simp only at h
  split at h
  · unfold pcIntersect at h
    simp [hd] at h
  · simp at h

theorem traceWall_misses {D : Descr ℝ} (g : Grid D.prof) (hext : ∀ j ≤ D.prof.nmax, 0 < D.prof.ext j) (hn : 1 ≤ D.n_cap) {c0 d0 : V3 ℝ}
    {fuel m : Nat} {c d : V3 ℝ} (h0 : 0 ≤ c.z) (hd : 0 ≤ d.z) (hr : Ray D c0 d0 m c d) (h : traceWall D fuel c d = .ub) : LeakMisses D c0 d0 := by
  obtain ⟨hi, last, q, r, hw⟩ := traceWall_ub g hext hn h0 h
  have hdz : 0 < d.z := lt_of_le_of_ne hd (Ne.symm (wallExit_ub_dir hw))
  exact ⟨m, c, d, hr, hi, hdz, (wallExit_ub_iff _ g hext _ _ _ hdz _ _).1 hw⟩

/-- a wall interaction is on the straight line of the photon -/
theorem traceSearch_hit_line (D : Descr ℝ) (capx capy : Nat → ℝ) (P : Photon ℝ) (hu : dot P.exitD P.exitD = 1) (k i : Nat) (nrm : V3 ℝ) (j : Nat)
    (v n : V3 ℝ) (ca : ℝ) (h : traceSearch D capx capy P k i P.exitC nrm = .hit j v n ca) :
    0 < P.exitD.z ∧ v = lineAt P.exitC P.exitD v.z ∧ P.exitC.z ≤ v.z := by
  obtain ⟨-, -, -, -, cur, nrm', k5, k6⟩ := traceSearch_hit D capx capy P _ _ _ _ _ _ _ _ le_rfl h
  obtain ⟨hr, -, -, h2, h2', h3, hx, hy, -⟩ := segment_success k6
  obtain ⟨-, -, -, -, g5, -⟩ := segRejects_false.mp hr
  rw [vnorm_unit _ hu] at h3 hx hy
  have hdz : 0 < P.exitD.z := by
    rcases eq_or_lt_of_le g5 with h0 | h0
    · rw [← h0, div_zero] at h3; norm_num at h3
    · exact h0
  refine ⟨hdz, ?_, by linarith⟩
  have hz : (atGrid D.prof P.exitC P.exitD j).z = D.prof.z j := rfl
  have e1 : (atGrid D.prof P.exitC P.exitD j).x = P.exitC.x + P.exitD.x * (D.prof.z j - P.exitC.z) / P.exitD.z := rfl
  have e2 : (atGrid D.prof P.exitC P.exitD j).y = P.exitC.y + P.exitD.y * (D.prof.z j - P.exitC.z) / P.exitD.z := rfl
  rw [e1, hz] at hx
  rw [e2, hz] at hy
  have hzz := hdz.ne'
  cases v with
  | mk vx vy vz =>
    simp only [lineAt, V3.mk.injEq, and_true] at hx hy ⊢
    constructor
    · rw [hx]; field_simp; ring
    · rw [hy]; field_simp; ring

theorem Ray.toLine {D : Descr ℝ} {c0 d0 : V3 ℝ} {m : Nat} {c d v : V3 ℝ} (h : Ray D c0 d0 m c d) (hd : 0 < d.z) (hv : v = lineAt c d v.z)
    (hz : c.z ≤ v.z) : Ray D c0 d0 m v d := by
  have := Ray.onward ((v.z - c.z) / d.z) (div_nonneg (by linarith) hd.le) h
  rw [hv]
  unfold lineAt
  convert this using 2
  field_simp
  ring

theorem reflect_coef {D : Descr ℝ} {leak : Bool} {fuel k : Nat} {n : V3 ℝ} {P : Photon ℝ} {c : Int} {P' : Photon ℝ}
    (h : reflect D leak fuel k n P = .ok (c, P')) : P'.coef = P.coef := by
  cases k with
  | zero => simp [reflect] at h
  | succ k =>
    unfold reflect reflectBody at h
    simp only at h
    split at h
    · injection h with h; injection h with h1 h2; subst h2; rfl
    rw [Out.bind_eq_ok] at h
    obtain ⟨w, hw, h⟩ := h
    unfold reflectRest at h
    simp only at h
    split at h
    · injection h with h; injection h with h1 h2; subst h2; rfl
    split at h
    · simp at h
    split at h
    · injection h with h; injection h with h1 h2; subst h2; rfl
    split at h
    · exact (reflectLeak_frame _ _ _ _ _ _ _ _ h).2.2.2.2.1
    · injection h with h; injection h with h1 h2; subst h2; rfl

theorem trace_coef {D : Descr ℝ} {leak : Bool} {fuel k : Nat} {capx capy : Nat → ℝ} {ix : Nat} {P : Photon ℝ} {c : Int} {ix' : Nat}
    {P' : Photon ℝ} (h : trace D leak fuel k capx capy ix P = .ok (c, ix', P')) : P'.coef = P.coef := by
  unfold trace capilTrace at h
  simp only at h
  split at h
  · injection h with h; injection h with h1 h; injection h with h2 h3; subst h3; rfl
  · injection h with h; injection h with h1 h; injection h with h2 h3; subst h3; rfl
  unfold traceHit at h
  simp only at h
  split at h
  · injection h with h; injection h with h1 h; injection h with h2 h3; subst h3; rfl
  split at h
  · simp at h
  split at h
  · injection h with h; injection h with h1 h; injection h with h2 h3; subst h3; rfl
  split at h
  · injection h with h; injection h with h1 h; injection h with h2 h3; subst h3; rfl
  rw [Out.bind_eq_ok] at h
  obtain ⟨⟨rc, R⟩, hR, h⟩ := h
  have hc := reflect_coef hR
  injection h with h
  unfold afterReflect at h
  simp only at h
  split at h
  · injection h with h1 h; injection h with h2 h3; subst h3; exact hc
  split at h
  · injection h with h1 h; injection h with h2 h3; subst h3; exact hc
  · injection h with h1 h; injection h with h2 h3; subst h3; exact hc

theorem along_unit {c d : V3 ℝ} {t : ℝ} (hd : dot d d = 1) : along c d t = ⟨c.x + t * d.x, c.y + t * d.y, c.z + t * d.z⟩ := by
  unfold along
  simp only [scalar_real, hd, real_sqrt, Real.sqrt_one, real_div, div_one, real_add, real_mul]

/-- photon in flight on a light ray, with its coefficients -/
structure Ready (D : Descr ℝ) (c0 d0 : V3 ℝ) (P : Photon ℝ) : Prop where
  flight : FlightOk 0 P
  coef : P.coef = true
  unit : dot P.exitD P.exitD = 1
  ray : ∃ m, Ray D c0 d0 m P.exitC P.exitD

/-- undefined behaviour of the tracing function has the one reason -/
def TraceUb (D : Descr ℝ) (c0 d0 : V3 ℝ) (tr : Nat → Photon ℝ → Out (Int × Nat × Photon ℝ)) : Prop :=
  ∀ ix P, tr ix P = .ub → Ready D c0 d0 P → LeakMisses D c0 d0

theorem traceLoop_ub {D : Descr ℝ} {c0 d0 : V3 ℝ} {leak : Bool} {fuel kk : Nat} {capx capy : Nat → ℝ} (hax : IsAxis D capx capy)
    (htr : TraceUb D c0 d0 (trace D leak fuel kk capx capy)) :
    ∀ (k : Nat) (iesc : Int) (ix : Nat) (P : Photon ℝ), traceLoop (trace D leak fuel kk capx capy) k iesc ix P = .ub → Ready D c0 d0 P →
      LeakMisses D c0 d0 := by
  intro k
  induction k with
  | zero => intro iesc ix P h; simp [traceLoop] at h
  | succ k ih =>
    intro iesc ix P h hP
    unfold traceLoop at h
    cases hs : trace D leak fuel kk capx capy ix P with
    | ub => exact htr _ _ hs hP
    | fuel => rw [hs] at h; simp at h
    | ok x =>
      rw [hs, Out.bind_ok] at h
      obtain ⟨c, ix', P'⟩ := x
      simp only at h
      split at h
      · simp at h
      · rename_i hc
        have hm := (trace_moved D leak fuel kk capx capy ix P hP.flight.dir c ix' P' hs).flight hP.unit
        rcases hm with ⟨-, -, -, -, e5⟩ | ⟨n, i, f, -, ⟨e2, -⟩ | ⟨-, e3, e4, -⟩⟩
        · exact absurd e5 hc
        · exact absurd e2 hc
        · obtain ⟨m, hr⟩ := hP.ray
          exact ih _ _ _ h ⟨trace_ok D leak fuel kk (reflect_ok D leak fuel kk) _ _ _ _ _ _ _ hs hP.flight, (trace_coef hs).trans hP.coef, e3,
            m + 1, .bounce hr hax f e3 e4⟩

theorem trace_ub {D : Descr ℝ} (g : Grid D.prof) {c0 d0 : V3 ℝ} {leak : Bool} {fuel k : Nat}
    (hrefl : ∀ (n : V3 ℝ) (P : Photon ℝ), reflect D leak fuel k n P = .ub → 0 ≤ P.exitD.z → Ready D c0 d0 P → LeakMisses D c0 d0)
    (capx capy : Nat → ℝ) : TraceUb D c0 d0 (trace D leak fuel k capx capy) := by
  intro ix Q hq hQ
  have huu := vnorm_unit _ hQ.unit
  unfold trace capilTrace at hq
  simp only at hq
  split at hq
  · simp at hq
  · simp at hq
  rename_i j v n ca hs
  obtain ⟨d1, d2, d3⟩ := traceSearch_hit_line D capx capy _ (by simp only [huu]; exact hQ.unit) _ _ _ _ _ _ _ hs
  simp only [huu] at d1 d2 d3
  have hv : 0 ≤ v.z := hQ.flight.pos.trans d3
  unfold traceHit at hq
  simp only at hq
  split at hq
  · simp at hq
  split at hq
  · rename_i hix
    exfalso
    rcases segId_spec D.prof.z (j + 1) v.z D.prof.nmax with ⟨a, -, -⟩ | ⟨-, b⟩
    · omega
    · have := b 0 (by have := g.two; omega)
      simp only [real_le, decide_eq_false_iff_not, not_le, g.start] at this
      linarith
  split at hq
  · simp at hq
  split at hq
  · simp at hq
  generalize hR : reflect D leak fuel k n { Q with exitD := vnorm Q.exitD, startD := vnorm Q.startD, d_travel := Q.d_travel +. dist3 v Q.exitC, exitC := v } = x at hq
  cases x with
  | ok x => simp at hq
  | fuel => simp at hq
  | ub =>
    obtain ⟨m, hr⟩ := hQ.ray
    refine hrefl _ _ hR (by simp only [huu]; exact d1.le) ⟨⟨?_, hQ.flight.refl, hv, hQ.flight.4, hQ.flight.5⟩, hQ.coef, ?_, m, ?_⟩
    · simp only [huu]; exact hQ.flight.dir
    · simp only [huu]; exact hQ.unit
    · simp only [huu]; exact hr.toLine d1 d2 d3

theorem isAxis_cap (D : Descr ℝ) (hn : 1 ≤ D.n_cap) (q r : Int) : IsAxis D (capxOf D q r) (capyOf D q r) := by
  by_cases h : nShells (α := ℝ) D.n_cap = 0
  · refine ⟨0, 0, fun i => ?_⟩
    simp [capxOf, capyOf, h, centreX, centreY]
  · refine ⟨q, r, fun i => ?_⟩
    rw [← centreX_scale, ← centreY_scale, ← axX_eq D hn (q, r) i, ← axY_eq D hn (q, r) i]
    simp only [capxOf, capyOf, h, if_false]
    exact ⟨rfl, rfl⟩

theorem isAxis_ax (D : Descr ℝ) (hn : 1 ≤ D.n_cap) (qr : Int × Int) : IsAxis D (axX D qr) (axY D qr) :=
  ⟨qr.1, qr.2, fun i => by rw [axX_eq D hn, axY_eq D hn, centreX_scale, centreY_scale]; exact ⟨rfl, rfl⟩⟩

theorem reflect_ub {D : Descr ℝ} (g : Grid D.prof) (hext : ∀ j ≤ D.prof.nmax, 0 < D.prof.ext j) (hn : 1 ≤ D.n_cap) (c0 d0 : V3 ℝ) (leak : Bool)
    (fuel : Nat) : ∀ (k : Nat) (n : V3 ℝ) (P : Photon ℝ), reflect D leak fuel k n P = .ub → 0 ≤ P.exitD.z → Ready D c0 d0 P →
      LeakMisses D c0 d0 := by
  intro k
  induction k with
  | zero => intro n P h; simp [reflect] at h
  | succ k ih =>
    intro n P h hz hP
    have huu := vnorm_unit _ hP.unit
    unfold reflect reflectBody at h
    simp only [huu] at h
    split at h
    · simp at h
    generalize hw : wallOf D leak fuel P = w at h
    have hren : renorm leak P = P := by
      unfold renorm; cases leak <;> simp [huu]
    obtain ⟨m, hr⟩ := hP.ray
    cases w with
    | fuel => simp at h
    | ub =>
      unfold wallOf at hw
      split at hw
      · rw [huu] at hw
        exact traceWall_misses g hext hn hP.flight.pos hz hr hw
      · simp at hw
    | ok w =>
      rw [Out.bind_ok, hren] at h
      have hwd := wallOf_d _ _ _ _ _ hw
      unfold reflectRest at h
      simp only at h
      split at h
      · simp at h
      split at h
      · rename_i hc; rw [hP.coef] at hc; simp at hc
      split at h
      · simp at h
      split at h
      · unfold reflectLeak at h
        simp only at h
        split at h
        · simp at h
        split at h
        · simp at h
        split at h
        · have hlc := along_z P.exitC P.exitD w.d hwd hz
          have hlz : 0 ≤ (along P.exitC P.exitD w.d).z := hP.flight.pos.trans hlc
          have hnew : ∃ T, photonNew (along P.exitC P.exitD w.d) P.exitD
              (reflEnergies D (vnorm n) P.exitD (scalar P.exitD (vnorm n)) leak w.d P.chans P.exitE P.exitE).ev = some T := by
            unfold photonNew
            rw [if_neg (by simpa using hlz), if_neg (by simpa using hz)]
            exact ⟨_, rfl⟩
          obtain ⟨T, hT⟩ := hnew
          rw [hT] at h
          simp only at h
          obtain ⟨t1, t2, t3, t4, t5⟩ := photonNew_fields hT
          generalize hx : traceLoop (fun ix T => capilTrace D (reflect D leak fuel k) (capxOf D w.q w.r) (capyOf D w.q w.r) ix T) _ _ _ _ = x at h
          cases x with
          | fuel => simp at h
          | ok x => rw [Out.bind_ok] at h; split at h <;> simp at h
          | ub =>
            refine traceLoop_ub (isAxis_cap D hn w.q w.r) (trace_ub g ih (capxOf D w.q w.r) (capyOf D w.q w.r)) _ _ _ _ hx
              ⟨⟨?_, hP.flight.refl, ?_, ?_, ?_⟩, hP.coef, ?_, m, ?_⟩
            · show dot T.exitD T.exitD ≠ 0; rw [t4]; exact hP.flight.dir
            · show 0 ≤ T.exitC.z; rw [t3]; exact hlz
            · intro l hl; simp [tempPhoton, t1] at hl
            · intro l hl; simp [tempPhoton, t2] at hl
            · show dot T.exitD T.exitD = 1; rw [t4]; exact hP.unit
            · show Ray D c0 d0 m T.exitC T.exitD
              rw [t3, t4, along_unit hP.unit]
              exact .onward _ hwd hr
        · simp at h
      · simp at h

/-- **C74.**  A launch – with or without leak calculation – of a photon that starts at `z ≥ 0` and moves downstream, in an optic with
a valid grid and positive exterior radii, of an accepted composition, has undefined behaviour only for the one reason: its light comes
to a point of the optic from which the straight line misses the optic at every profile point. -/
theorem launch_ub_only_partial (lib : Xray ℝ) (D : Descr ℝ) (g : Grid D.prof) (hext : ∀ j ≤ D.prof.nmax, 0 < D.prof.ext j) (hn : 1 ≤ D.n_cap)
    (leak : Bool) (fuel k : Nat) (P : Photon ℝ) (h0 : 0 ≤ P.startC.z) (hz : 0 < P.startD.z) (es : List ℝ) (hs : scatfRejects D es = false)
    (h : launch lib (some D) leak fuel k (some P) (some es) true = .ub) : LeakMisses D P.startC (vnorm P.startD) := by
  obtain ⟨-, -, hes, hb, -⟩ := (scatf_accepts_iff D es).mp hs
  obtain ⟨D', P'', es', e1, e2, e3, -, -, -, h'⟩ := launch_valid lib (some D) leak fuel k (some P) (some es) true (not_argsBad hes hb)
  injection e1 with e1; injection e2 with e2; injection e3 with e3; subst e1 e2 e3
  rw [h'] at h
  have hne : dot P.startD P.startD ≠ 0 := by
    have : 0 < P.startD.z * P.startD.z := mul_pos hz hz
    unfold dot
    nlinarith [mul_self_nonneg P.startD.x, mul_self_nonneg P.startD.y]
  have hu := vnorm_dot _ hne
  have hv : vnorm (vnorm P.startD) = vnorm P.startD := vnorm_unit _ hu
  have hexd : (launchInit lib D es P).exitD = vnorm P.startD := hv
  have hzv : 0 ≤ (vnorm P.startD).z := by
    show 0 ≤ P.startD.z / Real.sqrt _
    exact div_nonneg hz.le (Real.sqrt_nonneg _)
  have hI : Ready D P.startC (vnorm P.startD) (launchInit lib D es P) := by
    refine ⟨⟨?_, le_refl _, h0, ?_, ?_⟩, by simp [launchInit, hs], by rw [hexd]; exact hu, 0, ?_⟩
    · rw [hexd, hu]; norm_num
    · intro l hl; simp [launchInit] at hl
    · intro l hl; simp [launchInit] at hl
    · rw [hexd]; exact .start
  generalize hx : launchBody lib D leak fuel k P es = x at h
  cases x with
  | ok x => simp at h
  | fuel => simp at h
  | ub =>
    unfold launchBody at hx
    simp only at hx
    split at hx
    · simp at hx
    split at hx
    · split at hx
      · generalize hr : reflect D leak fuel k ⟨lit 0, lit 0, lit 1⟩ (launchInit lib D es P) = x at hx
        cases x with
        | ok x => simp at hx
        | fuel => simp at hx
        | ub => exact reflect_ub g hext hn _ _ leak fuel k _ _ hr (by rw [hexd]; exact hzv) hI
      split at hx
      · rw [hexd, hv] at hx
        generalize hw : traceWall D fuel (launchInit lib D es P).exitC (vnorm P.startD) = w at hx
        cases w with
        | fuel => simp at hx
        | ub => exact traceWall_misses g hext hn h0 hzv .start hw
        | ok w =>
          rw [Out.bind_ok] at hx
          obtain ⟨hwd, -⟩ := traceWall_d _ _ _ _ _ hw
          unfold launchWall at hx
          simp only at hx
          split at hx
          · simp at hx
          split at hx
          · rename_i hc
            have := hI.coef
            rw [this] at hc; simp at hc
          split at hx
          · simp at hx
          split at hx
          · simp at hx
          generalize hy : traceLoop _ _ _ _ _ = y at hx
          cases y with
          | fuel => simp at hx
          | ok y => rw [Out.bind_ok] at hx; split at hx <;> simp at hx
          | ub =>
            refine traceLoop_ub (isAxis_ax D hn (w.q, w.r)) (trace_ub g (reflect_ub g hext hn _ _ leak fuel k) _ _) _ _ _ _ hy
              ⟨⟨?_, le_refl _, ?_, ?_, ?_⟩, hI.coef, hu, 0, ?_⟩
            · show dot (vnorm P.startD) (vnorm P.startD) ≠ 0; rw [hu]; norm_num
            · exact h0.trans (along_z P.startC (vnorm P.startD) w.d hwd hzv)
            · intro l hl; simp [launchInit] at hl
            · intro l hl; simp [launchInit] at hl
            · show Ray D P.startC (vnorm P.startD) 0 (along P.startC (vnorm P.startD) w.d) (vnorm P.startD)
              rw [along_unit hu]
              exact .onward _ hwd .start
      · simp at hx
    · unfold launchInside at hx
      simp only at hx
      rename_i qr _ _
      generalize hy : traceLoop _ _ _ _ _ = y at hx
      cases y with
      | fuel => simp at hx
      | ok y => simp at hx
      | ub => exact traceLoop_ub (isAxis_ax D hn qr) (trace_ub g (reflect_ub g hext hn _ _ leak fuel k) _ _) _ _ _ _ hy hI

/-- without reflection the light stays on its line -/
theorem Ray.line {D : Descr ℝ} {c0 d0 : V3 ℝ} {m : Nat} {c d : V3 ℝ} (h : Ray D c0 d0 m c d) (hm : m = 0) :
    d = d0 ∧ ∃ t, 0 ≤ t ∧ c = ⟨c0.x + t * d0.x, c0.y + t * d0.y, c0.z + t * d0.z⟩ := by
  induction h with
  | start => exact ⟨rfl, 0, le_rfl, by simp⟩
  | onward t ht h ih =>
    obtain ⟨rfl, s, hs, rfl⟩ := ih hm
    exact ⟨rfl, s + t, by linarith, by simp only [V3.mk.injEq]; refine ⟨?_, ?_, ?_⟩ <;> ring⟩
  | bounce => omega

/-- **C74**, photons that enter the hexagonal front face of an optic: the undefined behaviour needs at least one reflection. -/
theorem launch_ub_reflected (lib : Xray ℝ) (D : Descr ℝ) (g : Grid D.prof) (hext : ∀ j ≤ D.prof.nmax, 0 < D.prof.ext j) (hn : 1 ≤ D.n_cap)
    (leak : Bool) (fuel k : Nat) (P : Photon ℝ) (h0 : P.startC.z = 0) (hin : InHex (D.prof.ext 0) P.startC.x P.startC.y)
    (hz : 0 < P.startD.z) (es : List ℝ) (hs : scatfRejects D es = false)
    (h : launch lib (some D) leak fuel k (some P) (some es) true = .ub) :
    ∃ m c d, 1 ≤ m ∧ Ray D P.startC (vnorm P.startD) m c d ∧ InOptic D c ∧ 0 < d.z ∧ MissesOptic D.prof c d := by
  obtain ⟨m, c, d, hr, hi, hd, hm⟩ := launch_ub_only_partial lib D g hext hn leak fuel k P h0.ge hz es hs h
  refine ⟨m, c, d, ?_, hr, hi, hd, hm⟩
  by_contra hlt
  obtain ⟨e1, t, ht, e2⟩ := hr.line (by omega)
  have := hm 0 (Nat.zero_le _)
  apply this
  rw [← e1] at e2
  rw [e2, g.start, h0]
  have e3 : (0 - (0 + t * d.z)) / d.z = -t := by field_simp; ring
  simp only [e3]
  rw [show P.startC.x + t * d.x + -t * d.x = P.startC.x by ring, show P.startC.y + t * d.y + -t * d.y = P.startC.y by ring]
  exact hin

/-! ### The finding: the rim of a monocapillary

The optic of the examples is a tube of outer radius 2.  A photon that hits the front face at distance 1.9 from the axis, straight on,
is in the tube but outside the hexagon of circumradius 2. -/

theorem rim_seg : (segment (axisAt exD.prof 0 0 0 0) (axisAt exD.prof 0 0 0 (0 + 1)) (exD.prof.cap 0) (exD.prof.cap (0 + 1))
    (atGrid exD.prof ⟨0, 19/10, 0⟩ ⟨0, 0, 1⟩ 0) (atGrid exD.prof ⟨0, 19/10, 0⟩ ⟨0, 0, 1⟩ (0 + 1)) ⟨0, 0, 1⟩ ⟨0, 19/10, 0⟩ ⟨lit 0, lit 0, lit 0⟩).1 ≠ 1 := by
  intro hs
  generalize hseg : segment (axisAt exD.prof 0 0 0 0) (axisAt exD.prof 0 0 0 (0 + 1)) (exD.prof.cap 0) (exD.prof.cap (0 + 1))
    (atGrid exD.prof ⟨0, 19/10, 0⟩ ⟨0, 0, 1⟩ 0) (atGrid exD.prof ⟨0, 19/10, 0⟩ ⟨0, 0, 1⟩ (0 + 1)) ⟨0, 0, 1⟩ ⟨0, 19/10, 0⟩ ⟨lit 0, lit 0, lit 0⟩ = s at hs
  obtain ⟨s1, v, n⟩ := s
  simp only at hs
  subst hs
  have hg : genCoeff (axisAt exD.prof 0 0 0 0) (axisAt exD.prof 0 0 0 (0 + 1)) (exD.prof.cap 0) (exD.prof.cap (0 + 1)) ⟨0, 0, 1⟩ ≠ 0 := by
    simp only [genCoeff, axisAt, exD, exProf]
    norm_num
  obtain ⟨l, -, z0, z1, -, w, -⟩ := segment_sound _ _ _ _ _ _ _ _ _ _ _ (by norm_num) hg hseg
  rw [l] at w
  simp only [OnWall, axisAt, lineAt, atGrid_eq, linAt, exD, exProf] at w
  simp only [axisAt, exD, exProf] at z0 z1
  norm_num at w z0 z1
  nlinarith

theorem rim_misses : MissesOptic exD.prof ⟨0, 19/10, 0⟩ ⟨0, 0, 1⟩ := by
  intro j hj hi
  have h1 := hi.1
  have h3 := sqrt3_bounds
  simp only [exD, exProf] at h1
  norm_num at h1
  linarith

theorem rim_wall (fuel : Nat) : traceWall exD fuel ⟨0, 19/10, 0⟩ ⟨0, 0, 1⟩ = .ub := by
  have hns : nShells (α := ℝ) exD.n_cap = 0 := nShells_one
  have hzid : segIdFrom exD.prof.z 0 (0:ℝ) exD.prof.nmax = 0 := segId_zero _ _ _ 0 (by simp [exD, exProf]) (by intro i h1 h2; omega)
  have hge : (((0:ℝ)) >=. exD.prof.z exD.prof.nmax) = false := by
    simp only [ge, real_le, decide_eq_false_iff_not, exD, exProf]; norm_num
  have hext : wallExt exD.prof 0 (0:ℝ) = 2 := by
    unfold wallExt interpAt
    split
    · rw [linAt_interp]; simp [linAt, exD, exProf]
    · rfl
  have hsq : (sqrt ((0:ℝ) *. 0 +. ((19/10:ℝ)) *. (19/10)) >. (2:ℝ)) = false := by
    simp only [real_sqrt, real_mul, real_add, gt, real_lt, decide_eq_false_iff_not, not_lt]
    rw [show (0 * 0 + 19/10 * (19/10) : ℝ) = (19/10) ^ 2 by norm_num, Real.sqrt_sq (by norm_num)]; norm_num
  unfold traceWall
  simp only [hge, hzid, hext, hns, hsq, Bool.false_eq_true, if_false, if_true]
  rw [show exD.prof.nmax - 1 - (0 + 1) = 0 from rfl]
  unfold wallSegs
  simp only [rim_seg, if_false]
  unfold wallEnd
  simp only [ne_eq, rim_seg, not_false_eq_true, if_true]
  exact (wallExit_ub_iff _ exGrid (by intro j _; simp [exD, exProf]) _ _ _ (by norm_num) _ _).2 rim_misses

/-- **C74**, the property fails: a photon that hits the front face of a tube near its rim makes the launch read outside the
profile, whatever the energies, the composition and the cross sections. -/
theorem launch_leak_rim (lib : Xray ℝ) (fuel k : Nat) (P : Photon ℝ) (hC : P.startC = ⟨0, 19/10, 0⟩) (hD : P.startD = ⟨0, 0, 1⟩) (es : List ℝ)
    (hes : es ≠ []) (hb : ∀ e ∈ es, 1 ≤ e ∧ e ≤ 100) : launch lib (some exD) true fuel (k + 1) (some P) (some es) true = .ub := by
  obtain ⟨D', P'', es', e1, e2, e3, -, -, -, h'⟩ := launch_valid lib (some exD) true fuel (k + 1) (some P) (some es) true (not_argsBad hes hb)
  injection e1 with e1; injection e2 with e2; injection e3 with e3; subst e1 e2 e3
  rw [h']
  have e0 : ((0:ℚ):ℝ) = 0 := by norm_num
  have hs : Real.sqrt ((0:ℝ) ^ 2 + (19/10) ^ 2) = 19/10 := by
    rw [show ((0:ℝ) ^ 2 + (19/10) ^ 2) = (19/10) ^ 2 by norm_num]; exact Real.sqrt_sq (by norm_num)
  have hc : launchCap exD ⟨0, 19/10, 0⟩ = some (0, 0) := ex_cap (c := ⟨0, 19/10, 0⟩) (by norm_num) (by norm_num)
  have hw : startsInWall exD (0, 0) ⟨0, 19/10, 0⟩ = true := by
    rw [ex_glass (by norm_num) (by norm_num), hs]; norm_num
  have hz0 : (((0:ℝ)) ==. lit 0) = true := by simp only [real_beq, real_lit, e0, decide_true]
  have q1 : (launchInit lib exD es P).startC = ⟨0, 19/10, 0⟩ := hC
  have q2 : (launchInit lib exD es P).exitC = ⟨0, 19/10, 0⟩ := hC
  have q3 : (launchInit lib exD es P).exitD = ⟨0, 0, 1⟩ := by
    show vnorm (vnorm P.startD) = _
    rw [hD, vnorm_z, vnorm_z]
  have q5 : (⟨lit 0, lit 0, lit 1⟩ : V3 ℝ) = ⟨0, 0, 1⟩ := by simp
  have hsc : scalar (⟨0, 0, 1⟩ : V3 ℝ) ⟨0, 0, 1⟩ = 1 := by rw [scalar_real]; unfold dot; norm_num
  have hneg : ((1 : ℝ) <. lit 0) = false := by simp only [real_lt, real_lit, e0, decide_eq_false_iff_not]; norm_num
  have hr : reflect exD true fuel (k + 1) ⟨0, 0, 1⟩ (launchInit lib exD es P) = .ub := by
    unfold reflect reflectBody
    simp only [q3, vnorm_z, hsc, hneg, Bool.false_eq_true, if_false, wallOf, if_true, q2, rim_wall, Out.bind_ub]
  unfold launchBody
  simp only [q1, hc, hw, if_true, hz0, Bool.and_true, q5, hr, Out.bind_ub]

end Polycap
