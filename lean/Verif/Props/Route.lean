import Verif.Props.Polar
import Verif.Props.NoTunnel
import Verif.Props.LaunchReports

/-!
# C91: a launch carries out geometric optics

Specification (`Leg`, `Clear`, `Route`): the way of a photon through a capillary as one would draw it by hand – straight lines from wall to wall,
always the first wall met, mirrored there, each energy weakened by its reflectivity and the roughness factor, until nothing is left or
the way to the exit is clear.  The theorem: if there is such a way (within the numerical tolerances of the code, which are part of the
specification) the launch takes it.
-/
namespace Polycap
open CNum
namespace Route
open EInd Polar

variable (D : Descr ℝ) (capx capy : Nat → ℝ)

/-- outward unit normal of the wall of segment `j` at `v` -/
noncomputable def wallNormal (j : Nat) (v : V3 ℝ) : V3 ℝ :=
  coneNormal (axisPt D capx capy j) (axisPt D capx capy (j + 1)) (D.prof.cap j) (D.prof.cap (j + 1)) v

/-- a direction is usable: a downstream unit vector, in no segment parallel to a line in the wall or perpendicular to the axis -/
structure Oblique (d : V3 ℝ) : Prop where
  unit : dot d d = 1
  down : 0 < d.z
  notParallel : ∀ i < D.prof.nmax, genCoeff (axisPt D capx capy i) (axisPt D capx capy (i + 1)) (D.prof.cap i) (D.prof.cap (i + 1)) d ≠ 0
  notAcross : ∀ i < D.prof.nmax, d.x * (capx (i + 1) - capx i) + d.y * (capy (i + 1) - capy i) + d.z * (D.prof.z (i + 1) - D.prof.z i) ≠ 0

/-- at the profile points from the one passed last up to the height `zend` the light's line lies inside the optic -/
def Held (c d : V3 ℝ) (zend : ℝ) : Prop :=
  ∀ i < D.prof.nmax, Passed D.prof c i → D.prof.z i < zend → InHex (D.prof.ext i) (lineAt c d (D.prof.z i)).x (lineAt c d (D.prof.z i)).y

/-- a point inside the optic.  (For up to three capillaries the code also compares the square of the distance with the radius.) -/
def Within (v : V3 ℝ) : Prop := ∃ R, ValueAt D.prof D.prof.ext v.z R ∧ 0 < R ∧
  if D.n_cap ≤ 3 then v.x ^ 2 + v.y ^ 2 < R ^ 2 ∧ v.x ^ 2 + v.y ^ 2 < R else InHex R v.x v.y

/-- light from `c` in direction `d` next meets a wall at height `z`, in segment `j` -/
structure Leg (c d : V3 ℝ) (j : Nat) (z : ℝ) : Prop where
  seg : j < D.prof.nmax
  cross : Crossing D capx capy c d j z
  first : ∀ i z', i < D.prof.nmax → Crossing D capx capy c d i z' → c.z + 1 / 10 ^ 5 ≤ z' → z ≤ z'
  ahead : c.z + 1 / 10 ^ 5 ≤ z
  seen : D.prof.z j + 1 / 10 ^ 10 ≤ z
  before : z < D.prof.z D.prof.nmax
  steep : 1 / 10 ^ 19 ≤ dot (wallNormal D capx capy j (lineAt c d z)) d
  grazing : dot (wallNormal D capx capy j (lineAt c d z)) d < 1
  held : Held D c d z
  within : Within D (lineAt c d z)

/-- light from `c` in direction `d` meets no more wall -/
structure Clear (c d : V3 ℝ) : Prop where
  none : ∀ i z', i < D.prof.nmax → Crossing D capx capy c d i z' → z' < c.z + 1 / 10 ^ 5
  held : Held D c d (D.prof.z D.prof.nmax)

/-- one energy after a reflection: multiplied by the reflectivity for the angle of incidence and the part of the electric vector perpendicular to
the plane of incidence, and by the roughness factor -/
noncomputable def weaker (n d E : V3 ℝ) (c : Chan ℝ) : Chan ℝ :=
  { c with w := c.w * reflTot (reflN c.e D.density c.scatf c.amu) (Real.arccos (dot n d)) (dot (vnorm E) (sDir n d) ^ 2) *
      roughFactor D.sig_rough c.e (dot n d) }

/-- mirror image of a direction -/
noncomputable def mirror (d n : V3 ℝ) : V3 ℝ := ⟨d.x - 2 * dot n d * n.x, d.y - 2 * dot n d * n.y, d.z - 2 * dot n d * n.z⟩

/-- how it ends -/
inductive End where
  | out
  | absorbed

/-- The way of light: from `c`, `d` with electric vector `E` and channels `cs`; it ends as `f` after `m` mirrorings and the length `len`, in
`c'`, `d'`, `E'`, `cs'`. -/
inductive Way : V3 ℝ → V3 ℝ → V3 ℝ → List (Chan ℝ) → End → Nat → ℝ → V3 ℝ → V3 ℝ → V3 ℝ → List (Chan ℝ) → Prop where
  | out {c d E : V3 ℝ} {cs : List (Chan ℝ)} : Oblique D capx capy d → Clear D capx capy c d → Way c d E cs .out 0 0 c d E cs
  | absorbed {c d E : V3 ℝ} {cs : List (Chan ℝ)} {j : Nat} {z : ℝ} : Oblique D capx capy d → Leg D capx capy c d j z →
      ¬ Alive (cs.map (weaker D (wallNormal D capx capy j (lineAt c d z)) d E)) →
      Way c d E cs .absorbed 0 (gap (lineAt c d z) c) (lineAt c d z) d (absV (vnorm E)) (cs.map (weaker D (wallNormal D capx capy j (lineAt c d z)) d E))
  | bounce {c d E : V3 ℝ} {cs : List (Chan ℝ)} {j : Nat} {z : ℝ} {f : End} {m : Nat} {len : ℝ} {c' d' E' : V3 ℝ} {cs' : List (Chan ℝ)} :
      Oblique D capx capy d → Leg D capx capy c d j z →
      Alive (cs.map (weaker D (wallNormal D capx capy j (lineAt c d z)) d E)) →
      Way (lineAt c d z) (mirror d (wallNormal D capx capy j (lineAt c d z))) (absV (vnorm E))
        (cs.map (weaker D (wallNormal D capx capy j (lineAt c d z)) d E)) f m len c' d' E' cs' →
      Way c d E cs f (m + 1) (gap (lineAt c d z) c + len) c' d' E' cs'

/-- the optic: profile points in order, positive radii, the axis of the capillary inside the optic -/
structure Sound : Prop where
  caps : 1 ≤ D.n_cap
  grid : Grid D.prof
  cap : ∀ i ≤ D.prof.nmax, 0 < D.prof.cap i
  ext : ∀ i ≤ D.prof.nmax, 0 < D.prof.ext i
  axis : ∀ i ≤ D.prof.nmax, InHex (D.prof.ext i) (capx i) (capy i)

/-- the search index belongs to the position -/
structure At (c : V3 ℝ) (ix : Nat) : Prop where
  low : ix ≤ D.prof.nmax
  passed : Passed D.prof c ix
  below : D.prof.z ix ≤ c.z

variable {D capx capy}

theorem inHex_ne {R x y : ℝ} (hR : 0 < R) (h : InHex R x y) : withinPcBoundary R x y ≠ 0 := by
  rw [(boundary_one_iff R x y).mpr ⟨hR, h⟩]; decide

theorem Sound.z_nonneg (s : Sound D capx capy) {i : Nat} (hi : i ≤ D.prof.nmax) : 0 ≤ D.prof.z i := by
  rw [← s.grid.start]; exact mono_of_step s.grid.inc (Nat.zero_le _) hi

/-- segments without a wall ahead -/
theorem segment_off {c d : V3 ℝ} (o : Oblique D capx capy d) {i : Nat} (hi : i < D.prof.nmax) (nrm : V3 ℝ)
    (h : ∀ z', Crossing D capx capy c d i z' → c.z + 1 / 10 ^ 5 ≤ z' → D.prof.z i < z' → False) :
    ∃ n, segment (⟨capx i, capy i, D.prof.z i⟩ : V3 ℝ) ⟨capx (i + 1), capy (i + 1), D.prof.z (i + 1)⟩ (D.prof.cap i) (D.prof.cap (i + 1))
      (atGrid D.prof c d i) (atGrid D.prof c d (i + 1)) d c nrm = n ∧ n.1 ≠ 1 ∧ n.2.1 = c := by
  generalize hs : segment (⟨capx i, capy i, D.prof.z i⟩ : V3 ℝ) ⟨capx (i + 1), capy (i + 1), D.prof.z (i + 1)⟩ (D.prof.cap i) (D.prof.cap (i + 1))
      (atGrid D.prof c d i) (atGrid D.prof c d (i + 1)) d c nrm = n
  refine ⟨n, rfl, ?_⟩
  have h1 : n.1 ≠ 1 := by
    intro h1
    obtain ⟨n1, v, nn⟩ := n
    simp only at h1
    subst h1
    obtain ⟨l, l0, a, b, c5, w, -⟩ := segment_sound _ _ _ _ _ _ _ _ _ _ _ o.down (o.notParallel i hi) hs
    rw [lineAt_atGrid _ _ _ _ o.down] at l
    refine h v.z ⟨a, b, ?_⟩ c5 l0
    rw [← l]; exact w
  refine ⟨h1, ?_⟩
  have := segment_failure_keeps_position _ _ _ _ _ _ _ _ _ (by rw [hs]; exact h1)
  rw [hs] at this
  exact this

theorem atGrid_line (p : Profile ℝ) (c d : V3 ℝ) (i : Nat) : atGrid p c d i = lineAt c d (p.z i) := by
  rw [atGrid_eq]; unfold lineAt
  simp only [V3.mk.injEq, and_true]
  constructor <;> ring

/-- no wall ahead: the search ends without a result -/
theorem search_out (s : Sound D capx capy) (P : Photon ℝ) (o : Oblique D capx capy P.exitD) (cl : Clear D capx capy P.exitC P.exitD) :
    ∀ (k i : Nat) (nrm : V3 ℝ), i + k = D.prof.nmax → Passed D.prof P.exitC i → traceSearch D capx capy P k i P.exitC nrm = .miss := by
  intro k
  induction k with
  | zero => intro i nrm _ _; rfl
  | succ k ih =>
    intro i nrm hk hp
    have hi : i < D.prof.nmax := by omega
    obtain ⟨n, hn, n1, n2⟩ := segment_off o hi nrm (c := P.exitC) (fun z' hz h5 _ => by have := cl.none i z' hi hz; linarith)
    unfold traceSearch
    simp only [hn, n2]
    rw [if_neg (by simp [inHex_ne (s.ext i hi.le) (s.axis i hi.le), inHex_ne (s.ext _ hi) (s.axis _ hi)])]
    have hheld := cl.held i hi hp (strict_of_step s.grid.inc hi (le_refl _))
    rw [if_neg, if_neg (by rw [atGrid_line]; exact inHex_ne (s.ext i hi.le) hheld)]
    · exact ih (i + 1) _ (by omega) (fun j hj hz => le_trans (hp j hj hz) (by omega))
    · split
      · decide
      · exact n1

/-- the first wall is found -/
theorem search_leg (s : Sound D capx capy) (P : Photon ℝ) (o : Oblique D capx capy P.exitD) {j : Nat} {z : ℝ} (lg : Leg D capx capy P.exitC P.exitD j z) :
    ∀ (k i : Nat) (nrm : V3 ℝ), i + k = D.prof.nmax → i ≤ j → Passed D.prof P.exitC i →
      traceSearch D capx capy P k i P.exitC nrm = .hit j (lineAt P.exitC P.exitD z) (wallNormal D capx capy j (lineAt P.exitC P.exitD z))
        (dot (wallNormal D capx capy j (lineAt P.exitC P.exitD z)) P.exitD) := by
  intro k
  induction k with
  | zero => intro i nrm hk hj _; have := lg.seg; omega
  | succ k ih =>
    intro i nrm hk hj hp
    have hi : i < D.prof.nmax := by omega
    unfold traceSearch
    simp only
    rw [if_neg (by simp [inHex_ne (s.ext i hi.le) (s.axis i hi.le), inHex_ne (s.ext _ hi) (s.axis _ hi)])]
    by_cases hij : i = j
    · subst hij
      generalize hs : segment (⟨capx i, capy i, D.prof.z i⟩ : V3 ℝ) ⟨capx (i + 1), capy (i + 1), D.prof.z (i + 1)⟩ (D.prof.cap i) (D.prof.cap (i + 1))
        (atGrid D.prof P.exitC P.exitD i) (atGrid D.prof P.exitC P.exitD (i + 1)) P.exitD P.exitC nrm = res
      obtain ⟨code, v, n⟩ := res
      obtain ⟨z1, z2, z3⟩ := lg.cross
      have hrej : segRejects (⟨capx i, capy i, D.prof.z i⟩ : V3 ℝ) ⟨capx (i + 1), capy (i + 1), D.prof.z (i + 1)⟩ (D.prof.cap i) (D.prof.cap (i + 1))
          (atGrid D.prof P.exitC P.exitD i) (atGrid D.prof P.exitC P.exitD (i + 1)) P.exitD = false := by
        rw [segRejects_false]
        exact ⟨s.z_nonneg hi.le, s.z_nonneg hi, (s.cap i hi.le).le, (s.cap _ hi).le, o.down.le, rfl, rfl, s.grid.inc i hi⟩
      have hcode : code = 1 := by
        by_contra hne
        obtain ⟨z', w1, w2, w3, w4, w5⟩ := segment_complete _ _ _ _ _ _ _ P.exitC nrm o.down (o.notParallel i hi) hrej
          (fun hh => hne ((congrArg Prod.fst hs).symm.trans hh)) z z1 z2 lg.ahead (by rw [lineAt_atGrid _ _ _ _ o.down]; exact z3)
        rw [lineAt_atGrid _ _ _ _ o.down] at w5
        have h1 := lg.first i z' hi ⟨w1, by linarith, w5⟩ w3
        have h2 : (atGrid D.prof P.exitC P.exitD i).z = D.prof.z i := rfl
        rw [h2] at w4
        have := lg.seen
        linarith
      subst hcode
      obtain ⟨l, l0, a, b, c5, w, least⟩ := segment_sound _ _ _ _ _ _ _ _ _ _ _ o.down (o.notParallel i hi) hs
      rw [lineAt_atGrid _ _ _ _ o.down] at l
      have hvz : v.z = z := by
        refine le_antisymm (least z z1 z2 lg.ahead (by rw [lineAt_atGrid _ _ _ _ o.down]; exact z3)) (lg.first i v.z hi ⟨a, b, ?_⟩ c5)
        rw [← l]; exact w
      have hn := segment_coneNormal o.down (o.notAcross i hi) hs
      have hv : v = lineAt P.exitC P.exitD z := by rw [l, hvz]
      have hn' : n = wallNormal D capx capy i (lineAt P.exitC P.exitD z) := by rw [hn, hv]; rfl
      rw [hv, hn']
      have hgate : (acos (dot (wallNormal D capx capy i (lineAt P.exitC P.exitD z)) P.exitD) >. mpi /. lit 2 ||
          acos (dot (wallNormal D capx capy i (lineAt P.exitC P.exitD z)) P.exitD) <. lit 0) = false := by
        by_contra hg
        have := acos_gate_small (Bool.eq_true_of_not_eq_false hg)
        linarith [lg.steep]
      simp only [scalar_real, hgate, Bool.false_eq_true, if_false, if_true]
      obtain ⟨R, hR, hR0, hin⟩ := lg.within
      have hval : interp (D.prof.z (i + 1)) (D.prof.z i) (D.prof.ext (i + 1)) (D.prof.ext i) (lineAt P.exitC P.exitD z).z = R := by
        have e := (interp_variants (D.prof.z i) (D.prof.z (i + 1)) (D.prof.ext i) (D.prof.ext (i + 1)) z (s.grid.inc i hi)).2
        have : (lineAt P.exitC P.exitD z).z = z := rfl
        rw [this] at hR ⊢
        refine ValueAt.unique s.grid (⟨i, hi, z1, z2, ?_⟩) hR
        rw [e, linAt_interp]
      rw [hval]
      simp only [nShells_zero_iff D.n_cap s.caps]
      by_cases hm : D.n_cap ≤ 3
      · rw [if_pos hm] at hin ⊢
        rw [if_neg]
        have e : Real.sqrt ((lineAt P.exitC P.exitD z).x * (lineAt P.exitC P.exitD z).x + (lineAt P.exitC P.exitD z).y * (lineAt P.exitC P.exitD z).y) < R := by
          rw [Real.sqrt_lt' hR0]; linarith [hin.1]
        simp only [ge, real_le, real_sqrt, real_mul, real_add, decide_eq_true_eq, not_le]
        exact e
      · rw [if_neg hm] at hin ⊢
        rw [if_neg (inHex_ne hR0 hin)]
    · have hlt : i < j := by omega
      have hzz : D.prof.z (i + 1) ≤ D.prof.z j := mono_of_step s.grid.inc hlt lg.seg.le
      obtain ⟨n, hn, n1, n2⟩ := segment_off o hi nrm (c := P.exitC) (fun z' hz h5 _ => by
        have h1 := lg.first i z' hi hz h5
        have h2 := hz.2.1
        have h3 := lg.seen
        have : (0:ℝ) < 1 / 10 ^ 10 := by norm_num
        linarith)
      simp only [hn, n2]
      have hheld := lg.held i hi hp (by
        have h3 := lg.seen
        have : (0:ℝ) < 1 / 10 ^ 10 := by norm_num
        linarith [s.grid.inc i hi])
      rw [if_neg, if_neg (by rw [atGrid_line]; exact inHex_ne (s.ext i hi.le) hheld)]
      · exact ih (i + 1) _ (by omega) (by omega) (fun j hj hz => le_trans (hp j hj hz) (by omega))
      · split
        · decide
        · exact n1

/-! ## One reflection -/

theorem dot_comm (a b : V3 ℝ) : dot a b = dot b a := by unfold dot; ring

theorem frac_eq {n d E : V3 ℝ} (hn : dot n n = 1) {cs : List (Chan ℝ)} (g : Glass D cs) {c : Chan ℝ} (hc : c ∈ cs) :
    frac D n d E c = reflTot (reflN c.e D.density c.scatf c.amu) (Real.arccos (dot n d)) (dot (vnorm E) (sDir n d) ^ 2) := by
  obtain ⟨a, b, u, v, w⟩ := g.chan c hc
  have hd := g.density
  unfold frac reflPolar
  have e0 : ((0:ℚ):ℝ) = 0 := by norm_num
  have e1 : ((1:ℚ):ℝ) = 1 := by norm_num
  have e2 : ((100:ℚ):ℝ) = 100 := by norm_num
  have h1 : polarRejects c.e D.density c.scatf c.amu = false := by
    simp only [polarRejects, gt, real_lt, real_le, real_lit, e0, e1, e2, Bool.or_eq_false_iff, decide_eq_false_iff_not, not_lt, not_le]
    exact ⟨⟨⟨⟨a, b⟩, hd⟩, u⟩, v⟩
  have h2 : ((acos (scalar (normIfNot1 n) d) : ℝ) <. lit 0) = false := by
    simp only [real_lt, real_lit, e0, real_acos, decide_eq_false_iff_not, not_lt]
    exact Real.arccos_nonneg _
  rw [if_neg (by rw [h1]; simp)]
  simp only
  rw [if_neg (by rw [h2]; simp)]
  simp only [normIfNot1_vnorm, vnorm_unit n hn, scalar_real, real_acos, real_mul]
  rw [sq]; rfl

theorem bounce_eq {n d E : V3 ℝ} (hn : dot n n = 1) {cs : List (Chan ℝ)} (g : Glass D cs) :
    cs.map (bounce D n d (dot d n) E) = cs.map (weaker D n d E) := by
  apply List.map_congr_left
  intro c hc
  unfold bounce weaker
  rw [frac_eq hn g hc, dot_comm d n]

/-- one reflection, without leak calculation -/
theorem reflect_one {n : V3 ℝ} (hn : dot n n = 1) (P : Photon ℝ) (hd : dot P.exitD P.exitD = 1) (h0 : 0 < dot n P.exitD) (h1 : dot n P.exitD < 1)
    (hE : dot P.exitE P.exitE ≠ 0) (hch : P.chans ≠ []) (hco : P.coef = true) (hg : Glass D P.chans) (fuel k : Nat) :
    ∃ c, reflect D false fuel (k + 1) n P = .ok (c, { P with exitE := absV (vnorm P.exitE), chans := P.chans.map (weaker D n P.exitD P.exitE) }) ∧
      (c = 1 ∧ Alive (P.chans.map (weaker D n P.exitD P.exitE)) ∨ c = 0 ∧ ¬ Alive (P.chans.map (weaker D n P.exitD P.exitE))) := by
  have e0 : ((0:ℚ):ℝ) = 0 := by norm_num
  have hu := vnorm_unit _ hd
  have hnn := vnorm_unit _ hn
  have hneg : (dot P.exitD n <. lit 0) = false := by
    simp only [real_lt, real_lit, e0, decide_eq_false_iff_not, not_lt]; rw [dot_comm]; exact h0.le
  obtain ⟨k1, k2⟩ := energies_ok D n P.exitD (dot P.exitD n) (lit 0) false P.exitE P.chans P.exitE P.exitE rfl
  have hacc := hg.acc (n := n) (dir := P.exitD) (E := P.exitE) h0.le
  obtain ⟨m1, m2, m3⟩ := k2 hacc
  have hok := k1.mpr hacc
  have hfl := reflEnergies_leakFlag_off D n P.exitD (dot P.exitD n) (lit 0) P.chans P.exitE P.exitE
  have hemp : P.chans.isEmpty = false := by simpa using hch
  rw [hemp, if_neg (by simp), turned_grazing hn hd hE h0 h1] at m3
  have hb := bounce_eq (E := P.exitE) (d := P.exitD) hn hg
  refine ⟨if (P.chans.any fun c => (bounce D n P.exitD (dot P.exitD n) P.exitE c).w >=. lit (1/10^4)) = true then 1 else 0, ?_, ?_⟩
  · unfold reflect reflectBody
    simp only [hu, hnn, scalar_real, hneg, Bool.false_eq_true, if_false, wallOf, renorm, Out.bind_ok]
    unfold reflectRest
    rw [if_neg (by simp)]
    refine Eq.trans (if_neg (by simp [hco])) (Eq.trans (if_neg (by simp only [Bool.not_eq_true', Bool.not_eq_false]; exact hok)) (Eq.trans (if_neg (by
          simp only [Bool.not_eq_true]; exact hfl)) ?_))
    simp only [m1, m2, m3, hb]
  · rw [← hb]
    by_cases hx : Alive (P.chans.map (bounce D n P.exitD (dot P.exitD n) P.exitE))
    · left; exact ⟨if_pos ((any_alive _ _).mpr hx), hx⟩
    · right; exact ⟨if_neg (fun h => hx ((any_alive _ _).mp h)), hx⟩

theorem coneNormal_unit {c0 c1 : V3 ℝ} {r0 r1 : ℝ} {v d : V3 ℝ} (h : dot (coneNormal c0 c1 r0 r1 v) d ≠ 0) :
    dot (coneNormal c0 c1 r0 r1 v) (coneNormal c0 c1 r0 r1 v) = 1 := by
  obtain ⟨u, hu⟩ : ∃ u, coneNormal c0 c1 r0 r1 v = vnorm u := ⟨_, (vnorm_real _).symm⟩
  rw [hu] at h ⊢
  apply vnorm_dot
  intro h0
  apply h
  rw [vnorm_zero h0]
  simp [dot]

/-- the wall normal is a unit vector -/
theorem Leg.unit {c d : V3 ℝ} {j : Nat} {z : ℝ} (lg : Leg D capx capy c d j z) :
    dot (wallNormal D capx capy j (lineAt c d z)) (wallNormal D capx capy j (lineAt c d z)) = 1 := by
  have h := lg.steep
  have : (0:ℝ) < 1 / 10 ^ 19 := by norm_num
  exact coneNormal_unit (d := d) (by intro h0; unfold wallNormal at h; linarith)

theorem At.seg (s : Sound D capx capy) {c : V3 ℝ} {ix : Nat} (a : At D c ix) {j : Nat} {z : ℝ} (h1 : c.z < z) (h2 : z ≤ D.prof.z (j + 1)) : ix ≤ j := by
  by_contra h
  have := mono_of_step s.grid.inc (show j + 1 ≤ ix by omega) a.low
  have := a.below
  linarith

theorem at_segId (s : Sound D capx capy) {v : V3 ℝ} (h0 : 0 ≤ v.z) (init n : Nat) (hn : n = D.prof.nmax ∨ n = D.prof.nmax + 1) : At D v (segIdFrom D.prof.z init v.z n) := by
  have h2 := s.grid.two
  obtain ⟨m, rfl⟩ : ∃ m, n = m + 1 := ⟨n - 1, by omega⟩
  refine ⟨?_, passed_segId _ _ _ _ (by omega), segId_below _ _ _ _ (by rw [s.grid.start]; exact h0)⟩
  rcases segId_spec D.prof.z init v.z (m + 1) with ⟨a, -, -⟩ | ⟨-, b⟩
  · omega
  · have := b 0 (by omega)
    simp only [real_le, decide_eq_false_iff_not, not_le, s.grid.start] at this
    linarith

/-- one call of the tracing function: to the first wall, and a reflection there -/
theorem trace_leg (s : Sound D capx capy) (P : Photon ℝ) (o : Oblique D capx capy P.exitD) {j : Nat} {z : ℝ} (lg : Leg D capx capy P.exitC P.exitD j z)
    {ix : Nat} (a : At D P.exitC ix) (hz : 0 ≤ P.exitC.z) (hE : dot P.exitE P.exitE ≠ 0) (hch : P.chans ≠ []) (hco : P.coef = true) (hg : Glass D P.chans) (fuel k : Nat) :
    ∃ ix', At D (lineAt P.exitC P.exitD z) ix' ∧
      (Alive (P.chans.map (weaker D (wallNormal D capx capy j (lineAt P.exitC P.exitD z)) P.exitD P.exitE)) →
        trace D false fuel (k + 1) capx capy ix P = .ok (1, ix', { P with
          exitC := lineAt P.exitC P.exitD z, exitD := mirror P.exitD (wallNormal D capx capy j (lineAt P.exitC P.exitD z)), startD := vnorm P.startD,
          exitE := absV (vnorm P.exitE), i_refl := P.i_refl + 1, d_travel := P.d_travel + gap (lineAt P.exitC P.exitD z) P.exitC,
          chans := P.chans.map (weaker D (wallNormal D capx capy j (lineAt P.exitC P.exitD z)) P.exitD P.exitE) })) ∧
      (¬ Alive (P.chans.map (weaker D (wallNormal D capx capy j (lineAt P.exitC P.exitD z)) P.exitD P.exitE)) →
        trace D false fuel (k + 1) capx capy ix P = .ok (0, ix', { P with
          exitC := lineAt P.exitC P.exitD z, startD := vnorm P.startD,
          exitE := absV (vnorm P.exitE), d_travel := P.d_travel + gap (lineAt P.exitC P.exitD z) P.exitC,
          chans := P.chans.map (weaker D (wallNormal D capx capy j (lineAt P.exitC P.exitD z)) P.exitD P.exitE) })) := by
  have e1 : ((1:ℚ):ℝ) = 1 := by norm_num
  have hu := vnorm_unit _ o.unit
  have h5 : (0:ℝ) < 1 / 10 ^ 5 := by norm_num
  have hs := search_leg s { P with exitD := P.exitD, startD := vnorm P.startD } o lg (D.prof.nmax - ix) ix ⟨lit 0, lit 0, lit 0⟩
    (by have := a.low; omega) (a.seg s (by linarith [lg.ahead]) lg.cross.2.1) a.passed
  have hn := lg.unit
  have hst := lg.steep
  have hgr := lg.grazing
  have hwi := lg.within
  have hbe := lg.before
  have hah := lg.ahead
  simp only at hs
  generalize hv : lineAt P.exitC P.exitD z = v at hs hn hst hgr hwi ⊢
  have hvz : v.z = z := by rw [← hv]; rfl
  generalize wallNormal D capx capy j v = n at hs hn hst hgr ⊢
  have hpos : 0 < dot n P.exitD := lt_of_lt_of_le (by norm_num) hst
  have hat := at_segId s (v := v) (by rw [hvz]; linarith) (j + 1) D.prof.nmax (Or.inl rfl)
  obtain ⟨c, hr, hc⟩ := reflect_one (D := D) hn { P with startD := vnorm P.startD, d_travel := P.d_travel +. dist3 v P.exitC, exitC := v } o.unit hpos hgr hE hch hco hg fuel k
  have hr' := hr
  refine ⟨segIdFrom D.prof.z (j + 1) v.z D.prof.nmax, hat, ?_⟩
  have key : trace D false fuel (k + 1) capx capy ix P = .ok (afterReflect n (dot n P.exitD) (segIdFrom D.prof.z (j + 1) v.z D.prof.nmax)
      (c, { P with startD := vnorm P.startD, d_travel := P.d_travel + gap v P.exitC, exitC := v, exitE := absV (vnorm P.exitE),
                   chans := P.chans.map (weaker D n P.exitD P.exitE) })) := by
    unfold trace capilTrace
    simp only [hu]
    rw [hs]
    simp only [traceHit]
    have hab : (fabs (dot n P.exitD) >. lit 1) = false := by
      simp only [real_fabs, gt, real_lt, real_lit, e1, decide_eq_false_iff_not, not_lt]
      rw [abs_of_pos hpos]; exact hgr.le
    rw [if_neg (by rw [hab]; simp)]
    have hlt : segIdFrom D.prof.z (j + 1) v.z D.prof.nmax < D.prof.nmax := by
      by_contra h
      have : segIdFrom D.prof.z (j + 1) v.z D.prof.nmax = D.prof.nmax := le_antisymm hat.low (by omega)
      have h2 := hat.below
      rw [this, hvz] at h2
      linarith
    rw [if_neg (by omega)]
    obtain ⟨R, hR, hR0, hin⟩ := hwi
    have hval : interpAt D.prof D.prof.ext (segIdFrom D.prof.z (j + 1) v.z D.prof.nmax) v.z = R := by
      refine ValueAt.unique s.grid (⟨_, hlt, hat.below, ?_, ?_⟩) hR
      · by_contra h
        push Not at h
        by_cases h2 : segIdFrom D.prof.z (j + 1) v.z D.prof.nmax + 1 < D.prof.nmax
        · have := hat.passed _ h2 h.le
          omega
        · have : segIdFrom D.prof.z (j + 1) v.z D.prof.nmax + 1 = D.prof.nmax := by omega
          rw [this, hvz] at h
          linarith
      · unfold interpAt; rw [linAt_interp]
    rw [hval]
    have hns := nShells_zero_iff D.n_cap s.caps
    by_cases hm : D.n_cap ≤ 3
    · rw [if_pos hm] at hin
      rw [if_neg, if_neg]
      · rw [hr]
        simp only [Out.bind_ok, dist3_gap, real_add]
      · rintro ⟨h, -⟩
        have := hns.mpr hm
        omega
      · rintro ⟨-, h⟩
        simp only [ge, real_le, real_mul, real_add, decide_eq_true_eq] at h
        linarith [hin.2]
    · rw [if_neg hm] at hin
      rw [if_neg, if_neg]
      · rw [hr]
        simp only [Out.bind_ok, dist3_gap, real_add]
      · rintro ⟨-, h⟩
        exact inHex_ne hR0 hin h
      · rintro ⟨h, -⟩
        exact hm (hns.mp h)
  have hdir : reflectDir P.exitD n (dot n P.exitD) = mirror P.exitD n := (reflectDir_mirror _ _ o.unit hn).1
  constructor
  · intro hal
    rcases hc with ⟨rfl, -⟩ | ⟨-, h⟩
    · rw [key]
      simp only [afterReflect, if_true, hdir]
    · exact absurd hal h
  · intro hal
    rcases hc with ⟨-, h⟩ | ⟨rfl, -⟩
    · exact absurd h hal
    · rw [key]
      rfl

theorem glass_weaker {n d E : V3 ℝ} {cs : List (Chan ℝ)} (g : Glass D cs) : Glass D (cs.map (weaker D n d E)) := by
  refine ⟨g.density, ?_⟩
  intro c hc
  obtain ⟨x, hx, rfl⟩ := List.mem_map.mp hc
  exact g.chan x hx

theorem absV_ne {E : V3 ℝ} (h : dot E E ≠ 0) : dot (absV (vnorm E)) (absV (vnorm E)) ≠ 0 := by
  rw [absV_dot, vnorm_dot E h]; norm_num

/-- what the tracing loop leaves -/
structure Ends (P P' : Photon ℝ) (m : Nat) (len : ℝ) (c' d' E' : V3 ℝ) (cs' : List (Chan ℝ)) : Prop where
  exitC : P'.exitC = c'
  exitD : P'.exitD = d'
  exitE : P'.exitE = E'
  i_refl : P'.i_refl = P.i_refl + m
  d_travel : P'.d_travel = P.d_travel + len
  chans : P'.chans = cs'
  ext : P'.ext = P.ext
  int : P'.int = P.int

/-- The tracing loop goes the way of light. -/
theorem loop_way (s : Sound D capx capy) (fuel k : Nat) {c d E : V3 ℝ} {cs : List (Chan ℝ)} {f : End} {m : Nat} {len : ℝ} {c' d' E' : V3 ℝ} {cs' : List (Chan ℝ)}
    (w : Way D capx capy c d E cs f m len c' d' E' cs') :
    ∀ (M : Nat) (c0 : Int) (ix : Nat) (P : Photon ℝ), P.exitC = c → P.exitD = d → P.exitE = E → P.chans = cs → P.coef = true → Glass D cs → cs ≠ [] →
      dot E E ≠ 0 → 0 ≤ c.z → At D c ix → (M = 0 → c0 = 1) → m ≤ M → (f = .absorbed → m + 1 ≤ M) →
      ∃ code ix' P', traceLoop (trace D false fuel (k + 1) capx capy) M c0 ix P = .ok (code, ix', P') ∧
        (f = .out ∧ (code = 1 ∨ code = -2) ∨ f = .absorbed ∧ code = 0) ∧ Ends P P' m len c' d' E' cs' := by
  induction w with
  | @out c d E cs o cl =>
    rintro M c0 ix P rfl rfl rfl rfl hco hg hch hE hz ha h0 - -
    cases M with
    | zero => exact ⟨c0, ix, P, rfl, Or.inl ⟨rfl, Or.inl (h0 rfl)⟩, ⟨rfl, rfl, rfl, by simp, by simp, rfl, rfl, rfl⟩⟩
    | succ M =>
      have hs := search_out s { P with exitD := P.exitD, startD := vnorm P.startD } o cl (D.prof.nmax - ix) ix ⟨lit 0, lit 0, lit 0⟩
        (by have := ha.low; omega) ha.passed
      have ht : trace D false fuel (k + 1) capx capy ix P = .ok (-2, ix, { P with exitD := P.exitD, startD := vnorm P.startD }) := by
        unfold trace capilTrace
        simp only [vnorm_unit _ o.unit]
        simp only at hs
        rw [hs]
      refine ⟨-2, ix, { P with startD := vnorm P.startD }, ?_, Or.inl ⟨rfl, Or.inr rfl⟩, ⟨rfl, rfl, rfl, by simp, by simp, rfl, rfl, rfl⟩⟩
      unfold traceLoop
      rw [ht]
      rfl
  | @absorbed c d E cs j z o lg hal =>
    rintro M c0 ix P rfl rfl rfl rfl hco hg hch hE hz ha h0 - hM
    obtain ⟨M, rfl⟩ : ∃ M', M = M' + 1 := ⟨M - 1, by have := hM rfl; omega⟩
    obtain ⟨ix', -, -, ht⟩ := trace_leg s P o lg ha hz hE hch hco hg fuel k
    refine ⟨0, ix', { P with
          exitC := lineAt P.exitC P.exitD z, startD := vnorm P.startD,
          exitE := absV (vnorm P.exitE), d_travel := P.d_travel + gap (lineAt P.exitC P.exitD z) P.exitC,
          chans := P.chans.map (weaker D (wallNormal D capx capy j (lineAt P.exitC P.exitD z)) P.exitD P.exitE) }, ?_, Or.inr ⟨rfl, rfl⟩, ?_⟩
    · unfold traceLoop
      rw [ht hal]
      rfl
    · exact ⟨rfl, rfl, rfl, by simp, rfl, rfl, rfl, rfl⟩
  | @bounce c d E cs j z f m len c' d' E' cs' o lg hal w ih =>
    rintro M c0 ix P rfl rfl rfl rfl hco hg hch hE hz ha h0 hm hM
    obtain ⟨M, rfl⟩ : ∃ M', M = M' + 1 := ⟨M - 1, by omega⟩
    obtain ⟨ix', ha', ht, -⟩ := trace_leg s P o lg ha hz hE hch hco hg fuel k
    have hz' : 0 ≤ (lineAt P.exitC P.exitD z).z := by
      have := lg.ahead
      have h5 : (0:ℝ) < 1 / 10 ^ 5 := by norm_num
      show 0 ≤ z
      linarith
    obtain ⟨code, ix2, P2, h2, h3, h4⟩ := ih M 1 ix' { P with
          exitC := lineAt P.exitC P.exitD z, exitD := mirror P.exitD (wallNormal D capx capy j (lineAt P.exitC P.exitD z)), startD := vnorm P.startD,
          exitE := absV (vnorm P.exitE), i_refl := P.i_refl + 1, d_travel := P.d_travel + gap (lineAt P.exitC P.exitD z) P.exitC,
          chans := P.chans.map (weaker D (wallNormal D capx capy j (lineAt P.exitC P.exitD z)) P.exitD P.exitE) } rfl rfl rfl rfl hco (glass_weaker hg)
      (by simpa using hch) (absV_ne hE) hz' ha' (fun _ => rfl) (by omega) (fun h => by have := hM h; omega)
    refine ⟨code, ix2, P2, ?_, h3, ⟨h4.exitC, h4.exitD, h4.exitE, ?_, ?_, h4.chans, h4.ext, h4.int⟩⟩
    · unfold traceLoop
      rw [ht hal]
      exact h2
    · rw [h4.i_refl]; push_cast; ring
    · rw [h4.d_travel]; simp only; ring

/-- the channels of a fresh launch -/
noncomputable def freshChans (lib : Xray ℝ) (D : Descr ℝ) (es : List ℝ) : List (Chan ℝ) := es.map fun e => ⟨e, 1, amuOf lib D e, scatfOf lib D e⟩

/-- **C91.** If the way of light from the start of a photon (in the opening of capillary `qr`) through that capillary is `Way` – `m` reflections, not
more than there are profile points – then the launch goes it: it returns 1 if the light gets out and 0 if it is absorbed, with the weights of
`Way`, and leaves the photon at the place of the last reflection, with the direction and the electric vector it has there, the number of
reflections (the absorbing one is not counted) and the length of the way added to the travelled distance, and without leak events. -/
theorem launch_goes_way (lib : Xray ℝ) (D : Descr ℝ) (fuel k : Nat) (P : Photon ℝ) (es : List ℝ) (hes : es ≠ []) (hb : ∀ e ∈ es, 1 ≤ e ∧ e ≤ 100)
    (hg : Refracts lib D es) (hsc : scatfRejects D es = false) {qr : Int × Int} (s : Sound D (axX D qr) (axY D qr))
    (hcap : launchCap D P.startC = some qr) (hopen : startsInWall D qr P.startC = false) (hz : 0 ≤ P.startC.z) (hE : dot P.exitE P.exitE ≠ 0)
    (hd : dot P.startD P.startD ≠ 0)
    {f : End} {m : Nat} {len : ℝ} {c' d' E' : V3 ℝ} {cs' : List (Chan ℝ)}
    (w : Way D (axX D qr) (axY D qr) P.startC (vnorm P.startD) P.exitE (freshChans lib D es) f m len c' d' E' cs')
    (hm : m ≤ D.prof.nmax + 1) (hma : f = .absorbed → m ≤ D.prof.nmax) :
    ∃ P', launch lib (some D) false fuel (k + 1) (some P) (some es) true =
        .ok ((match f with | .out => 1 | .absorbed => 0), .filled (cs'.map (·.w)), some P') ∧
      P'.exitC = c' ∧ P'.exitD = d' ∧ P'.exitE = E' ∧ P'.i_refl = m ∧ P'.d_travel = P.d_travel + len ∧ P'.ext = [] ∧ P'.int = [] := by
  have hbad : ¬ ArgsBad (some D) (some P) (some es) true := not_argsBad hes hb
  obtain ⟨D', P'', es', e1, e2, e3, -, -, -, h'⟩ := launch_valid lib (some D) false fuel (k + 1) (some P) (some es) true hbad
  injection e1 with e1; injection e2 with e2; injection e3 with e3; subst e1 e2 e3
  rw [h']
  have e0 : (lit 1 : ℝ) = 1 := by simp only [real_lit]; norm_num
  have q1 : (launchInit lib D es P).startC = P.startC := rfl
  have q2 : (launchInit lib D es P).exitC = P.startC := rfl
  have q3 : (launchInit lib D es P).exitD = vnorm P.startD := vnorm_unit _ (vnorm_dot _ hd)
  have q4 : (launchInit lib D es P).exitE = P.exitE := rfl
  have q5 : (launchInit lib D es P).chans = freshChans lib D es := by simp only [launchInit, freshChans, e0]
  have q6 : (launchInit lib D es P).coef = true := by simp only [launchInit, hsc]; rfl
  have q7 : (launchInit lib D es P).i_refl = 0 := rfl
  have q8 : (launchInit lib D es P).d_travel = P.d_travel := rfl
  have q9 : (launchInit lib D es P).ext = [] := rfl
  have q10 : (launchInit lib D es P).int = [] := rfl
  unfold launchBody
  simp only [q1, hcap, hopen, Bool.false_eq_true, if_false]
  generalize launchInit lib D es P = Q at *
  unfold launchInside
  have hglass : Glass D (freshChans lib D es) := by
    refine ⟨hg.density, ?_⟩
    intro c hc
    obtain ⟨e, he, rfl⟩ := List.mem_map.mp hc
    exact ⟨(hb e he).1, (hb e he).2, hg.scatf e he, hg.amu e he, hg.index e he⟩
  obtain ⟨code, ix', P1, h1, h2, h3⟩ := loop_way s fuel k w (D.prof.nmax + 1) 0 (segIdFrom D.prof.z 0 Q.startC.z (D.prof.nmax + 1)) Q q2 q3 q4 q5 q6 hglass
    (by simpa [freshChans] using hes) hE hz (by rw [q1]; exact at_segId s hz 0 _ (Or.inr rfl)) (by omega) hm (fun h => by have := hma h; omega)
  simp only [h1, Out.bind_ok]
  refine ⟨finish P1, ?_, h3.exitC, h3.exitD, h3.exitE, ?_, ?_, ?_, ?_⟩
  · rw [h3.chans]
    rcases h2 with ⟨rfl, rfl | rfl⟩ | ⟨rfl, rfl⟩ <;> rfl
  · show P1.i_refl = _
    rw [h3.i_refl, q7, zero_add]
  · show P1.d_travel = _
    rw [h3.d_travel, q8]
  · show P1.ext = _
    rw [h3.ext, q9]
  · show P1.int = _
    rw [h3.int, q10]

end Route
end Polycap
