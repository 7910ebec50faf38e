import Verif.Props.LaunchReports
import Verif.Props.LaunchSilent
import Verif.Props.ClearPath

/-!
# C80: a photon that meets no wall is transmitted unchanged
-/
namespace Polycap
open CNum

/-- The photon with start position `c` and direction `d` meets no wall of the capillary with axis `(capx, capy)` from profile point `i0` on:
in every segment it is not parallel to a generator of the wall, no point of its path lies on the wall – save in the first 10⁻⁵ cm, which the
code does not look at (C84) – and at the profile points its line is inside the hexagon of the optic. -/
structure MeetsNoWall (D : Descr ℝ) (capx capy : Nat → ℝ) (c d : V3 ℝ) (i0 : Nat) : Prop where
  oblique : ∀ i, i0 ≤ i → i < D.prof.nmax → genCoeff (axisPt D capx capy i) (axisPt D capx capy (i + 1)) (D.prof.cap i) (D.prof.cap (i + 1)) d ≠ 0
  clear : ∀ i, i0 ≤ i → i < D.prof.nmax → ∀ z, D.prof.z i ≤ z → z ≤ D.prof.z (i + 1) → c.z + 1 / 10 ^ 5 ≤ z →
    ¬ OnWall (axisPt D capx capy i) (axisPt D capx capy (i + 1)) (D.prof.cap i) (D.prof.cap (i + 1)) (lineAt c d z)
  hex : ∀ i, i0 ≤ i → i < D.prof.nmax → InHex (D.prof.ext i) (lineAt c d (D.prof.z i)).x (lineAt c d (D.prof.z i)).y

theorem search_clear (D : Descr ℝ) (hr : Radii D.prof) (capx capy : Nat → ℝ) (P : Photon ℝ) (i0 : Nat)
    (hax : ∀ i ≤ D.prof.nmax, InHex (D.prof.ext i) (capx i) (capy i)) (hd : 0 < P.exitD.z)
    (hm : MeetsNoWall D capx capy P.exitC P.exitD i0) : ∀ (k i : Nat) (cur nrm : V3 ℝ), i0 ≤ i → i + k ≤ D.prof.nmax → P.exitC.z ≤ cur.z →
      traceSearch D capx capy P k i cur nrm = .miss := by
  intro k
  induction k with
  | zero => intro i cur nrm _ _ _; rfl
  | succ k ih =>
    intro i cur nrm hi hk hcur
    have hax' : ∀ j ≤ D.prof.nmax, withinPcBoundary (D.prof.ext j) (capx j) (capy j) = 1 :=
      fun j hj => (boundary_one_iff _ _ _).mpr ⟨hr.ext j hj, hax j hj⟩
    have hs1 : (segment (axisPt D capx capy i) (axisPt D capx capy (i + 1)) (D.prof.cap i) (D.prof.cap (i + 1))
        (atGrid D.prof P.exitC P.exitD i) (atGrid D.prof P.exitC P.exitD (i + 1)) P.exitD cur nrm).1 ≠ 1 := by
      intro h1
      generalize hs : segment (axisPt D capx capy i) (axisPt D capx capy (i + 1)) (D.prof.cap i) (D.prof.cap (i + 1))
        (atGrid D.prof P.exitC P.exitD i) (atGrid D.prof P.exitC P.exitD (i + 1)) P.exitD cur nrm = s at h1
      obtain ⟨s1, v, n⟩ := s
      simp only at h1
      subst h1
      obtain ⟨a, -, b, c, f, w, -⟩ := segment_sound _ _ _ _ _ _ _ _ _ _ _ hd (hm.oblique i hi (by omega)) hs
      rw [a, lineAt_atGrid _ _ _ _ hd] at w
      refine hm.clear i hi (by omega) _ b c ?_ w
      linarith
    have hcur' : (segment (axisPt D capx capy i) (axisPt D capx capy (i + 1)) (D.prof.cap i) (D.prof.cap (i + 1))
        (atGrid D.prof P.exitC P.exitD i) (atGrid D.prof P.exitC P.exitD (i + 1)) P.exitD cur nrm).2.1 = cur :=
      segment_failure_keeps_position _ _ _ _ _ _ _ _ _ hs1
    have hg : withinPcBoundary (D.prof.ext i) (atGrid D.prof P.exitC P.exitD i).x (atGrid D.prof P.exitC P.exitD i).y = 1 := by
      rw [boundary_one_iff]
      refine ⟨hr.ext i (by omega), ?_⟩
      have := hm.hex i hi (by omega)
      rw [atGrid_eq]
      simp only [lineAt] at this
      convert this using 2 <;> ring
    unfold traceSearch
    simp only
    rw [if_neg (by rw [hax' i (by omega), hax' (i + 1) (by omega)]; decide), if_neg, if_neg (by rw [hg]; decide)]
    · exact ih (i + 1) _ _ (by omega) (by omega) (by
        have : (segment (⟨capx i, capy i, D.prof.z i⟩ : V3 ℝ) ⟨capx (i + 1), capy (i + 1), D.prof.z (i + 1)⟩ (D.prof.cap i) (D.prof.cap (i + 1))
          (atGrid D.prof P.exitC P.exitD i) (atGrid D.prof P.exitC P.exitD (i + 1)) P.exitD cur nrm).2.1 = cur := hcur'
        rw [this]; exact hcur)
    · split
      · decide
      · exact hs1

/-- **C80**: a valid launch, whatever the leak flag and the composition, of a photon that starts in a capillary of the optic (one whose axis
is inside the hexagon) and meets no wall: 1 is returned, with weight 1 for every energy; the photon has made no reflection and keeps its
position and its (normalised) direction; and nothing is reported but a composition the scattering-factor calculation refuses. -/
theorem launch_clear_transmitted_partial (lib : Xray ℝ) (D : Descr ℝ) (hn : 1 ≤ D.n_cap) (g : Grid D.prof) (hr : Radii D.prof) (leak : Bool)
    (fuel k : Nat) (P : Photon ℝ) (es : List ℝ) (hes : es ≠ []) (hb : ∀ e ∈ es, 1 ≤ e ∧ e ≤ 100)
    (h0 : 0 ≤ P.startC.z) (h1 : P.startC.z ≤ D.prof.z D.prof.nmax) (hd : 0 < P.startD.z)
    (R rad : ℝ) (hR : ValueAt D.prof D.prof.ext P.startC.z R) (hrad : ValueAt D.prof D.prof.cap P.startC.z rad)
    (hin : ¬ Outside D.n_cap R P.startC) (hopen : ¬ InGlass D.n_cap R rad P.startC)
    (hm : ∀ qr, launchCap D P.startC = some qr →
      (∀ i ≤ D.prof.nmax, InHex (D.prof.ext i) (axX D qr i) (axY D qr i)) ∧
      MeetsNoWall D (axX D qr) (axY D qr) P.startC P.startD (segIdFrom D.prof.z 0 P.startC.z (D.prof.nmax + 1))) (e : EArg) :
    ∃ P', launchE lib (some D) leak fuel k (some P) (some es) true e =
        .ok ((1, .filled (es.map fun _ => 1), some P'), report e (scatfRejects D es)) ∧
      P'.i_refl = 0 ∧ P'.exitC = P.startC ∧ P'.exitD = vnorm P.startD ∧ P'.d_travel = P.d_travel ∧ P'.ext = [] ∧ P'.int = [] := by
  have hpos : 0 < R := by
    obtain ⟨i, hi, a, b, rfl⟩ := hR
    exact linAt_pos (hr.ext _ (by omega)) (hr.ext _ (by omega)) (g.inc i hi) a b
  have hR' : launchExt D.prof P.startC.z = R := (launchExt_value g h0 h1).unique g hR
  have hN : ¬ launchCap D P.startC = none := by
    rw [launchCap_none hn (by rw [hR']; exact hpos), hR']; exact hin
  obtain ⟨qr, hq⟩ := Option.ne_none_iff_exists'.mp hN
  have hw : startsInWall D qr P.startC = false := by
    rw [← Bool.not_eq_true, startsInWall_iff g hn h0 h1 hR hrad hq]; exact hopen
  obtain ⟨hax, hmw⟩ := hm qr hq
  have hdir : dot P.startD P.startD ≠ 0 := by
    unfold dot
    have : 0 < P.startD.z * P.startD.z := mul_pos hd hd
    nlinarith [mul_self_nonneg P.startD.x, mul_self_nonneg P.startD.y]
  obtain ⟨sl1, sl2, hvz⟩ := slope_norm P.startD hd
  have hline : ∀ z, lineAt P.startC (vnorm P.startD) z = lineAt P.startC P.startD z := by
    intro z
    unfold lineAt
    congr 1
    · rw [← mul_div_right_comm, mul_div_assoc, sl1]; ring
    · rw [← mul_div_right_comm, mul_div_assoc, sl2]; ring
  generalize hI : launchInit lib D es P = I
  have hst : I.startC = P.startC := by rw [← hI]; rfl
  have i1 : I.exitC = P.startC := by rw [← hI]; rfl
  have i2 : vnorm I.exitD = vnorm P.startD := by
    rw [← hI]; show vnorm (vnorm (vnorm P.startD)) = _
    rw [(dot_pos_of_ne hdir).2, (dot_pos_of_ne hdir).2]
  generalize hE : report e (scatfRejects D es) = e1
  generalize hix : segIdFrom D.prof.z 0 P.startC.z (D.prof.nmax + 1) = ix at hmw
  have htr : traceE D leak fuel k (axX D qr) (axY D qr) ix I e1 =
      .ok ((-2, ix, { I with exitD := vnorm I.exitD, startD := vnorm I.startD }), e1) := by
    unfold traceE capilTraceE
    simp only
    generalize hT : ({ I with exitD := vnorm I.exitD, startD := vnorm I.startD } : Photon ℝ) = T
    have t1 : T.exitC = P.startC := by rw [← hT]; exact i1
    have t2 : T.exitD = vnorm P.startD := by rw [← hT]; exact i2
    have hv : traceSearch D (axX D qr) (axY D qr) T (D.prof.nmax - ix) ix I.exitC ⟨lit 0, lit 0, lit 0⟩ = .miss ∧
        (traceSearchE D (axX D qr) (axY D qr) T (D.prof.nmax - ix) ix I.exitC ⟨lit 0, lit 0, lit 0⟩ e1).2 = e1 := by
      by_cases hi : ix ≤ D.prof.nmax
      · have hv : traceSearch D (axX D qr) (axY D qr) T (D.prof.nmax - ix) ix I.exitC ⟨lit 0, lit 0, lit 0⟩ = .miss := by
          refine search_clear D hr _ _ T ix hax (by rw [t2]; exact hvz) ⟨?_, ?_, ?_⟩ _ _ _ _ (le_refl _) (by omega) (by rw [t1, i1])
          · intro i a b
            rw [t2, genCoeff_vnorm _ _ _ _ _ hd]; exact hmw.oblique i a b
          · intro i a b z z0 z1 z2
            rw [t1, t2, hline]; rw [t1] at z2; exact hmw.clear i a b z z0 z1 z2
          · intro i a b
            rw [t1, t2, hline]; exact hmw.hex i a b
        exact ⟨hv, search_quiet D g hr _ _ T (by rw [t2]; exact hvz.le) _ _ _ _ _ (by omega) (by rw [hv]; simp)⟩
      · rw [Nat.sub_eq_zero_of_le (by omega)]; exact ⟨rfl, rfl⟩
    have hsE := traceSearchE_value D (axX D qr) (axY D qr) T (D.prof.nmax - ix) ix I.exitC ⟨lit 0, lit 0, lit 0⟩ e1
    rw [hv.1] at hsE
    have hv2 := hv.2
    generalize traceSearchE D (axX D qr) (axY D qr) T (D.prof.nmax - ix) ix I.exitC ⟨lit 0, lit 0, lit 0⟩ e1 = x at hsE hv2
    obtain ⟨x1, x2⟩ := x
    simp only at hsE hv2
    subst hsE hv2
    rfl
  rw [launchE_valid _ _ _ _ _ _ _ _ (not_argsBad hes hb)]
  unfold launchBodyE
  simp only [hI, hst, hq, hw, Bool.false_eq_true, if_false, hE]
  rw [launchCapE_quiet g hr h0 h1 hq]
  unfold launchInsideE
  simp only [hst, hix]
  unfold traceLoopE
  rw [htr, Out.bind_ok]
  refine ⟨finish { I with exitD := vnorm I.exitD, startD := vnorm I.startD }, ?_, ?_, i1, i2, ?_, ?_, ?_⟩
  · have hch : I.chans.map (·.w) = es.map fun _ => (1:ℝ) := by
      rw [← hI]
      simp [launchInit, List.map_map, Function.comp_def]
    rw [if_pos (by decide : (-2:Int) ≠ 1), Out.bind_ok]
    simp only [hch]
    rfl
  all_goals rw [← hI]; rfl

/-- **C80 for a monocapillary**, in plain terms: the photon starts in the opening at height `P.startC.z`, moves downstream, never touches the
wall `x²+y² = r(z)²` (save in the first 10⁻⁵ cm), is nowhere parallel to a generator of the wall, and is inside the hexagon inscribed in the outer circle at every
profile point from the last one not beyond its start on. -/
theorem mono_clear_transmitted_partial (lib : Xray ℝ) (D : Descr ℝ) (hn : 1 ≤ D.n_cap) (hmono : D.n_cap ≤ 3) (g : Grid D.prof)
    (hr : Radii D.prof) (leak : Bool) (fuel k : Nat) (P : Photon ℝ) (es : List ℝ) (hes : es ≠ []) (hb : ∀ e ∈ es, 1 ≤ e ∧ e ≤ 100)
    (h0 : 0 ≤ P.startC.z) (h1 : P.startC.z ≤ D.prof.z D.prof.nmax) (hd : 0 < P.startD.z)
    (R rad : ℝ) (hR : ValueAt D.prof D.prof.ext P.startC.z R) (hrad : ValueAt D.prof D.prof.cap P.startC.z rad)
    (hin : Real.sqrt (P.startC.x ^ 2 + P.startC.y ^ 2) ≤ rad) (hle : rad ≤ R)
    (hob : ∀ i < D.prof.nmax, (P.startD.x / P.startD.z) ^ 2 + (P.startD.y / P.startD.z) ^ 2 ≠
      ((D.prof.cap (i + 1) - D.prof.cap i) / (D.prof.z (i + 1) - D.prof.z i)) ^ 2)
    (hclear : ∀ z r, P.startC.z + 1 / 10 ^ 5 ≤ z → ValueAt D.prof D.prof.cap z r →
      (lineAt P.startC P.startD z).x ^ 2 + (lineAt P.startC P.startD z).y ^ 2 ≠ r ^ 2)
    (hhex : ∀ i < D.prof.nmax, (i = 0 ∨ P.startC.z < D.prof.z (i + 1)) →
      InHex (D.prof.ext i) (lineAt P.startC P.startD (D.prof.z i)).x (lineAt P.startC P.startD (D.prof.z i)).y) (e : EArg) :
    ∃ P', launchE lib (some D) leak fuel k (some P) (some es) true e =
        .ok ((1, .filled (es.map fun _ => 1), some P'), report e (scatfRejects D es)) ∧
      P'.i_refl = 0 ∧ P'.exitC = P.startC ∧ P'.exitD = vnorm P.startD ∧ P'.d_travel = P.d_travel ∧ P'.ext = [] ∧ P'.int = [] := by
  refine launch_clear_transmitted_partial lib D hn g hr leak fuel k P es hes hb h0 h1 hd R rad hR hrad ?_ ?_ ?_ e
  · simp only [Outside, hmono, if_true, not_lt]; linarith
  · simp only [InGlass, hmono, if_true, not_lt]; exact hin
  · intro qr hq
    have hqr : qr = (0, 0) := by
      rcases launchCap_some hq with ⟨-, h⟩ | ⟨h, -⟩
      · exact h
      · exact absurd ((nShells_zero_iff D.n_cap hn).mpr hmono) h
    subst hqr
    have ax : ∀ i, axX D (0, 0) i = 0 := fun i => (mono_axis hn i).1
    have ay : ∀ i, axY D (0, 0) i = 0 := fun i => (mono_axis hn i).2
    refine ⟨?_, ?_, ?_, ?_⟩
    · intro i hi
      rw [ax, ay]
      exact ((boundary_one_iff _ _ _).mp (boundary_axis (hr.ext i hi))).2
    · intro i _ hi
      simp only [genCoeff, axisPt, ax, ay, sub_self, zero_div, sub_zero]
      exact sub_ne_zero.mpr (hob i hi)
    · intro i _ hi z z0 z1 hz hw
      refine hclear z _ hz ⟨i, hi, z0, z1, rfl⟩ ?_
      simp only [OnWall, axisPt, ax, ay, linAt, sub_self, zero_mul, add_zero, sub_zero] at hw
      exact hw
    · intro i hi hi'
      refine hhex i hi' ?_
      by_cases h : P.startC.z < D.prof.z (i + 1)
      · exact .inr h
      · exfalso
        push Not at h
        rcases segId_spec D.prof.z 0 P.startC.z (D.prof.nmax + 1) with ⟨a, b, c⟩ | ⟨a, b⟩
        · have := c (i + 1) (by omega) (by omega)
          simp only [real_le, decide_eq_false_iff_not, not_le] at this
          linarith
        · have := b (i + 1) (by omega)
          simp only [real_le, decide_eq_false_iff_not, not_le] at this
          linarith

/-- the hypotheses are met by a photon on the axis of a tapered monocapillary, whatever the composition of the glass -/
theorem axial_transmitted (iz : List Int) (wi : List ℝ) (leak : Bool) (e : EArg) :
    ∃ P', launchE exLib (some ⟨0, 1, iz, wi, 223/100, exProf⟩) leak 0 1 (some (exP ⟨0, 0, 0⟩ ⟨0, 0, 1⟩ 0)) (some [10]) true e =
        .ok ((1, .filled [1], some P'), report e (scatfRejects (⟨0, 1, iz, wi, 223/100, exProf⟩ : Descr ℝ) [10])) ∧
      P'.i_refl = 0 ∧ P'.exitC = ⟨0, 0, 0⟩ ∧ P'.exitD = ⟨0, 0, 1⟩ := by
  have hval : ∀ z r, ValueAt exProf exProf.cap z r → r ≠ 0 := by
    rintro z r ⟨i, hi, z0, z1, rfl⟩
    have hi : i = 0 := by simp only [exProf] at hi; omega
    subst hi
    exact (linAt_pos (by simp [exProf]) (by simp [exProf]) (by simp [exProf]) z0 z1).ne'
  obtain ⟨P', h, a, b, c, -⟩ := mono_clear_transmitted_partial exLib ⟨0, 1, iz, wi, 223/100, exProf⟩ (by norm_num) (by norm_num) exGrid
    ⟨fun i _ => by simp only [exProf]; split <;> norm_num, fun i _ => by simp [exProf]⟩ leak 0 1 (exP ⟨0, 0, 0⟩ ⟨0, 0, 1⟩ 0) [10] (by simp)
    (by intro e he; simp at he; subst he; norm_num) (le_refl _) (by simp [exProf, exP]) (by simp [exP]) 2 1
    (by have := valueAt_grid exGrid exProf.ext (i := 0) (by simp [exProf]); rwa [exGrid.start] at this)
    (by have := valueAt_grid exGrid exProf.cap (i := 0) (by simp [exProf]); rwa [exGrid.start] at this)
    (by simp [exP]) (by norm_num)
    (by intro i hi
        have hi : i = 0 := by simp only [exProf] at hi; omega
        subst hi
        simp [exP, exProf]; norm_num)
    (by intro z r _ hv h
        have := hval z r hv
        simp only [exP, lineAt, mul_zero, add_zero] at h
        apply this
        nlinarith)
    (by intro i hi _
        have hi : i = 0 := by simp only [exProf] at hi; omega
        subst hi
        simp only [exP, lineAt, mul_zero, add_zero]
        exact ((boundary_one_iff _ _ _).mp (boundary_axis (r := 2) (by norm_num))).2) e
  exact ⟨P', h, a, b, by rw [c]; exact vnorm_z⟩

/-- **Finding (C79)**: glass described by the weight fractions 2 and -1 (accepted by `polycap_description_new`, C12): the photon is
transmitted, 1 is returned, and yet an error is reported. -/
theorem launch_success_with_error : ∃ P',
    launchE exLib (some ⟨0, 1, [14, 8], [2, -1], 223/100, exProf⟩) false 0 1 (some (exP ⟨0, 0, 0⟩ ⟨0, 0, 1⟩ 0)) (some [10]) true (some none) =
      .ok ((1, .filled [1], some P'), some (some .invalidArgument)) := by
  obtain ⟨P', h, -⟩ := axial_transmitted [14, 8] [2, -1] false (some none)
  refine ⟨P', ?_⟩
  rw [h]
  have : scatfRejects (⟨0, 1, [14, 8], [2, -1], 223/100, exProf⟩ : Descr ℝ) [10] = true := by
    rw [← Bool.not_eq_false, scatf_accepts_iff]
    intro hh
    have := hh.2.2.2.2
    revert this
    norm_num
  rw [this]
  rfl

end Polycap
