import Verif.Props.LaunchReports
import Verif.Props.LaunchExamples

/-!
# C79, findings: launches that fail without an error, and launches that succeed with one
-/
namespace Polycap
open CNum

/-! ## A photon in the opening of a monocapillary that is lost without an error -/

/-- a photon that starts in the opening of a monocapillary, at its entrance -/
theorem mono_start {D : Descr ℝ} (hn : 1 ≤ D.n_cap) (hm : D.n_cap ≤ 3) (g : Grid D.prof) (hr : Radii D.prof) {c : V3 ℝ} (hz : c.z = 0)
    (ho : Real.sqrt (c.x ^ 2 + c.y ^ 2) ≤ D.prof.cap 0) (hce : D.prof.cap 0 ≤ D.prof.ext 0) :
    launchCap D c = some (0, 0) ∧ startsInWall D (0, 0) c = false := by
  have hz1 : c.z ≤ D.prof.z D.prof.nmax := by rw [hz]; exact g.z_nonneg (le_refl _)
  have hR : ValueAt D.prof D.prof.ext c.z (D.prof.ext 0) := by
    have := valueAt_grid g D.prof.ext (i := 0) (by have := g.two; omega)
    rwa [g.start, ← hz] at this
  have hrad : ValueAt D.prof D.prof.cap c.z (D.prof.cap 0) := by
    have := valueAt_grid g D.prof.cap (i := 0) (by have := g.two; omega)
    rwa [g.start, ← hz] at this
  have hv : launchExt D.prof c.z = D.prof.ext 0 := (launchExt_value g hz.ge hz1).unique g hR
  have hN : ¬ launchCap D c = none := by
    rw [launchCap_none hn (by rw [hv]; exact hr.ext 0 (Nat.zero_le _)), hv]
    simp only [Outside, hm, if_true, not_lt]
    linarith
  have hq : launchCap D c = some (0, 0) := by
    obtain ⟨qr, hq⟩ := Option.ne_none_iff_exists'.mp hN
    rcases launchCap_some hq with ⟨-, h⟩ | ⟨h, -⟩
    · rw [hq, h]
    · exact absurd ((nShells_zero_iff D.n_cap hn).mpr hm) h
  refine ⟨hq, ?_⟩
  rw [← Bool.not_eq_true, startsInWall_iff g hn hz.ge hz1 hR hrad hq]
  simp only [InGlass, hm, if_true, not_lt]
  exact ho

theorem mono_axis {D : Descr ℝ} (hn : 1 ≤ D.n_cap) (i : Nat) : axX D (0, 0) i = 0 ∧ axY D (0, 0) i = 0 := by
  rw [axX_eq D hn, axY_eq D hn]
  simp [centreX, centreY]

/-- a segment the photon's line does not meet -/
theorem segment_clear {c0 c1 : V3 ℝ} {r0 r1 : ℝ} {p0 p1 d cur nrm : V3 ℝ} (hd : 0 < d.z) (ha : genCoeff c0 c1 r0 r1 d ≠ 0)
    (h : ∀ z, c0.z ≤ z → z ≤ c1.z → ¬ OnWall c0 c1 r0 r1 (lineAt p0 d z)) : (segment c0 c1 r0 r1 p0 p1 d cur nrm).1 ≠ 1 := by
  intro h1
  generalize hs : segment c0 c1 r0 r1 p0 p1 d cur nrm = s at h1
  obtain ⟨s1, v, n⟩ := s
  simp only at h1
  subst h1
  obtain ⟨a, -, b, c, -, w, -⟩ := segment_sound _ _ _ _ _ _ _ _ _ _ _ hd ha hs
  rw [a] at w
  exact h _ b c w

/-- **Finding (C79, C24)**: in a monocapillary, a photon that starts in the opening, at the entrance, but outside the hexagon inscribed in
the *outer* circle is given up unless it meets the wall already in the first segment: the launch returns -1 and reports no error. -/
theorem mono_corner_lost (lib : Xray ℝ) (D : Descr ℝ) (hn : 1 ≤ D.n_cap) (hm : D.n_cap ≤ 3) (g : Grid D.prof) (hr : Radii D.prof)
    (fuel k : Nat) (P : Photon ℝ) (es : List ℝ) (hs : scatfRejects D es = false) (hz : P.startC.z = 0)
    (ho : Real.sqrt (P.startC.x ^ 2 + P.startC.y ^ 2) ≤ D.prof.cap 0) (hce : D.prof.cap 0 ≤ D.prof.ext 0) (hd : 0 < P.startD.z)
    (hhex : ¬ InHex (D.prof.ext 0) P.startC.x P.startC.y)
    (hga : genCoeff ⟨0, 0, D.prof.z 0⟩ ⟨0, 0, D.prof.z 1⟩ (D.prof.cap 0) (D.prof.cap 1) P.startD ≠ 0)
    (hclear : ∀ z, 0 ≤ z → z ≤ D.prof.z 1 → (lineAt P.startC P.startD z).x ^ 2 + (lineAt P.startC P.startD z).y ^ 2 ≠
      (linAt (D.prof.z 0) (D.prof.z 1) (D.prof.cap 0) (D.prof.cap 1) z) ^ 2) :
    ∃ o P', launchE lib (some D) false fuel (k + 1) (some P) (some es) true (some none) = .ok ((-1, o, some P'), some none) := by
  obtain ⟨-, -, hes, hb, -⟩ := (scatf_accepts_iff D es).mp hs
  obtain ⟨hq, hw⟩ := mono_start hn hm g hr hz ho hce
  rw [launchE_valid _ _ _ _ _ _ _ _ (not_argsBad hes hb)]
  have hst : (launchInit lib D es P).startC = P.startC := rfl
  have hz1 : P.startC.z ≤ D.prof.z D.prof.nmax := by rw [hz]; exact g.z_nonneg (le_refl _)
  have hdir : dot P.startD P.startD ≠ 0 := by
    unfold dot
    have : 0 < P.startD.z * P.startD.z := mul_pos hd hd
    nlinarith [mul_self_nonneg P.startD.x, mul_self_nonneg P.startD.y]
  have htr : ∀ (Q : Photon ℝ) (e : EArg), Q.exitC = P.startC → Q.exitD = vnorm (vnorm P.startD) → ∃ Q',
      traceE D false fuel (k + 1) (axX D (0, 0)) (axY D (0, 0)) 0 Q e = .ok ((-3, 0, Q'), e) := by
    intro Q e q1 q2
    have hQ2 : vnorm Q.exitD = vnorm P.startD := by rw [q2, (dot_pos_of_ne hdir).2, (dot_pos_of_ne hdir).2]
    obtain ⟨sl1, sl2, hvz⟩ := slope_norm P.startD hd
    have hline : ∀ z, lineAt P.startC (vnorm P.startD) z = lineAt P.startC P.startD z := by
      intro z
      unfold lineAt
      congr 1
      · rw [← mul_div_right_comm, mul_div_assoc, sl1]; ring
      · rw [← mul_div_right_comm, mul_div_assoc, sl2]; ring
    unfold traceE capilTraceE
    simp only
    generalize hT : ({ Q with exitD := vnorm Q.exitD, startD := vnorm Q.startD } : Photon ℝ) = T
    have t1 : T.exitC = P.startC := by rw [← hT]; exact q1
    have t2 : T.exitD = vnorm P.startD := by rw [← hT]; exact hQ2
    obtain ⟨m, hm'⟩ : ∃ m, D.prof.nmax - 0 = m + 1 := ⟨D.prof.nmax - 1, by have := g.two; omega⟩
    have hgrid0 : atGrid D.prof T.exitC T.exitD 0 = P.startC := by
      rw [atGrid_eq, t1, g.start, hz]
      cases hP : P.startC
      rw [hP] at hz
      simp only at hz
      simp [hz]
    have hs0 : traceSearch D (axX D (0, 0)) (axY D (0, 0)) T (m + 1) 0 Q.exitC ⟨lit 0, lit 0, lit 0⟩ = .ret (-3) := by
      unfold traceSearch
      simp only [(mono_axis hn _).1, (mono_axis hn _).2]
      rw [if_neg (by rw [boundary_axis (hr.ext 0 (by omega)), boundary_axis (hr.ext (0 + 1) (by have := g.two; omega))]; decide)]
      rw [if_neg, if_pos]
      · rw [hgrid0]
        exact (boundary_spec _ _ _).2.2 (hr.ext 0 (by omega)) hhex
      · split
        · decide
        · apply segment_clear
          · rw [t2]; exact hvz
          · rw [t2, genCoeff_vnorm _ _ _ _ _ hd]; exact hga
          · intro z z0 z1 hw
            rw [hgrid0, t2, hline] at hw
            refine hclear z (by rw [g.start] at z0; exact z0) z1 ?_
            simp only [OnWall, linAt, sub_self, zero_mul, add_zero, sub_zero] at hw ⊢
            exact hw
    have hsE := traceSearchE_value D (axX D (0, 0)) (axY D (0, 0)) T (m + 1) 0 Q.exitC ⟨lit 0, lit 0, lit 0⟩ e
    have hqt := search_quiet D g hr (axX D (0, 0)) (axY D (0, 0)) T (by rw [t2]; exact hvz.le) (m + 1) 0 Q.exitC ⟨lit 0, lit 0, lit 0⟩ e
      (by omega) (by rw [hs0]; simp)
    rw [hs0] at hsE
    rw [hm']
    generalize traceSearchE D (axX D (0, 0)) (axY D (0, 0)) T (m + 1) 0 Q.exitC ⟨lit 0, lit 0, lit 0⟩ e = x at hsE hqt
    obtain ⟨x1, x2⟩ := x
    simp only at hsE hqt
    subst hsE hqt
    exact ⟨_, rfl⟩
  have hseg : segIdFrom D.prof.z 0 P.startC.z (D.prof.nmax + 1) = 0 := by
    rw [hz]
    refine segId_zero _ _ _ _ (by rw [g.start]) ?_
    intro i h1 h2
    rw [← g.start]
    exact strict_of_step g.inc (by omega) (by omega)
  obtain ⟨Q', hQ'⟩ := htr (launchInit lib D es P) (some none) rfl rfl
  refine ⟨.filled (Q'.chans.map (·.w)), finish Q', ?_⟩
  unfold launchBodyE
  simp only [hs, hst, hq, hw, Bool.false_eq_true, if_false]
  rw [launchCapE_quiet g hr hz.ge hz1 hq]
  unfold launchInsideE
  simp only [hst, hseg]
  unfold traceLoopE
  simp only [report, Bool.false_eq_true, if_false]
  rw [hQ', Out.bind_ok]
  rfl

/-- a straight monocapillary of radius 1 in a tube of radius 1.05 -/
noncomputable def cnD : Descr ℝ := ⟨0, 1, [14], [1], 223/100, ⟨1, fun i => i, fun _ => 1, fun _ => 21/20⟩⟩

/-- the hypotheses are met: a photon 0.95 off the axis, flying inwards, never touches the wall and is lost -/
theorem corner_lost (fuel k : Nat) : ∃ o P',
    launchE exLib (some cnD) false fuel (k + 1) (some (exP ⟨0, 19/20, 0⟩ ⟨0, -1/10, 1⟩ 0)) (some [10]) true (some none) =
      .ok ((-1, o, some P'), some none) := by
  refine mono_corner_lost exLib cnD (by simp [cnD]) (by simp [cnD]) ⟨le_refl _, by simp [cnD], by intro i hi; simp [cnD]⟩
    ⟨fun i _ => by simp [cnD], fun i _ => by simp [cnD]⟩ fuel k _ [10] ?_ rfl ?_ ?_ ?_ ?_ ?_ ?_
  · rw [scatf_accepts_iff]
    simp [cnD]
    norm_num
  · simp only [exP, cnD]
    rw [Real.sqrt_le_left (by norm_num)]
    norm_num
  · simp only [cnD]; norm_num
  · simp [exP]
  · intro h
    have h1 := h.1
    simp only [exP, cnD] at h1
    rw [abs_of_pos (by norm_num)] at h1
    have hs : Real.sqrt 3 ≤ 18/10 := by rw [Real.sqrt_le_left (by norm_num)]; norm_num
    linarith
  · simp [genCoeff, exP, cnD]
  · intro z z0 z1 h
    simp only [exP, cnD, lineAt, linAt] at h z1
    norm_num at h z1
    rcases h with h | h <;> linarith

end Polycap
