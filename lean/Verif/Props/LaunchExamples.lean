import Verif.Props.LaunchProps

/-!
# Concrete launches

Runs of the model with all numbers given: they show that the hypotheses of the launch theorems can be met, and they are
the witnesses for the properties that are false of the code.
-/
namespace Polycap
open CNum

/-- a monocapillary of length 1, radius 1 → 1/2, outer radius 2 (borosilicate-like glass) -/
noncomputable def exProf : Profile ℝ := ⟨1, fun i => i, fun i => if i = 0 then 1 else 1/2, fun _ => 2⟩
noncomputable def exD : Descr ℝ := ⟨0, 1, [14], [1], 223/100, exProf⟩
noncomputable def exLib : Xray ℝ := ⟨fun _ _ => 1, fun _ _ => 0, fun _ => 28⟩
/-- a photon at `c` with direction `d` that has travelled `t` so far -/
noncomputable def exP (c d : V3 ℝ) (t : ℝ) : Photon ℝ :=
  { startC := c, startD := d, startE := ⟨1, 0, 0⟩, exitC := c, exitD := d, exitE := ⟨1, 0, 0⟩, i_refl := 0, d_travel := t,
    ext := [], int := [], chans := [], coef := false }

theorem exGrid : Grid exProf := ⟨le_refl _, by simp [exProf], by intro i hi; simp [exProf]⟩

theorem ex_scatf : scatfRejects exD [10] = false := by
  rw [scatf_accepts_iff]
  simp [exD]
  norm_num

theorem nShells_one : nShells (α := ℝ) 1 = 0 := (nShells_zero_iff 1 (by norm_num)).mpr (by norm_num)

theorem segId_zero (z : Nat → ℝ) (init : Nat) (zz : ℝ) (n : Nat) (h0 : z 0 ≤ zz) (h : ∀ i, 1 ≤ i → i < n + 1 → zz < z i) :
    segIdFrom z init zz (n + 1) = 0 := by
  induction n with
  | zero => simp [segIdFrom, h0]
  | succ n ih =>
    unfold segIdFrom
    have := h (n + 1) (by omega) (by omega)
    simp only [real_le, decide_eq_true_eq, not_le.mpr this, if_false]
    exact ih (fun i h1 h2 => h i h1 (by omega))

theorem vnorm_z : vnorm (⟨0, 0, 1⟩ : V3 ℝ) = ⟨0, 0, 1⟩ := vnorm_unit _ (by simp [dot])

theorem boundary_axis {r : ℝ} (h : 0 < r) : withinPcBoundary r 0 0 = 1 := by
  rw [boundary_one_iff]
  refine ⟨h, ?_, ?_, ?_⟩ <;> simp <;> positivity

/-- one segment without interaction -/
theorem traceSearch_miss (D : Descr ℝ) (capx capy : Nat → ℝ) (P : Photon ℝ) (i : Nat) (cur nrm : V3 ℝ)
    (h0 : withinPcBoundary (D.prof.ext i) (capx i) (capy i) ≠ 0)
    (h1 : withinPcBoundary (D.prof.ext (i + 1)) (capx (i + 1)) (capy (i + 1)) ≠ 0)
    (hs : (segment (axisPt D capx capy i) (axisPt D capx capy (i + 1)) (D.prof.cap i) (D.prof.cap (i + 1))
      (atGrid D.prof P.exitC P.exitD i) (atGrid D.prof P.exitC P.exitD (i + 1)) P.exitD cur nrm).1 ≠ 1)
    (h2 : withinPcBoundary (D.prof.ext i) (atGrid D.prof P.exitC P.exitD i).x (atGrid D.prof P.exitC P.exitD i).y ≠ 0) :
    traceSearch D capx capy P 1 i cur nrm = .miss := by
  unfold traceSearch
  simp only
  rw [if_neg (by simp [h0, h1])]
  rw [if_neg, if_neg h2]
  · rfl
  · split
    · decide
    · exact hs

theorem exX (qr : Int × Int) (h : qr = (0, 0)) (i : Nat) : axX exD qr i = 0 := by
  rw [axX_eq exD (by simp [exD]) qr i, h]; simp [centreX]
theorem exY (qr : Int × Int) (h : qr = (0, 0)) (i : Nat) : axY exD qr i = 0 := by
  rw [axY_eq exD (by simp [exD]) qr i, h]; simp [centreY]

theorem ex_cap {c : V3 ℝ} (hz : 0 ≤ c.z ∧ c.z ≤ 1) (h : c.x ^ 2 + c.y ^ 2 ≤ 4) : launchCap exD c = some (0, 0) := by
  have hv : launchExt exD.prof c.z = 2 := by
    refine (launchExt_value (p := exD.prof) exGrid hz.1 (by simpa [exD, exProf] using hz.2)).unique (p := exD.prof) exGrid
      ⟨0, by simp [exD, exProf], by simpa [exD, exProf] using hz.1, by simpa [exD, exProf] using hz.2, by simp [exD, exProf, linAt]⟩
  have hN : ¬ launchCap exD c = none := by
    rw [launchCap_none (by simp [exD]) (by rw [hv]; norm_num), hv]
    simp only [Outside, exD, show ((1:ℤ) ≤ 3) from by norm_num, if_true, not_lt]
    rw [Real.sqrt_le_left (by norm_num)]
    linarith
  obtain ⟨qr, hq⟩ := Option.ne_none_iff_exists'.mp hN
  rcases launchCap_some hq with ⟨-, h⟩ | ⟨h, -⟩
  · rw [hq, h]
  · exact absurd nShells_one h

theorem ex_glass {c : V3 ℝ} (hz : 0 ≤ c.z ∧ c.z ≤ 1) (h : c.x ^ 2 + c.y ^ 2 ≤ 4) :
    startsInWall exD (0, 0) c = true ↔ 1 - c.z / 2 < Real.sqrt (c.x ^ 2 + c.y ^ 2) := by
  rw [startsInWall_iff (D := exD) exGrid (by simp [exD]) hz.1 (by simpa [exD, exProf] using hz.2) (R := 2) (rad := 1 - c.z / 2) ?_ ?_ (ex_cap hz h)]
  · simp [InGlass, exD]
  · exact ⟨0, by simp [exD, exProf], by simpa [exD, exProf] using hz.1, by simpa [exD, exProf] using hz.2, by simp [exD, exProf, linAt]⟩
  · exact ⟨0, by simp [exD, exProf], by simpa [exD, exProf] using hz.1, by simpa [exD, exProf] using hz.2, by simp [exD, exProf, linAt]; ring⟩

/-- a photon flying down the axis is transmitted with full weight -/
theorem ex_straight (leak : Bool) (t : ℝ) : ∃ P', launch exLib (some exD) leak 0 1 (some (exP ⟨0, 0, 0⟩ ⟨0, 0, 1⟩ t)) (some [10]) true =
    .ok (1, .filled [1], some P') ∧ P'.d_travel = t ∧ P'.i_refl = 0 ∧ P'.exitC = ⟨0, 0, 0⟩ ∧ P'.exitD = ⟨0, 0, 1⟩ := by
  have hb : ¬ ArgsBad (some exD) (some (exP ⟨0, 0, 0⟩ ⟨0, 0, 1⟩ t)) (some [(10:ℝ)]) true :=
    not_argsBad (by simp) (by intro e he; simp at he; subst he; norm_num)
  obtain ⟨D', P'', es', e1, e2, e3, -, -, -, h'⟩ :=
    launch_valid exLib (some exD) leak 0 1 (some (exP ⟨0, 0, 0⟩ ⟨0, 0, 1⟩ t)) (some [(10:ℝ)]) true hb
  injection e1 with e1; injection e2 with e2; injection e3 with e3; subst e1 e2 e3
  rw [h']
  have hc := ex_cap (c := ⟨0, 0, 0⟩) (by simp) (by simp)
  have hw : startsInWall exD (0, 0) ⟨0, 0, 0⟩ = false := by
    rw [← Bool.not_eq_true, ex_glass (by simp) (by simp)]
    simp
  have hm : ∀ P : Photon ℝ, P.exitC = ⟨0, 0, 0⟩ → P.exitD = ⟨0, 0, 1⟩ →
      traceSearch exD (axX exD (0, 0)) (axY exD (0, 0)) P 1 0 P.exitC ⟨lit 0, lit 0, lit 0⟩ = .miss := by
    intro P h1 h2
    apply traceSearch_miss
    · rw [exX _ rfl, exY _ rfl, show exD.prof.ext 0 = 2 from rfl, boundary_axis (by norm_num)]; decide
    · rw [exX _ rfl, exY _ rfl, show exD.prof.ext (0 + 1) = 2 from rfl, boundary_axis (by norm_num)]; decide
    · intro hs
      generalize hseg : segment (axisPt exD (axX exD (0, 0)) (axY exD (0, 0)) 0) (axisPt exD (axX exD (0, 0)) (axY exD (0, 0)) (0 + 1))
        (exD.prof.cap 0) (exD.prof.cap (0 + 1)) (atGrid exD.prof P.exitC P.exitD 0) (atGrid exD.prof P.exitC P.exitD (0 + 1)) P.exitD P.exitC
        ⟨lit 0, lit 0, lit 0⟩ = s at hs
      obtain ⟨s1, v, n⟩ := s
      simp only at hs
      subst hs
      have hg : genCoeff (axisPt exD (axX exD (0, 0)) (axY exD (0, 0)) 0) (axisPt exD (axX exD (0, 0)) (axY exD (0, 0)) (0 + 1))
          (exD.prof.cap 0) (exD.prof.cap (0 + 1)) P.exitD ≠ 0 := by
        simp only [genCoeff, axisPt, exX _ rfl, exY _ rfl, h2]
        simp only [exD, exProf]
        norm_num
      obtain ⟨l, -, z0, z1, -, w, -⟩ := segment_sound _ _ _ _ _ _ _ _ _ _ _ (by rw [h2]; norm_num) hg hseg
      rw [l] at w
      simp only [OnWall, axisPt, exX _ rfl, exY _ rfl, lineAt, atGrid_eq, h1, h2, linAt] at w
      simp only [exD, exProf] at w
      simp only [axisPt, exD, exProf] at z0 z1
      norm_num at w z0 z1
      nlinarith
    · rw [atGrid_eq, h1, h2]
      simp only [zero_mul, zero_div, add_zero]
      rw [show exD.prof.ext 0 = 2 from rfl, boundary_axis (by norm_num)]; decide
  have hix : segIdFrom exD.prof.z 0 (0:ℝ) (1 + 1) = 0 := segId_zero _ _ _ _ (by simp [exD, exProf]) (by
    intro i h1 h2
    have : i = 1 := by omega
    subst this; simp [exD, exProf])
  have htr : ∀ P : Photon ℝ, P.exitC = ⟨0, 0, 0⟩ → P.exitD = ⟨0, 0, 1⟩ →
      trace exD leak 0 1 (axX exD (0, 0)) (axY exD (0, 0)) 0 P = .ok (-2, 0, { P with exitD := ⟨0, 0, 1⟩, startD := vnorm P.startD }) := by
    intro P h1 h2
    unfold trace capilTrace
    simp only [h2, vnorm_z]
    rw [show exD.prof.nmax - 0 = 1 from rfl]
    rw [hm { P with exitD := ⟨0, 0, 1⟩, startD := vnorm P.startD } h1 rfl]
  have hbody : launchBody exLib exD leak 0 1 (exP ⟨0, 0, 0⟩ ⟨0, 0, 1⟩ t) [10] =
      launchInside exD leak 0 1 (0, 0) (launchInit exLib exD [10] (exP ⟨0, 0, 0⟩ ⟨0, 0, 1⟩ t)) := by
    unfold launchBody
    simp only
    rw [show (launchInit exLib exD [10] (exP ⟨0, 0, 0⟩ ⟨0, 0, 1⟩ t)).startC = ⟨0, 0, 0⟩ from rfl, hc]
    simp only
    rw [if_neg (by rw [hw]; simp)]
  rw [hbody]
  unfold launchInside
  rw [show (launchInit exLib exD [10] (exP ⟨0, 0, 0⟩ ⟨0, 0, 1⟩ t)).startC.z = 0 from rfl,
    show exD.prof.nmax = 1 from rfl, hix]
  have e1 : ((1:ℚ):ℝ) = 1 := by norm_num
  simp only [traceLoop, htr (launchInit exLib exD [10] (exP ⟨0, 0, 0⟩ ⟨0, 0, 1⟩ t)) rfl (by
    show vnorm (vnorm _) = _
    rw [show (exP ⟨0, 0, 0⟩ ⟨0, 0, 1⟩ t).startD = ⟨0, 0, 1⟩ from rfl, vnorm_z, vnorm_z]), Out.bind_ok]
  rw [if_pos (by decide : (-2:Int) ≠ 1)]
  simp only [Out.bind_ok]
  rw [if_neg (by decide), if_neg (by decide)]
  refine ⟨finish { launchInit exLib exD [10] (exP ⟨0, 0, 0⟩ ⟨0, 0, 1⟩ t) with exitD := ⟨0, 0, 1⟩, startD := vnorm (launchInit exLib exD [10] (exP ⟨0, 0, 0⟩ ⟨0, 0, 1⟩ t)).startD }, ?_, rfl, rfl, rfl, rfl⟩
  simp [launchInit]

end Polycap
