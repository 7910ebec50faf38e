import Verif.Props.SimReal
import Verif.Props.Zigzag

/-!
# A complete simulation with all numbers given (C32, C36)

One thread, one photon requested, the glass tube of `Zigzag.lean`.  The first photon leaves the tube's end plane outside
its exit window after two reflections, the second one flies through.
-/
namespace Polycap
open CNum

/-! ## A photon that flies through the tube -/

theorem z_cap' {x : ℝ} (hx : |x| ≤ zR) : launchCap zD ⟨x, 0, 0⟩ = some (0, 0) := by
  have hv : launchExt zD.prof 0 = 1500/999999 :=
    (launchExt_value (p := zD.prof) zGrid (le_refl _) (by simp [zD, zProf])).unique (p := zD.prof) zGrid
      ⟨0, by simp [zD, zProf], by simp [zD, zProf], by simp [zD, zProf], by simp [zD, zProf, linAt]⟩
  have hN : ¬ launchCap zD ⟨x, 0, 0⟩ = none := by
    rw [launchCap_none (by simp [zD]) (by simp only [hv]; norm_num)]
    rw [hv]
    simp only [Outside, zD, show ((1:ℤ) ≤ 3) from by norm_num, if_true, not_lt]
    rw [show x ^ 2 + 0 ^ 2 = x ^ 2 by ring, Real.sqrt_sq_eq_abs]
    refine hx.trans ?_
    norm_num [zR]
  obtain ⟨qr, hq⟩ := Option.ne_none_iff_exists'.mp hN
  rcases launchCap_some hq with ⟨-, h⟩ | ⟨h, -⟩
  · rw [hq, h]
  · exact absurd nShells_one h

theorem z_open' {x : ℝ} (hx : |x| ≤ zR) : startsInWall zD (0, 0) ⟨x, 0, 0⟩ = false := by
  rw [← Bool.not_eq_true, startsInWall_iff (D := zD) zGrid (by simp [zD]) (c := ⟨x, 0, 0⟩) (le_refl _) (by simp [zD, zProf]) (R := 1500/999999) (rad := zR)
    ⟨0, by simp [zD, zProf], by simp [zD, zProf], by simp [zD, zProf], by simp [zD, zProf, linAt]⟩
    ⟨0, by simp [zD, zProf], by simp [zD, zProf], by simp [zD, zProf], by simp [zD, zProf, linAt]⟩ (z_cap' hx)]
  simp only [InGlass, zD, show ((1:ℤ) ≤ 3) from by norm_num, if_true, not_lt]
  rw [show x ^ 2 + 0 ^ 2 = x ^ 2 by ring, Real.sqrt_sq_eq_abs]
  exact hx

theorem between_lt {v x m r : ℝ} (h0 : 0 ≤ v) (h3 : v ≤ 3) (h1 : -r < x) (h2 : -r < x + 3 * m) : -r < x + v * m := by
  rcases le_total 0 m with h | h
  · nlinarith [mul_nonneg h0 h]
  · nlinarith [mul_nonneg (sub_nonneg.mpr h3) (neg_nonneg.mpr h)]

/-- a photon that does not meet the wall: return value 1, full weight -/
theorem z_through (leak : Bool) (fuel k : Nat) (P : Photon ℝ) (x : ℝ) (d : V3 ℝ) (hC : P.startC = ⟨x, 0, 0⟩) (hD : P.startD = d) (hu : dot d d = 1)
    (hy : d.y = 0) (hz : 0 < d.z) (hx0 : d.x ≠ 0) (hx : |x| < zR) (hx3 : |x + 3 * (d.x / d.z)| < zR) :
    ∃ P', launch zLib (some zD) leak fuel (k + 1) (some P) (some [10]) true = .ok (1, .filled [1], some P') ∧
      P'.startC = ⟨x, 0, 0⟩ ∧ P'.startD = d ∧ P'.exitC = ⟨x, 0, 0⟩ ∧ P'.exitD = d ∧ P'.i_refl = 0 ∧ P'.ext = [] ∧ P'.int = [] := by
  have hv : vnorm d = d := vnorm_unit _ hu
  have hR : (0:ℝ) < zR := by norm_num [zR]
  have hb : ¬ ArgsBad (some zD) (some P) (some [(10:ℝ)]) true :=
    not_argsBad (by simp) (by intro e he; simp at he; subst he; norm_num)
  obtain ⟨D', P'', es', e1, e2, e3, -, -, -, h'⟩ := launch_valid zLib (some zD) leak fuel (k + 1) (some P) (some [(10:ℝ)]) true hb
  injection e1 with e1; injection e2 with e2; injection e3 with e3; subst e1 e2 e3
  rw [h']
  obtain ⟨c1, c2⟩ := z_chan P
  generalize hI : launchInit zLib zD [10] P = Q at c1 c2
  have q1 : Q.startC = ⟨x, 0, 0⟩ := by rw [← hI]; exact hC
  have q2 : Q.startD = d := by rw [← hI]; show vnorm _ = _; rw [hD, hv]
  have q3 : Q.exitC = ⟨x, 0, 0⟩ := by rw [← hI]; exact hC
  have q4 : Q.exitD = d := by rw [← hI]; show vnorm (vnorm _) = _; rw [hD, hv, hv]
  have q5 : Q.i_refl = 0 := by rw [← hI]; rfl
  have q7 : Q.ext = [] := by rw [← hI]; rfl
  have q8 : Q.int = [] := by rw [← hI]; rfl
  unfold launchBody
  simp only [hI, q1, z_cap' hx.le, z_open' hx.le, Bool.false_eq_true, if_false]
  unfold launchInside
  have hix : segIdFrom zD.prof.z 0 Q.startC.z (zD.prof.nmax + 1) = 0 := by
    apply segId_zero _ _ _ 1
    · rw [q1]; simp [zD, zProf]
    · intro i h1 h2
      have : i = 1 := by omega
      subst this; rw [q1]; simp [zD, zProf]
  rw [hix, show zD.prof.nmax + 1 = 2 from rfl]
  have hm : ∀ R : Photon ℝ, R.exitC = ⟨x, 0, 0⟩ → R.exitD = d →
      traceSearch zD (axX zD (0, 0)) (axY zD (0, 0)) R 1 0 R.exitC ⟨lit 0, lit 0, lit 0⟩ = .miss := by
    intro R h1 h2
    have hbd : withinPcBoundary (1500/999999 : ℝ) 0 0 = 1 := boundary_axis (by norm_num)
    apply traceSearch_miss
    · rw [zX, zY, show zD.prof.ext 0 = 1500/999999 from rfl, hbd]; decide
    · rw [zX, zY, show zD.prof.ext (0 + 1) = 1500/999999 from rfl, hbd]; decide
    · intro hs
      generalize hseg : segment (axisPt zD (axX zD (0, 0)) (axY zD (0, 0)) 0) (axisPt zD (axX zD (0, 0)) (axY zD (0, 0)) (0 + 1))
        (zD.prof.cap 0) (zD.prof.cap (0 + 1)) (atGrid zD.prof R.exitC R.exitD 0) (atGrid zD.prof R.exitC R.exitD (0 + 1)) R.exitD R.exitC
        ⟨lit 0, lit 0, lit 0⟩ = s at hs
      obtain ⟨s1, v, n⟩ := s
      simp only at hs
      subst hs
      have hg : genCoeff (axisPt zD (axX zD (0, 0)) (axY zD (0, 0)) 0) (axisPt zD (axX zD (0, 0)) (axY zD (0, 0)) (0 + 1))
          (zD.prof.cap 0) (zD.prof.cap (0 + 1)) R.exitD ≠ 0 := by
        simp only [genCoeff, axisPt, zX, zY, h2]
        simp only [zD, zProf, sub_self, zero_div, sub_zero, hy]
        have : d.x / d.z ≠ 0 := div_ne_zero hx0 hz.ne'
        have : 0 < (d.x / d.z) ^ 2 := by positivity
        norm_num
        exact ⟨hx0, hz.ne'⟩
      obtain ⟨l, -, z0, z1, -, w, -⟩ := segment_sound _ _ _ _ _ _ _ _ _ _ _ (by rw [h2]; exact hz) hg hseg
      rw [l] at w
      simp only [OnWall, axisPt, zX, zY, lineAt, atGrid_eq, h1, h2, linAt, hy] at w
      simp only [zD, zProf] at w
      simp only [axisPt, zD, zProf] at z0 z1
      norm_num at w z0 z1
      have hw : (x + v.z * (d.x / d.z)) ^ 2 = zR ^ 2 := by
        rw [← w]; ring
      obtain ⟨a1, a2⟩ := abs_lt.mp hx
      obtain ⟨b1, b2⟩ := abs_lt.mp hx3
      have l1 := between_lt z0 z1 a1 b1
      have l2 := between_lt z0 z1 (x := -x) (m := -(d.x / d.z)) (r := zR) (by linarith) (by linarith)
      nlinarith
    · rw [atGrid_eq, h1, h2]
      simp only [zD, zProf, hy, Nat.cast_zero, mul_zero, sub_zero, zero_div, add_zero, zero_mul]
      rw [boundary_contains_disc _ _ _ (by norm_num) (by
        obtain ⟨a1, a2⟩ := abs_lt.mp hx
        have : x ^ 2 ≤ zR ^ 2 := by nlinarith
        have h9 : zR ^ 2 ≤ 3 / 4 * (1500 / 999999) ^ 2 := by norm_num [zR]
        nlinarith)]
      decide
  have htr : trace zD leak fuel (k + 1) (axX zD (0, 0)) (axY zD (0, 0)) 0 Q = .ok (-2, 0, { Q with exitD := d, startD := vnorm Q.startD }) := by
    unfold trace capilTrace
    simp only [q4, hv]
    rw [show zD.prof.nmax - 0 = 1 from rfl]
    rw [hm { Q with exitD := d, startD := vnorm Q.startD } q3 rfl]
  simp only [traceLoop, htr, Out.bind_ok]
  rw [if_pos (by decide : (-2:Int) ≠ 1)]
  simp only [Out.bind_ok]
  rw [if_neg (by decide), if_neg (by decide)]
  refine ⟨finish { Q with exitD := d, startD := vnorm Q.startD }, ?_, q1, ?_, q3, rfl, q5, ?_, ?_⟩
  · simp [c1]
  · show vnorm Q.startD = d
    rw [q2, hv]
  · simp [finish, q7]
  · simp [finish, q8]

/-! ## The source and its photons -/

noncomputable def zSrc : Src ℝ := ⟨1/10, 1, 1, 2 * zR, 1, -(zR / 5), 0, 0, [10]⟩

/-- numbers drawn by the thread's generator -/
noncomputable def zU (n : Nat) : ℝ := if n = 9 then 9/20 else if n = 4 ∨ n = 10 then 1/2 else 0

theorem z_photon (u : Nat → ℝ) (fuel n : Nat) (w : ℝ) (h2 : u (n + 2) = 0) (h3 : u (n + 3) = w) (hw : 0 ≤ w) (h4 : u (n + 4) = 1/2) :
    ∃ x, getPhoton zSrc zD u fuel n = .ok (x, n + 6) ∧
      x.photon.startC = ⟨-(zR / 5) + 2 * zR * (1 - 2 * w) * (1/10), 0, 0⟩ ∧ x.photon.startD = vnorm ⟨2 * zR * (1 - 2 * w), 0, 1⟩ := by
  have hsx : ((zSrc.src_sigx <. lit 0 || zSrc.src_sigy <. lit 0) : Bool) = false := by
    simp only [zSrc, real_lt, real_lit]; norm_num [zR]
  have e1 : ((1:ℚ):ℝ) = 1 := by norm_num
  have e2 : ((2:ℚ):ℝ) = 2 := by norm_num
  have e0 : ((0:ℚ):ℝ) = 0 := by norm_num
  have hp : srcPoint zSrc (u n) (u (n + 1)) (u (n + 2)) = ⟨-(zR / 5), 0, 0⟩ := by
    simp only [srcPoint, h2, real_sqrt, Real.sqrt_zero, real_mul, real_add, zero_mul, zero_add, zSrc, real_lit, e0]
  unfold getPhoton
  simp only [hp]
  unfold srcAim
  rw [if_neg (by rw [hsx]; simp)]
  simp only [Out.bind_ok, h3, show n + 3 + 1 = n + 4 from rfl, h4, real_fabs, real_mul, real_sub, real_add, real_div, real_lit, e1, e2, e0, abs_of_nonneg hw]
  have hn := vnorm_facts (⟨2 * zR * (1 - 2 * w), 0, 1⟩ : V3 ℝ) (by norm_num)
  obtain ⟨-, -, -, -, -, hz, -⟩ := hn
  have hd : (⟨zSrc.src_sigx * (1 - 2 * w), zSrc.src_sigy * (1 - 2 * |1/2|), 1⟩ : V3 ℝ) = ⟨2 * zR * (1 - 2 * w), 0, 1⟩ := by
    simp only [zSrc, V3.mk.injEq, and_true, true_and]; norm_num
  rw [hd]
  unfold photonNew
  rw [if_neg (by simp), if_neg (by simp only [real_lt, real_lit, e0, decide_eq_true_eq, not_lt]; exact hz.le)]
  refine ⟨_, rfl, ?_, rfl⟩
  simp only [zSrc, V3.mk.injEq, and_true]
  constructor
  · ring
  · norm_num

/-- the first photon -/
theorem z_first (fuel : Nat) : ∃ a, attempt zLib zSrc zD false fuel 1 zU 0 = .ok (a, 6) ∧ a.code = 1 ∧ simCode zD a = 0 ∧ a.wts = .filled [1] := by
  obtain ⟨x, hx, c, d⟩ := z_photon zU fuel 0 0 (by simp [zU]) (by simp [zU]) (le_refl _) (by simp [zU])
  have hd : vnorm (⟨2 * zR * (1 - 2 * 0), 0, 1⟩ : V3 ℝ) = ⟨zs, 0, zc⟩ := by
    obtain ⟨s, s0, hs, h1⟩ := vnorm_scale (⟨2 * zR * (1 - 2 * 0), 0, 1⟩ : V3 ℝ) (by norm_num)
    have : s = zc := by
      have hzc : (0:ℝ) < zc := by norm_num [zc]
      have h2 : s ^ 2 = zc ^ 2 := by
        simp only [zR] at h1
        have : zc ^ 2 * ((2 * (1000 / 999999) * (1 - 2 * 0)) ^ 2 + (0:ℝ) ^ 2 + 1 ^ 2) = 1 := by norm_num [zc]
        have hne : ((2 * (1000 / 999999) * (1 - 2 * 0)) ^ 2 + (0:ℝ) ^ 2 + 1 ^ 2) ≠ 0 := by norm_num
        exact mul_right_cancel₀ hne (h1.trans this.symm)
      exact (sq_eq_sq₀ s0.le hzc.le).mp h2
    rw [hs, this]
    simp only [V3.mk.injEq]
    norm_num [zc, zs, zR]
  obtain ⟨P', hl, a1, a2, a3, a4, a5, a6⟩ := z_launch fuel 0 x.photon (by rw [c]; simp only [V3.mk.injEq, and_true]; ring) (by rw [d, hd])
  refine ⟨⟨1, x.src, P', .filled [1]⟩, ?_, rfl, ?_, rfl⟩
  · unfold attempt
    rw [hx]
    simp only [Out.bind_ok]
    rw [show zSrc.energies = [10] from rfl, hl]
    rfl
  · unfold simCode
    simp only [if_true]
    rw [if_pos (show nShells (α := ℝ) zD.n_cap = 0 from nShells_one), if_pos]
    simp only [exitAt, a3, a4, real_add, real_mul, real_div, real_sub, real_sqrt, gt, real_lt, decide_eq_true_eq]
    simp only [zD, zProf]
    refine Real.lt_sqrt_of_sq_lt ?_
    norm_num [zR, zs, zc]

/-- a photon that comes through -/
theorem z_passes (u : Nat → ℝ) (fuel n : Nat) (h2 : u (n + 2) = 0) (h3 : u (n + 3) = 9/20) (h4 : u (n + 4) = 1/2) :
    ∃ a, attempt zLib zSrc zD false fuel 1 u n = .ok (a, n + 6) ∧ a.code = 1 ∧ simCode zD a = 1 ∧ a.wts = .filled [1] := by
  obtain ⟨x, hx, c, d⟩ := z_photon u fuel n (9/20) h2 h3 (by norm_num) h4
  obtain ⟨k, k0, kx, ky, kz, dz, du⟩ := vnorm_facts (⟨2 * zR * (1 - 2 * (9/20)), 0, 1⟩ : V3 ℝ) (by norm_num)
  rw [← d] at kx ky kz dz du
  simp only at kx ky kz
  have hR : (0:ℝ) < zR := by norm_num [zR]
  have hy : x.photon.startD.y = 0 := by
    rcases mul_eq_zero.mp ky.symm with h | h
    · exact absurd h k0.ne'
    · exact h
  have hq : x.photon.startD.x / x.photon.startD.z = zR / 5 := by
    rw [div_eq_iff dz.ne']
    have : k * x.photon.startD.x = k * (zR / 5 * x.photon.startD.z) := by rw [← kx, show k * (zR / 5 * x.photon.startD.z) = zR / 5 * (k * x.photon.startD.z) by ring, ← kz]; ring
    exact mul_left_cancel₀ k0.ne' this
  have hx0 : x.photon.startD.x ≠ 0 := by
    intro h; rw [h, zero_div] at hq; linarith
  have hc : x.photon.startC = ⟨-(9 / 50 * zR), 0, 0⟩ := by rw [c]; simp only [V3.mk.injEq, and_true]; ring
  obtain ⟨P', hl, a1, a2, a3, a4, a5, a6, a7⟩ := z_through false fuel 0 x.photon (-(9 / 50 * zR)) _ hc rfl du hy dz hx0
    (by rw [abs_lt]; constructor <;> linarith) (by rw [hq, abs_lt]; constructor <;> linarith)
  refine ⟨⟨1, x.src, P', .filled [1]⟩, ?_, rfl, ?_, rfl⟩
  · unfold attempt
    rw [hx]
    simp only [Out.bind_ok]
    rw [show zSrc.energies = [10] from rfl, hl]
    rfl
  · unfold simCode
    simp only [if_true]
    rw [if_pos (show nShells (α := ℝ) zD.n_cap = 0 from nShells_one), if_neg]
    simp only [exitAt, a3, a4, real_add, real_mul, real_div, real_sub, real_sqrt, gt, real_lt, decide_eq_true_eq, not_lt, hy]
    simp only [zD, zProf]
    rw [Real.sqrt_le_left (by norm_num)]
    have : x.photon.startD.x * (3 * ((1:ℕ):ℝ) - 0) / x.photon.startD.z = 3 * (zR / 5) := by rw [← hq]; push_cast; ring
    rw [this]
    norm_num [zR]

/-- the second photon -/
theorem z_second (fuel : Nat) : ∃ a, attempt zLib zSrc zD false fuel 1 zU 6 = .ok (a, 12) ∧ a.code = 1 ∧ simCode zD a = 1 ∧ a.wts = .filled [1] :=
  z_passes zU fuel 6 (by simp [zU]) (by simp [zU]) (by simp [zU])

/-! ## The run -/

noncomputable def zArgs : SimArgs ℝ := ⟨some (zSrc, some zD), false, 1, 1, false, false⟩

theorem z_setup : GoodSetup zLib zSrc zD where
  src := ⟨by norm_num [zSrc], by norm_num [zSrc], by norm_num [zSrc], by norm_num [zSrc]⟩
  grid := zGrid
  caps := by simp [zD]
  ext0 := by simp only [zD, zProf]; norm_num
  comp := z_scatf
  cs := by intro z e; simp [zLib]

theorem zU_unit (i : Nat) : 0 ≤ zU i ∧ zU i < 1 := by
  unfold zU; split_ifs <;> norm_num

/-- A simulation that returns, with all numbers given: two photons were launched and both entered the optic, one of them left it
outside the exit window; one photon is reported as started. -/
theorem z_simulation : ∃ r, SimOutcome zLib zArgs 1 none (some r) none ∧ r.iStart = 1 ∧ r.iExit = 1 ∧ r.effs = [1] ∧
    ∃ a b, Reports (simCfg zLib zSrc zD zArgs 1 (fun _ => zU) 1 1) [(0, a), (0, b)] r ∧
      attempt zLib zSrc zD false 1 1 zU 0 = .ok (a, 6) ∧ a.code = 1 ∧ attempt zLib zSrc zD false 1 1 zU 6 = .ok (b, 12) ∧ b.code = 1 := by
  obtain ⟨a, ha, a1, a2, a3⟩ := z_first 1
  obtain ⟨b, hb, b1, b2, b3⟩ := z_second 1
  let C := simCfg zLib zSrc zD zArgs 1 (fun _ => zU) 1 1
  let asg : Nat → List Nat := fun t => if t = 0 then [0] else []
  have hT : C.T = 1 := rfl
  have hn : C.n = 1 := rfl
  have hrej : simRejects zArgs = false := by
    simp [simRejects, zArgs, zSrc, energyBad, gt]
    norm_num
  have hd : Distributes C asg := by unfold Distributes; rw [hT, hn]; decide
  have ho : SimOk C asg := simulation_safe_noleak zLib zSrc zD z_setup zArgs rfl 1 (fun _ => zU) (fun _ i => ⟨(zU_unit i).1, (zU_unit i).2.le⟩) 1 0
    asg hd (by decide) (harmless_single (by simp [asg]))
  have hrun : ThreadRun C.D (C.att 0) (asg 0) 0 [(0, a), (0, b)] 12 := by
    have : ThreadRun C.D (C.att 0) [0] 0 ([a, b].map (fun x => (0, x)) ++ []) 12 := by
      refine .cons (.retry (p1 := 6) ha ?_ (.last hb b2)) (.nil _)
      rw [show C.D = zD from rfl, a2]; decide
    exact this
  obtain ⟨k, s, hr, hf⟩ := (simulation_finishes_iff hd ho).2 (by
    intro t ht
    have : t = 0 := by omega
    subst this
    exact ⟨_, _, hrun⟩)
  have hh : (s.thr 0).hist = [(0, a), (0, b)] := by
    obtain ⟨p, h⟩ := (final_of_finished hr hf).runs 0 (by omega)
    exact (h.det hrun).1
  have R := simulation_reports hd hr hf [10]
  have hH : allHist C (fun t => (s.thr t).hist) = [(0, a), (0, b)] := by
    unfold allHist; rw [hT]; simp [hh]
  rw [hH] at R
  have hs : (results C [10] s).iStart = 1 := by
    rw [R.iStart, hn]; simp [a1, b1]
  have hw := efficiencies_formula hd (by omega) hr hf [10]
  refine ⟨results C [10] s, .ran hrej zSrc zD rfl (fun _ => zU) ?_ 1 1 asg hd k s hr hf, hs, by rw [R.iExit, hn], ?_, a, b, R, ha, a1, hb, b1⟩
  · intro t i
    simp only [real_le, real_lt, real_lit, decide_eq_true_eq]
    push_cast
    exact zU_unit i
  · obtain ⟨w1, w2⟩ := hw
    have hne : C.ne = 1 := rfl
    rw [hne] at w1 w2
    obtain ⟨e, he⟩ := List.length_eq_one_iff.mp w1
    have := w2 0 (by omega)
    rw [he, hn, hs] at this
    obtain ⟨c, c1, c2, -, -, -, -, c7⟩ := R.slot 0 (by omega)
    have hcb : c = b := by
      simp only [List.mem_cons, List.not_mem_nil, or_false, Prod.mk.injEq, true_and] at c1
      rcases c1 with rfl | rfl
      · rw [show C.D = zD from rfl, a2] at c2; cases c2
      · rfl
    have h0 := c7 0 (by rw [hne]; omega)
    rw [hcb, show wtsOf C.ne b = [1] by unfold wtsOf; rw [b3]; rfl] at h0
    rw [hne] at h0
    simp [h0] at this
    rw [he, this]

/-- **C36**, what holds: the reported number of started photons is the number of photons that reached the optic, except those
that were transmitted but extrapolate to a point outside the exit window. -/
theorem started_count_partial {α : Type} [CNum α] (lib : Xray α) (a : SimArgs α) (omp : Int) (e : EArg) (r : TE α) (e' : EArg)
    (h : SimOutcome lib a omp e (some r) e') :
    ∃ (S : Src α) (D : Descr α) (u : Nat → Nat → α) (fuel k : Nat) (H : List (Nat × Attempt α)),
      a.source = some (S, some D) ∧ Reports (simCfg lib S D a omp u fuel k) H r ∧
      r.iStart + H.countP (fun x => decide (x.2.code = 1 ∧ simCode D x.2 ≠ 1)) =
        H.countP (fun x => decide (x.2.code = 0 ∨ x.2.code = 1 ∨ x.2.code = 2)) ∧
      (∀ x ∈ H, ∃ t < (threadsUsed a.maxThreads omp).toNat, ∃ q q', attempt lib S D a.leak fuel k (u t) q = .ok (x.2, q')) := by
  obtain ⟨S, D, u, fuel, k, H, h1, -, R, -, h3⟩ := outcome_reports lib a omp e r e' h
  refine ⟨S, D, u, fuel, k, H, h1, R, ?_, h3⟩
  have hx : (exitsOf D H).length = (simCfg lib S D a omp u fuel k).n := by
    have := R.slots.length_eq
    rw [List.length_map, List.length_range] at this
    exact this
  rw [R.iStart, ← hx]
  have hc : ∀ x : Attempt α, simCode D x = 1 → x.code = 1 := by
    intro x hx
    unfold simCode at hx
    split at hx
    · assumption
    · assumption
  unfold exitsOf
  rw [← List.countP_eq_length_filter]
  clear R hx h3 h1
  induction H with
  | nil => rfl
  | cons x xs ih =>
    simp only [List.countP_cons]
    have := hc x.2
    generalize List.countP (fun x => decide (simCode D x.2 = 1)) xs = n1 at ih ⊢
    generalize List.countP (fun x => decide (x.2.code = 2)) xs = n2 at ih ⊢
    generalize List.countP (fun x => decide (x.2.code = 0)) xs = n3 at ih ⊢
    generalize List.countP (fun x => decide (x.2.code = 1 ∧ simCode D x.2 ≠ 1)) xs = n4 at ih ⊢
    generalize List.countP (fun x => decide (x.2.code = 0 ∨ x.2.code = 1 ∨ x.2.code = 2)) xs = n5 at ih ⊢
    by_cases c1 : x.2.code = 1
    · by_cases c2 : simCode D x.2 = 1 <;> simp [c1, c2] <;> omega
    · have c2 : simCode D x.2 ≠ 1 := fun h => c1 (this h)
      by_cases c3 : x.2.code = 0
      · simp [c2, c3]; omega
      · by_cases c4 : x.2.code = 2
        · simp [c2, c4]; omega
        · simp [c1, c2, c3, c4]; omega

/-- **C36** is false of the code. -/
theorem started_count_false : ∃ r, SimOutcome zLib zArgs 1 none (some r) none ∧
    ∃ H, Reports (simCfg zLib zSrc zD zArgs 1 (fun _ => zU) 1 1) H r ∧
      (∀ x ∈ H, ∃ q q', attempt zLib zSrc zD false 1 1 zU q = .ok (x.2, q')) ∧
      r.iStart < H.countP (fun x => decide (x.2.code = 0 ∨ x.2.code = 1 ∨ x.2.code = 2)) := by
  obtain ⟨r, h, h1, -, -, a, b, R, ha, a1, hb, b1⟩ := z_simulation
  refine ⟨r, h, _, R, ?_, ?_⟩
  · intro x hx
    simp only [List.mem_cons, List.not_mem_nil, or_false] at hx
    rcases hx with rfl | rfl
    · exact ⟨_, _, ha⟩
    · exact ⟨_, _, hb⟩
  · rw [h1]; simp [a1, b1]

end Polycap
