import Verif.Props.SimLeakOff
import Verif.Props.Discard
import Verif.Props.ClearThrough

/-!
# C95: two simulations with all numbers given

`leak_example`: one photon, two reflections, two leaks; without leaks the results are the same.  `simulation_leak_visible`: the photon that
meets the wall exactly at the exit is reported without leaks, and replaced by another photon with leaks.
-/
namespace Polycap
open CNum
namespace LeakSim
open Tube

/-! ## One thread, one photon -/

theorem reach_mono {α : Type} [CNum α] {C : Cfg α} {att' : Nat → Nat → Out (Attempt α × Nat)} (hm : ∀ t p x, att' t p = .ok x → C.att t p = .ok x)
    {asg : Nat → List Nat} {n : Nat} {s : St α} (h : Reach { C with att := att' } asg n s) : Reach C asg n s := by
  induction h with
  | start => exact .start
  | @step k s t s' h ht hstep ih =>
    refine .step ih ht ?_
    rw [← hstep]
    unfold tstep
    simp only
    split <;> try rfl
    rename_i j rest hpc
    unfold tstep at hstep
    simp only [hpc] at hstep
    generalize he : att' t (s.thr t).pos = o at hstep ⊢
    cases o with
    | ub => cases hstep
    | fuel => cases hstep
    | ok x => rw [hm _ _ _ he]; rfl

/-- the only slot goes to the only thread -/
def asg1 : Nat → List Nat := fun t => if t = 0 then [0] else []

theorem finish_known {C : Cfg ℝ} (hT : C.T = 1) (hn : C.n = 1) {att' : Nat → Nat → Out (Attempt ℝ × Nat)} (hm : ∀ t p x, att' t p = .ok x → C.att t p = .ok x)
    (hub : ∀ p, att' 0 p ≠ .ub) (hok : ∀ p a q, att' 0 p = .ok (a, q) → AttOk C a) {H : List (Nat × Attempt ℝ)} {q : Nat}
    (hrun : ThreadRun C.D (att' 0) [0] 0 H q) : Distributes C asg1 ∧ ∃ k s, Reach C asg1 k s ∧ s.finished C ∧ (s.thr 0).hist = H := by
  have hd : Distributes C asg1 := by unfold Distributes; rw [hT, hn]; decide
  have ho : SimOk { C with att := att' } asg1 := by
    refine simOk_of_harmless hd (show 0 < C.T by omega) ?_ ?_ (harmless_single (by simp [asg1]))
    · intro t ht
      have : t = 0 := by have : t < C.T := ht; omega
      subst this; exact hub
    · intro t ht p a q h
      have : t = 0 := by have : t < C.T := ht; omega
      subst this
      obtain ⟨h1, h2, h3, h4, h5, h6⟩ := hok p a q h
      exact ⟨h1, h2, h3, h4, h5, h6⟩
  obtain ⟨k, s, hr, hf⟩ := (simulation_finishes_iff (C := { C with att := att' }) hd ho).2 (by
    intro t ht
    have : t = 0 := by have : t < C.T := ht; omega
    subst this
    exact ⟨_, _, hrun⟩)
  refine ⟨hd, k, s, reach_mono hm hr, hf, ?_⟩
  obtain ⟨p, h⟩ := (final_of_finished hr hf).runs 0 (show 0 < C.T by omega)
  exact (h.det hrun).1

/-! ## The photons of `zSrc` -/

theorem aim (D : Descr ℝ) (u : Nat → ℝ) (fuel n : Nat) (w : ℝ) (h2 : u (n + 2) = 0) (h3 : u (n + 3) = w) (hw : 0 ≤ w) (h4 : u (n + 4) = 1/2) :
    ∃ x, getPhoton zSrc D u fuel n = .ok (x, n + 6) ∧
      x.photon.startC = ⟨-(zR / 5) + 2 * zR * (1 - 2 * w) * (1/10), 0, 0⟩ ∧ x.photon.startD = vnorm ⟨2 * zR * (1 - 2 * w), 0, 1⟩ := by
  have hsx : ((zSrc.src_sigx <. lit 0 || zSrc.src_sigy <. lit 0) : Bool) = false := by
    simp only [zSrc, real_lt, real_lit]; norm_num [zR]
  have e1 : ((1:ℚ):ℝ) = 1 := by norm_num
  have e2 : ((2:ℚ):ℝ) = 2 := by norm_num
  have e0 : ((0:ℚ):ℝ) = 0 := by norm_num
  have hp : srcPoint zSrc (u n) (u (n + 1)) (u (n + 2)) = ⟨-(zR / 5), 0, 0⟩ := by
    simp only [srcPoint, h2, real_sqrt, Real.sqrt_zero, real_mul, real_add, zero_mul, zero_add, zSrc, real_lit, e0]
  unfold getPhoton
  simp only [hp]
  unfold srcAim
  rw [if_neg (by rw [hsx]; simp)]
  simp only [Out.bind_ok, h3, show n + 3 + 1 = n + 4 from rfl, h4, real_fabs, real_mul, real_sub, real_add, real_div, real_lit, e1, e2, e0, abs_of_nonneg hw]
  have hn := vnorm_facts (⟨2 * zR * (1 - 2 * w), 0, 1⟩ : V3 ℝ) (by norm_num)
  obtain ⟨-, -, -, -, -, hz, -⟩ := hn
  have hd : (⟨zSrc.src_sigx * (1 - 2 * w), zSrc.src_sigy * (1 - 2 * |1/2|), 1⟩ : V3 ℝ) = ⟨2 * zR * (1 - 2 * w), 0, 1⟩ := by
    simp only [zSrc, V3.mk.injEq, and_true, true_and]; norm_num
  rw [hd]
  unfold photonNew
  rw [if_neg (by simp), if_neg (by simp only [real_lt, real_lit, e0, decide_eq_true_eq, not_lt]; exact hz.le)]
  refine ⟨_, rfl, ?_, rfl⟩
  simp only [zSrc, V3.mk.injEq, and_true]
  constructor
  · ring
  · norm_num

/-- with `w = 0`: from the middle of the entrance, in the direction of the examples -/
theorem aim_centre (D : Descr ℝ) (u : Nat → ℝ) (fuel n : Nat) (h2 : u (n + 2) = 0) (h3 : u (n + 3) = 0) (h4 : u (n + 4) = 1/2) :
    ∃ x, getPhoton zSrc D u fuel n = .ok (x, n + 6) ∧ Centre x.photon := by
  obtain ⟨x, hx, c, d⟩ := aim D u fuel n 0 h2 h3 (le_refl _) h4
  have hd : vnorm (⟨2 * zR * (1 - 2 * 0), 0, 1⟩ : V3 ℝ) = ⟨zs, 0, zc⟩ := by
    obtain ⟨s, s0, hs, h1⟩ := vnorm_scale (⟨2 * zR * (1 - 2 * 0), 0, 1⟩ : V3 ℝ) (by norm_num)
    have : s = zc := by
      have hzc : (0:ℝ) < zc := by norm_num [zc]
      have h2 : s ^ 2 = zc ^ 2 := by
        simp only [zR] at h1
        have : zc ^ 2 * ((2 * (1000 / 999999) * (1 - 2 * 0)) ^ 2 + (0:ℝ) ^ 2 + 1 ^ 2) = 1 := by norm_num [zc]
        have hne : ((2 * (1000 / 999999) * (1 - 2 * 0)) ^ 2 + (0:ℝ) ^ 2 + 1 ^ 2) ≠ 0 := by norm_num
        exact mul_right_cancel₀ hne (h1.trans this.symm)
      exact (sq_eq_sq₀ s0.le hzc.le).mp h2
    rw [hs, this]
    simp only [V3.mk.injEq]
    norm_num [zc, zs, zR]
  refine ⟨x, hx, ?_, by rw [d, hd]⟩
  rw [c]; simp only [V3.mk.injEq, and_true]; ring

/-! ## A simulation with leaks -/

/-- one thread, one photon, with leaks -/
noncomputable def wArgs (leak : Bool) (D : Descr ℝ) : SimArgs ℝ := ⟨some (zSrc, some D), false, 1, 1, leak, false⟩

theorem w_rejects (leak : Bool) (D : Descr ℝ) : simRejects (wArgs leak D) = false := by
  simp [simRejects, wArgs, zSrc, energyBad, gt]
  norm_num

theorem good_setup (D : Descr ℝ) (g : Grid D.prof) (hn : 1 ≤ D.n_cap) (h0 : 0 < D.prof.ext 0) (hs : scatfRejects D [10] = false) : GoodSetup zLib zSrc D where
  src := ⟨by norm_num [zSrc], by norm_num [zSrc], by norm_num [zSrc], by norm_num [zSrc]⟩
  grid := g
  caps := hn
  ext0 := h0
  comp := hs
  cs := by intro z e; simp [zLib]

/-- numbers drawn by the generator -/
noncomputable def wU (n : Nat) : ℝ := if n = 9 then 9/20 else if n = 4 ∨ n = 10 then 1/2 else 0

theorem wU_unit (i : Nat) : 0 ≤ wU i ∧ wU i < 1 := by
  unfold wU; split_ifs <;> norm_num

theorem wU_ok : ∀ (_ i : Nat), ((lit 0 : ℝ) <=. wU i) = true ∧ (wU i <. lit 1) = true := by
  intro _ i
  simp only [real_le, real_lt, real_lit, decide_eq_true_eq]
  push_cast
  exact wU_unit i

open WideTube in
/-- the photon of the example: two reflections, two leaks, leaves through the exit window -/
theorem w_attempt (leak : Bool) (fuel : Nat) : ∃ a, attempt zLib zSrc wD leak fuel 1 wU 0 = .ok (a, 6) ∧ a.code = 1 ∧ simCode wD a = 1 ∧
    a.wts = .filled [ro * ro] ∧ a.ph.i_refl = 2 ∧ a.ph.int.length = if leak then 2 else 0 := by
  obtain ⟨x, hx, c, d⟩ := aim_centre wD wU fuel 0 (by simp [wU]) (by simp [wU]) (by simp [wU])
  obtain ⟨P', hl, a1, a2, a3, a4⟩ := w_launch leak fuel 0 x.photon c d
  refine ⟨⟨1, x.src, P', .filled [ro * ro]⟩, ?_, rfl, ?_, rfl, a1, a2⟩
  · unfold attempt
    rw [hx]
    simp only [Out.bind_ok]
    rw [show zSrc.energies = [10] from rfl, hl]
    rfl
  · unfold simCode
    simp only [if_true]
    rw [if_pos (show nShells (α := ℝ) wD.n_cap = 0 from nShells_one), if_neg]
    simp only [exitAt, a3, a4, real_add, real_mul, real_div, real_sub, real_sqrt, gt, real_lt, decide_eq_true_eq, not_lt]
    simp only [wD, wProf]
    rw [Real.sqrt_le_left (by norm_num)]
    norm_num [zR, zs, zc]

open WideTube in
/-- **C95**, an instance: a simulation with leaks that reports two leaks of one photon, and the same simulation without leaks. -/
theorem leak_example : ∃ r, SimOutcome zLib (wArgs true wD) 1 none (some r) none ∧ r.iInt = 2 ∧ (∃ x, r.exit 0 = some x ∧ x.n_refl = 2) ∧
    r.exitW 0 = some (ro * ro) ∧ SimOutcome zLib (wArgs false wD) 1 none (some r.noLeaks) none := by
  obtain ⟨a, ha, a1, a2, a3, a4, a5⟩ := w_attempt true 0
  have G := good_setup wD wGrid (by simp [wD]) (by simp only [wD, wProf]; norm_num) w_scatf
  let C := simCfg zLib zSrc wD (wArgs true wD) 1 (fun _ => wU) 0 1
  have hu : ∀ (t i : Nat), 0 ≤ wU i ∧ wU i ≤ 1 := fun _ i => ⟨(wU_unit i).1, (wU_unit i).2.le⟩
  obtain ⟨hd, k, s, hr, hf, hh⟩ := finish_known (C := C) rfl rfl (att' := fun t p => if t = 0 ∧ p = 0 then .ok (a, 6) else .fuel)
    (by
      intro t p x h
      split at h
      · rename_i h0
        rw [← h, h0.2]; exact ha
      · cases h)
    (by intro p; simp only; split <;> simp)
    (by
      intro p b q h
      simp only at h
      split at h
      · injection h with h; injection h with h1 h2; subst h1
        exact attempt_attOk G (wArgs true wD) 1 (u := fun _ => wU) hu (t := 0) ha
      · cases h)
    (H := [(0, a)]) (q := 6) (.cons (.last (by simp) a2) (.nil _))
  have hT : C.T = 1 := rfl
  have hn : C.n = 1 := rfl
  have hne : C.ne = 1 := rfl
  have R := simulation_reports hd hr hf [10]
  have hH : allHist C (fun t => (s.thr t).hist) = [(0, a)] := by
    unfold allHist; rw [hT]; simp [hh]
  rw [hH] at R
  obtain ⟨n0, s0, r0, f0, e0⟩ := run_leak_invisible_partial zLib zSrc wD G (wArgs true wD) rfl 1 (fun _ => wU) hu 0 1 asg1 k s hr hf (by
    intro t ht x hx hc
    have : t = 0 := by have : t < C.T := ht; omega
    subst this
    rw [hh] at hx
    simp only [List.mem_singleton] at hx
    rw [hx, a1] at hc
    exact absurd hc (by decide))
  obtain ⟨c, c1, -, -, -, c5, -, c7⟩ := R.slot 0 (by omega)
  simp only [List.mem_singleton, Prod.mk.injEq, true_and] at c1
  subst c1
  refine ⟨results C [10] s, .ran (w_rejects true wD) zSrc wD rfl (fun _ => wU) wU_ok 0 1 asg1 hd k s hr hf, ?_, ⟨_, c5, a4⟩, ?_, ?_⟩
  · obtain ⟨ls, p, w⟩ := R.int
    rw [w.len, p.length_eq, if_pos (show C.leak = true from rfl)]
    simp only [intOf, List.flatMap_cons, List.flatMap_nil, List.append_nil]
    have : leaksCount C.D c = true := by
      unfold leaksCount; rw [show C.D = wD from rfl, a2]; rfl
    rw [this]
    simp [a5]
  · have := c7 0 (by omega)
    rw [hne, show wtsOf 1 c = [ro * ro] by unfold wtsOf; rw [a3]; rfl] at this
    simpa using this
  · have hs : (results C [10] s).noLeaks = _ := e0.symm
    rw [hs]
    exact .ran (w_rejects false wD) zSrc wD rfl (fun _ => wU) wU_ok 0 2 asg1 hd n0 s0 r0 f0

/-! ## A photon that meets the wall exactly at the exit -/

/-- a tube of 0.5 cm with a thick wall -/
noncomputable def rD : Descr ℝ := tD zR (1/2) (10000/999999)

theorem r_grid : Grid rD.prof := tGrid (by norm_num)
theorem r_scatf : scatfRejects rD [10] = false := t_scatf _ _ _

theorem r_launch (leak : Bool) (fuel k : Nat) (P : Photon ℝ) (hP : Centre P) :
    ∃ Q : Photon ℝ, Q.startC = ⟨0, 0, 0⟩ ∧ Q.startD = ⟨zs, 0, zc⟩ ∧ Q.exitC = ⟨0, 0, 0⟩ ∧ Q.exitD = ⟨zs, 0, zc⟩ ∧ Q.i_refl = 0 ∧
      Q.chans = [⟨10, 1, 0, 1/2⟩] ∧ Q.coef = true ∧
      launch zLib (some rD) leak fuel k (some P) (some [10]) true = (do
        let x ← traceLoop (trace rD leak fuel k (axX rD (0, 0)) (axY rD (0, 0))) 2 0 0 Q
        .ok (if x.1 = -1 ∨ x.1 = -3 then -1 else if x.1 = 0 then 0 else 1, .filled (x.2.2.chans.map (·.w)), some (finish x.2.2))) := by
  obtain ⟨hC, hD⟩ := hP
  have hL : (0:ℝ) < 1/2 := by norm_num
  have hX : (0:ℝ) < 10000/999999 := by norm_num
  have hr : 0 < zR := by norm_num [zR]
  have hu : vnorm (⟨zs, 0, zc⟩ : V3 ℝ) = ⟨zs, 0, zc⟩ := vnorm_unit _ (by unfold dot; nlinarith [zUnit])
  have hb : ¬ ArgsBad (some rD) (some P) (some [(10:ℝ)]) true :=
    not_argsBad (by simp) (by intro e he; simp at he; subst he; norm_num)
  obtain ⟨D', P'', es', e1, e2, e3, -, -, -, h'⟩ := launch_valid zLib (some rD) leak fuel k (some P) (some [(10:ℝ)]) true hb
  injection e1 with e1; injection e2 with e2; injection e3 with e3; subst e1 e2 e3
  obtain ⟨c1, c2⟩ := t_chan zR (1/2) (10000/999999) P
  change (launchInit zLib rD [10] P).chans = _ at c1
  change (launchInit zLib rD [10] P).coef = _ at c2
  refine ⟨launchInit zLib rD [10] P, hC, ?_, hC, ?_, rfl, c1, c2, ?_⟩
  · show vnorm _ = _; rw [hD, hu]
  · show vnorm (vnorm _) = _; rw [hD, hu, hu]
  rw [h']
  have q1 : (launchInit zLib rD [10] P).startC = ⟨0, 0, 0⟩ := hC
  unfold launchBody
  have k1 : launchCap rD ⟨0, 0, 0⟩ = some (0, 0) := t_cap hL hX
  have k2 : startsInWall rD (0, 0) ⟨0, 0, 0⟩ = false := t_open hr hL hX
  simp only [q1, k1, k2, Bool.false_eq_true, if_false]
  unfold launchInside
  have hix : segIdFrom rD.prof.z 0 (launchInit zLib rD [10] P).startC.z (rD.prof.nmax + 1) = 0 := by
    apply segId_zero _ _ _ 1
    · rw [q1]; simp [rD, tD]
    · intro i h1 h2
      have : i = 1 := by omega
      subst this; rw [q1]; simp [rD, tD]
  rw [hix, show rD.prof.nmax + 1 = 2 from rfl]
  simp only
  generalize traceLoop (trace rD leak fuel k (axX rD (0, 0)) (axY rD (0, 0))) 2 0 0 (launchInit zLib rD [10] P) = y
  cases y <;> rfl

/-- without leaks: mirrored at the rim and transmitted -/
theorem r_off (fuel k : Nat) (P : Photon ℝ) (hP : Centre P) :
    ∃ P', launch zLib (some rD) false fuel (k + 1) (some P) (some [10]) true = .ok (1, .filled [1], some P') ∧
      P'.exitC = ⟨zR, 0, 1/2⟩ ∧ P'.exitD = ⟨-zs, 0, zc⟩ ∧ P'.i_refl = 1 := by
  have hr : 0 < zR := by norm_num [zR]
  have hk : zs / zc = zR / (1/2) := by norm_num [zs, zc, zR]
  obtain ⟨Q, q1, q2, q3, q4, q5, c1, c2, hl⟩ := r_launch false fuel (k + 1) P hP
  rw [hl]
  obtain ⟨E1, t1⟩ := t_trace (r := zR) (h := 1/2) (L := 1/2) (X := 10000/999999) (e := 1) (z0 := 0) hr (by norm_num) (by norm_num) (by norm_num [zR])
    (by norm_num [zR]) hk (by norm_num) fuel k Q (by rw [q4, one_mul]) (by rw [q3]; simp) (by rw [q3]; norm_num)
    (by rw [q3]; norm_num) (by norm_num) (by norm_num) c1 c2
  change trace rD false fuel (k + 1) (axX rD (0, 0)) (axY rD (0, 0)) 0 Q = _ at t1
  simp only [traceLoop, t1, Out.bind_ok]
  rw [if_neg (by decide)]
  generalize hT : ({ Q with exitC := ⟨1 * zR, 0, 0 + 1/2⟩, exitD := ⟨(-1) * zs, 0, zc⟩, startD := vnorm Q.startD, exitE := E1, i_refl := Q.i_refl + 1, d_travel := Q.d_travel + gap ⟨1 * zR, 0, 0 + 1/2⟩ Q.exitC } : Photon ℝ) = T
  have a1 : T.exitC = ⟨1 * zR, 0, 0 + 1/2⟩ := by rw [← hT]
  have a2 : T.exitD = ⟨(-1) * zs, 0, zc⟩ := by rw [← hT]
  have a3 : T.i_refl = 1 := by rw [← hT]; simp [q5]
  have a4 : T.chans = [⟨10, 1, 0, 1/2⟩] := by rw [← hT]; exact c1
  have hu : vnorm (⟨(-1) * zs, 0, zc⟩ : V3 ℝ) = ⟨(-1) * zs, 0, zc⟩ := vnorm_unit _ (by unfold dot; nlinarith [zUnit])
  have hm : ∀ R : Photon ℝ, R.exitC = T.exitC → R.exitD = ⟨(-1) * zs, 0, zc⟩ →
      traceSearch rD (axX rD (0, 0)) (axY rD (0, 0)) R 1 0 R.exitC ⟨lit 0, lit 0, lit 0⟩ = .miss := by
    intro R r1 r2
    have hX0 : ∀ i, axX rD (0, 0) i = 0 := tX _ _ _
    have hY0 : ∀ i, axY rD (0, 0) i = 0 := tY _ _ _
    have hE : ∀ i, rD.prof.ext i = 10000/999999 := fun _ => rfl
    apply traceSearch_miss
    · rw [hX0, hY0, hE, boundary_axis (by norm_num)]; decide
    · rw [hX0, hY0, hE, boundary_axis (by norm_num)]; decide
    · intro h1
      generalize hs : segment (axisPt rD (axX rD (0, 0)) (axY rD (0, 0)) 0) (axisPt rD (axX rD (0, 0)) (axY rD (0, 0)) (0 + 1)) (rD.prof.cap 0) (rD.prof.cap (0 + 1))
        (atGrid rD.prof R.exitC R.exitD 0) (atGrid rD.prof R.exitC R.exitD (0 + 1)) R.exitD R.exitC ⟨lit 0, lit 0, lit 0⟩ = s at h1
      obtain ⟨s1, v, n⟩ := s
      simp only at h1
      subst h1
      obtain ⟨-, -, a, -, b, -⟩ := segment_success hs
      have hz : (axisPt rD (axX rD (0, 0)) (axY rD (0, 0)) (0 + 1)).z = 1/2 := by simp [axisPt, rD, tD]
      rw [hz] at a
      rw [r1, a1] at b
      simp only at b
      have : (0:ℝ) < 1 / 10 ^ 5 := by norm_num
      linarith
    · have := t_at (r := zR) (h := 1/2) (L := 1/2) (X := 10000/999999) (e := -1) (z0 := 1) hk R r2 (by rw [r1, a1]; simp only [V3.mk.injEq, and_true]; ring) 0
      change atGrid rD.prof R.exitC R.exitD 0 = _ at this
      rw [this, hE, WideTube.boundary_line]
      · decide
      · norm_num [zR, abs_of_pos]
  have ht : trace rD false fuel (k + 1) (axX rD (0, 0)) (axY rD (0, 0)) 0 T = .ok (-2, 0, { T with exitD := ⟨(-1) * zs, 0, zc⟩, startD := vnorm T.startD }) := by
    unfold trace capilTrace
    simp only [a2, hu]
    rw [show rD.prof.nmax - 0 = 1 from rfl, hm { T with exitD := ⟨(-1) * zs, 0, zc⟩, startD := vnorm T.startD } rfl rfl]
  simp only [ht, Out.bind_ok]
  rw [if_pos (by decide)]
  simp only [Out.bind_ok]
  rw [if_neg (by decide), if_neg (by decide)]
  refine ⟨finish { T with exitD := ⟨(-1) * zs, 0, zc⟩, startD := vnorm T.startD }, ?_, ?_, ?_, a3⟩
  · rw [a4]; rfl
  · show T.exitC = _
    rw [a1]; norm_num
  · show (⟨(-1) * zs, 0, zc⟩ : V3 ℝ) = _
    simp

/-- with leaks: lost -/
theorem r_on (fuel k : Nat) (P : Photon ℝ) (hP : Centre P) :
    ∃ ws P', launch zLib (some rD) true fuel (k + 1) (some P) (some [10]) true = .ok (-1, .filled ws, some P') := by
  have hr : 0 < zR := by norm_num [zR]
  have hk : zs / zc = zR / (1/2) := by norm_num [zs, zc, zR]
  obtain ⟨Q, q1, q2, q3, q4, q5, c1, c2, hl⟩ := r_launch true fuel (k + 1) P hP
  rw [hl]
  have e1 : ((1:ℚ):ℝ) = 1 := by norm_num
  have e0 : ((0:ℚ):ℝ) = 0 := by norm_num
  have hu : vnorm (⟨zs, 0, zc⟩ : V3 ℝ) = ⟨zs, 0, zc⟩ := vnorm_unit _ (by unfold dot; nlinarith [zUnit])
  have hn : vnorm (⟨1, 0, 0⟩ : V3 ℝ) = ⟨1, 0, 0⟩ := vnorm_unit _ (by unfold dot; norm_num)
  have hsc : scalar (⟨zs, 0, zc⟩ : V3 ℝ) ⟨1, 0, 0⟩ = zs := by
    rw [scalar_real]; unfold dot; simp only; ring
  have hneg : ((zs : ℝ) <. lit 0) = false := by
    simp only [real_lt, real_lit, e0, decide_eq_false_iff_not]; norm_num [zs]
  have hs := t_search (r := zR) (h := 1/2) (L := 1/2) (X := 10000/999999) (e := 1) (z0 := 0) hr (by norm_num) (by norm_num) (by norm_num [zR]) hk (by norm_num)
    { Q with exitD := ⟨zs, 0, zc⟩, startD := vnorm Q.startD } (by simp) (by simp only [q3]; simp) (by simp only [q3]; norm_num)
    (by simp only [q3]; norm_num) (by norm_num) (by norm_num) ⟨lit 0, lit 0, lit 0⟩
  change traceSearch rD (axX rD (0, 0)) (axY rD (0, 0)) _ 1 0 _ _ = _ at hs
  have hix : segIdFrom rD.prof.z (0 + 1) (0 + 1/2) 1 = 0 := segId_zero _ _ _ 0 (by
    simp only [rD, tD, Nat.cast_zero, mul_zero]; norm_num) (by intro i h1 h2; omega)
  have hns : nShells (α := ℝ) rD.n_cap = 0 := nShells_one
  have ht : ∃ ix T, trace rD true fuel (k + 1) (axX rD (0, 0)) (axY rD (0, 0)) 0 Q = .ok (-1, ix, T) := by
    unfold trace capilTrace
    simp only [q4, hu]
    rw [show rD.prof.nmax - 0 = 1 from rfl, hs]
    simp only [traceHit]
    have hab : (fabs (zs:ℝ) >. lit 1) = false := by
      simp only [real_fabs, gt, real_lt, real_lit, e1, decide_eq_false_iff_not, not_lt]
      rw [abs_of_pos (by norm_num [zs])]; norm_num [zs]
    rw [hab, show rD.prof.nmax = 1 from rfl, hix]
    simp only [Bool.false_eq_true, if_false, zero_add, lt_irrefl]
    have hcur : interpAt rD.prof rD.prof.ext 0 (1/2) = 10000/999999 := by
      unfold interpAt
      rw [linAt_interp]; simp [linAt, rD, tD]
    have hge : ((1 * zR) *. (1 * zR) +. (0:ℝ) *. 0 >=. interpAt rD.prof rD.prof.ext 0 (1/2)) = false := by
      rw [hcur]
      simp only [real_mul, real_add, ge, real_le, decide_eq_false_iff_not, not_le]
      norm_num [zR]
    rw [if_neg (by rw [hge]; simp), if_neg (by rw [hns]; simp)]
    have hz : (((1/2 : ℝ)) >=. rD.prof.z rD.prof.nmax) = true := by
      simp only [rD, tD, ge, real_le, Nat.cast_one, mul_one, decide_eq_true_eq]; norm_num
    unfold reflect reflectBody
    simp only [hu, hn, hsc, hneg, Bool.false_eq_true, if_false, wallOf, if_true, traceWall, hz, Out.bind_ok]
    unfold reflectRest
    rw [if_pos (by simp)]
    simp only [Out.bind_ok]
    exact ⟨_, _, rfl⟩
  obtain ⟨ix, T, ht⟩ := ht
  simp only [traceLoop, ht, Out.bind_ok]
  rw [if_pos (by decide)]
  simp only [Out.bind_ok]
  rw [if_pos (by decide)]
  exact ⟨_, _, rfl⟩

theorem r_cap {x : ℝ} (hx : |x| ≤ zR) : launchCap rD ⟨x, 0, 0⟩ = some (0, 0) := by
  have hv : launchExt rD.prof 0 = 10000/999999 :=
    (launchExt_value (p := rD.prof) r_grid (le_refl _) (by simp [rD, tD])).unique (p := rD.prof) r_grid
      ⟨0, by simp [rD, tD], by simp [rD, tD], by simp [rD, tD], by simp [rD, tD, linAt]⟩
  have hN : ¬ launchCap rD ⟨x, 0, 0⟩ = none := by
    rw [launchCap_none (by simp [rD, tD]) (by simp only [hv]; norm_num)]
    rw [hv]
    simp only [Outside, rD, tD, show ((1:ℤ) ≤ 3) from by norm_num, if_true, not_lt]
    rw [show x ^ 2 + 0 ^ 2 = x ^ 2 by ring, Real.sqrt_sq_eq_abs]
    refine hx.trans ?_
    norm_num [zR]
  obtain ⟨qr, hq⟩ := Option.ne_none_iff_exists'.mp hN
  rcases launchCap_some hq with ⟨-, h⟩ | ⟨h, -⟩
  · rw [hq, h]
  · exact absurd nShells_one h

theorem r_open {x : ℝ} (hx : |x| ≤ zR) : startsInWall rD (0, 0) ⟨x, 0, 0⟩ = false := by
  rw [← Bool.not_eq_true, startsInWall_iff (D := rD) r_grid (by simp [rD, tD]) (c := ⟨x, 0, 0⟩) (le_refl _) (by simp [rD, tD]) (R := 10000/999999) (rad := zR)
    ⟨0, by simp [rD, tD], by simp [rD, tD], by simp [rD, tD], by simp [rD, tD, linAt]⟩
    ⟨0, by simp [rD, tD], by simp [rD, tD], by simp [rD, tD], by simp [rD, tD, linAt]⟩ (r_cap hx)]
  simp only [InGlass, rD, tD, show ((1:ℤ) ≤ 3) from by norm_num, if_true, not_lt]
  rw [show x ^ 2 + 0 ^ 2 = x ^ 2 by ring, Real.sqrt_sq_eq_abs]
  exact hx

/-- a photon that does not meet the wall -/
theorem r_through (leak : Bool) (fuel k : Nat) (P : Photon ℝ) (x : ℝ) (d : V3 ℝ) (hC : P.startC = ⟨x, 0, 0⟩) (hD : P.startD = d) (hu : dot d d = 1)
    (hy : d.y = 0) (hz : 0 < d.z) (hx0 : d.x ≠ 0) (hx : |x| < zR) (hx3 : |x + 1/2 * (d.x / d.z)| < zR) :
    ∃ P', launch zLib (some rD) leak fuel (k + 1) (some P) (some [10]) true = .ok (1, .filled [1], some P') ∧
      P'.exitC = ⟨x, 0, 0⟩ ∧ P'.exitD = d ∧ P'.i_refl = 0 := by
  have hv : vnorm d = d := vnorm_unit _ hu
  have hR : (0:ℝ) < zR := by norm_num [zR]
  have hb : ¬ ArgsBad (some rD) (some P) (some [(10:ℝ)]) true :=
    not_argsBad (by simp) (by intro e he; simp at he; subst he; norm_num)
  obtain ⟨D', P'', es', e1, e2, e3, -, -, -, h'⟩ := launch_valid zLib (some rD) leak fuel (k + 1) (some P) (some [(10:ℝ)]) true hb
  injection e1 with e1; injection e2 with e2; injection e3 with e3; subst e1 e2 e3
  rw [h']
  obtain ⟨c1, c2⟩ := t_chan zR (1/2) (10000/999999) P
  change (launchInit zLib rD [10] P).chans = _ at c1
  generalize hI : launchInit zLib rD [10] P = Q at c1
  have q1 : Q.startC = ⟨x, 0, 0⟩ := by rw [← hI]; exact hC
  have q3 : Q.exitC = ⟨x, 0, 0⟩ := by rw [← hI]; exact hC
  have q4 : Q.exitD = d := by rw [← hI]; show vnorm (vnorm _) = _; rw [hD, hv, hv]
  have q5 : Q.i_refl = 0 := by rw [← hI]; rfl
  unfold launchBody
  simp only [hI, q1, r_cap hx.le, r_open hx.le, Bool.false_eq_true, if_false]
  unfold launchInside
  have hix : segIdFrom rD.prof.z 0 Q.startC.z (rD.prof.nmax + 1) = 0 := by
    apply segId_zero _ _ _ 1
    · rw [q1]; simp [rD, tD]
    · intro i h1 h2
      have : i = 1 := by omega
      subst this; rw [q1]; simp [rD, tD]
  rw [hix, show rD.prof.nmax + 1 = 2 from rfl]
  have hm : ∀ R : Photon ℝ, R.exitC = ⟨x, 0, 0⟩ → R.exitD = d →
      traceSearch rD (axX rD (0, 0)) (axY rD (0, 0)) R 1 0 R.exitC ⟨lit 0, lit 0, lit 0⟩ = .miss := by
    intro R h1 h2
    have hX0 : ∀ i, axX rD (0, 0) i = 0 := tX _ _ _
    have hY0 : ∀ i, axY rD (0, 0) i = 0 := tY _ _ _
    have hE : ∀ i, rD.prof.ext i = 10000/999999 := fun _ => rfl
    apply traceSearch_miss
    · rw [hX0, hY0, hE, boundary_axis (by norm_num)]; decide
    · rw [hX0, hY0, hE, boundary_axis (by norm_num)]; decide
    · intro hs
      generalize hseg : segment (axisPt rD (axX rD (0, 0)) (axY rD (0, 0)) 0) (axisPt rD (axX rD (0, 0)) (axY rD (0, 0)) (0 + 1))
        (rD.prof.cap 0) (rD.prof.cap (0 + 1)) (atGrid rD.prof R.exitC R.exitD 0) (atGrid rD.prof R.exitC R.exitD (0 + 1)) R.exitD R.exitC
        ⟨lit 0, lit 0, lit 0⟩ = s at hs
      obtain ⟨s1, v, n⟩ := s
      simp only at hs
      subst hs
      have hg : genCoeff (axisPt rD (axX rD (0, 0)) (axY rD (0, 0)) 0) (axisPt rD (axX rD (0, 0)) (axY rD (0, 0)) (0 + 1))
          (rD.prof.cap 0) (rD.prof.cap (0 + 1)) R.exitD ≠ 0 := by
        simp only [genCoeff, axisPt, hX0, hY0, h2]
        simp only [rD, tD, sub_self, zero_div, sub_zero, hy]
        have : d.x / d.z ≠ 0 := div_ne_zero hx0 hz.ne'
        have : 0 < (d.x / d.z) ^ 2 := by positivity
        norm_num
        exact ⟨hx0, hz.ne'⟩
      obtain ⟨l, -, z0, z1, -, w, -⟩ := segment_sound _ _ _ _ _ _ _ _ _ _ _ (by rw [h2]; exact hz) hg hseg
      rw [l] at w
      simp only [OnWall, axisPt, hX0, hY0, lineAt, atGrid_eq, h1, h2, linAt, hy] at w
      simp only [rD, tD] at w
      simp only [axisPt, rD, tD] at z0 z1
      norm_num at w z0 z1
      have hw : (x + v.z * (d.x / d.z)) ^ 2 = zR ^ 2 := by
        rw [← w]; ring
      obtain ⟨a1, a2⟩ := abs_lt.mp hx
      obtain ⟨b1, b2⟩ := abs_lt.mp hx3
      have mid : ∀ (y m : ℝ), -zR < y → -zR < y + 1/2 * m → -zR < y + v.z * m := by
        intro y m h1 h2
        have := between_lt (v := 6 * v.z) (x := y) (m := m / 6) (r := zR) (by linarith) (by linarith) h1 (by linarith)
        linarith
      have l1 := mid _ _ a1 b1
      have l2 := mid (-x) (-(d.x / d.z)) (by linarith) (by linarith)
      nlinarith
    · rw [atGrid_eq, h1, h2]
      simp only [rD, tD, hy, Nat.cast_zero, mul_zero, sub_zero, zero_div, add_zero]
      rw [boundary_contains_disc _ _ _ (by norm_num) (by
        obtain ⟨a1, a2⟩ := abs_lt.mp hx
        have : x ^ 2 ≤ zR ^ 2 := by nlinarith
        have h9 : zR ^ 2 ≤ 3 / 4 * (10000 / 999999) ^ 2 := by norm_num [zR]
        nlinarith)]
      decide
  have htr : trace rD leak fuel (k + 1) (axX rD (0, 0)) (axY rD (0, 0)) 0 Q = .ok (-2, 0, { Q with exitD := d, startD := vnorm Q.startD }) := by
    unfold trace capilTrace
    simp only [q4, hv]
    rw [show rD.prof.nmax - 0 = 1 from rfl]
    rw [hm { Q with exitD := d, startD := vnorm Q.startD } q3 rfl]
  simp only [traceLoop, htr, Out.bind_ok]
  rw [if_pos (by decide : (-2:Int) ≠ 1)]
  simp only [Out.bind_ok]
  rw [if_neg (by decide), if_neg (by decide)]
  refine ⟨finish { Q with exitD := d, startD := vnorm Q.startD }, ?_, q3, rfl, q5⟩
  simp [c1]

theorem build {S : Src ℝ} {D : Descr ℝ} {lib : Xray ℝ} {leak : Bool} {fuel k n m : Nat} {u : Nat → ℝ} {x : SrcPhoton ℝ} {c : Int} {w : WOut ℝ} {P : Photon ℝ}
    (hx : getPhoton S D u fuel n = .ok (x, m)) (hl : launch lib (some D) leak fuel k (some x.photon) (some S.energies) true = .ok (c, w, some P)) :
    attempt lib S D leak fuel k u n = .ok (⟨c, x.src, P, w⟩, m) := by
  unfold attempt
  rw [hx, Out.bind_ok, hl, Out.bind_ok]

/-- the first photon, without leaks: reported -/
theorem first_off (fuel k : Nat) : ∃ a, attempt zLib zSrc rD false fuel (k + 1) wU 0 = .ok (a, 6) ∧ a.code = 1 ∧ simCode rD a = 1 ∧ a.ph.i_refl = 1 := by
  obtain ⟨x, hx, c⟩ := aim_centre rD wU fuel 0 (by simp [wU]) (by simp [wU]) (by simp [wU])
  obtain ⟨P', hl, a3, a4, a1⟩ := r_off fuel k x.photon c
  refine ⟨_, build hx hl, rfl, ?_, a1⟩
  unfold simCode
  simp only [if_true]
  rw [if_pos (show nShells (α := ℝ) rD.n_cap = 0 from nShells_one), if_neg]
  simp only [exitAt, a3, a4, real_add, real_mul, real_div, real_sub, real_sqrt, gt, real_lt, decide_eq_true_eq, not_lt]
  simp only [rD, tD]
  rw [Real.sqrt_le_left (by norm_num)]
  norm_num [zR, zs, zc]

/-- the first photon, with leaks: lost -/
theorem first_on (fuel k : Nat) : ∃ a, attempt zLib zSrc rD true fuel (k + 1) wU 0 = .ok (a, 6) ∧ a.code = -1 := by
  obtain ⟨x, hx, c⟩ := aim_centre rD wU fuel 0 (by simp [wU]) (by simp [wU]) (by simp [wU])
  obtain ⟨ws, P', hl⟩ := r_on fuel k x.photon c
  exact ⟨_, build hx hl, rfl⟩

/-- the second photon goes through -/
theorem second_on (fuel k : Nat) : ∃ a, attempt zLib zSrc rD true fuel (k + 1) wU 6 = .ok (a, 12) ∧ a.code = 1 ∧ simCode rD a = 1 ∧ a.ph.i_refl = 0 := by
  obtain ⟨x, hx, c, d⟩ := aim rD wU fuel 6 (9/20) (by simp [wU]) (by simp [wU]) (by norm_num) (by simp [wU])
  obtain ⟨q, k0, kx, ky, kz, dz, du⟩ := vnorm_facts (⟨2 * zR * (1 - 2 * (9/20)), 0, 1⟩ : V3 ℝ) (by norm_num)
  rw [← d] at kx ky kz dz du
  simp only at kx ky kz
  have hR : (0:ℝ) < zR := by norm_num [zR]
  have hy : x.photon.startD.y = 0 := by
    rcases mul_eq_zero.mp ky.symm with h | h
    · exact absurd h k0.ne'
    · exact h
  have hq : x.photon.startD.x / x.photon.startD.z = zR / 5 := by
    rw [div_eq_iff dz.ne']
    have : q * x.photon.startD.x = q * (zR / 5 * x.photon.startD.z) := by rw [← kx, show q * (zR / 5 * x.photon.startD.z) = zR / 5 * (q * x.photon.startD.z) by ring, ← kz]; ring
    exact mul_left_cancel₀ k0.ne' this
  have hx0 : x.photon.startD.x ≠ 0 := by
    intro h; rw [h, zero_div] at hq; linarith
  have hc : x.photon.startC = ⟨-(9 / 50 * zR), 0, 0⟩ := by rw [c]; simp only [V3.mk.injEq, and_true]; ring
  obtain ⟨P', hl, a3, a4, a5⟩ := r_through true fuel k x.photon (-(9 / 50 * zR)) _ hc rfl du hy dz hx0
    (by rw [abs_lt]; constructor <;> linarith) (by rw [hq, abs_lt]; constructor <;> linarith)
  refine ⟨_, build hx hl, rfl, ?_, a5⟩
  unfold simCode
  simp only [if_true]
  rw [if_pos (show nShells (α := ℝ) rD.n_cap = 0 from nShells_one), if_neg]
  simp only [exitAt, a3, a4, real_add, real_mul, real_div, real_sub, real_sqrt, gt, real_lt, decide_eq_true_eq, not_lt, hy]
  simp only [rD, tD]
  rw [Real.sqrt_le_left (by norm_num)]
  have : x.photon.startD.x * (1 / 2 * ((1:ℕ):ℝ) - 0) / x.photon.startD.z = 1/2 * (zR / 5) := by rw [← hq]; push_cast; ring
  rw [this]
  norm_num [zR]

theorem r_setup : GoodSetup zLib zSrc rD := good_setup rD r_grid (by simp [rD, tD]) (by simp only [rD, tD]; norm_num) r_scatf

/-- the hypothesis of `simulation_leak_invisible_partial` is not met by every valid setup -/
theorem leaks_lose : LeaksLose zLib zSrc rD := by
  obtain ⟨a, ha, a1⟩ := first_on 0 0
  obtain ⟨b, hb, b1, -⟩ := first_off 0 1
  refine ⟨wU, 0, 1, 0, 6, a, fun i => ⟨(wU_unit i).1, (wU_unit i).2.le⟩, ha, a1, ?_⟩
  rintro ⟨a0, q0, h0, c0⟩
  rw [hb] at h0
  injection h0 with h0; injection h0 with h0
  subst h0
  rw [b1] at c0
  cases c0

/-- **C95** is false of the code: the same source, optic, random numbers and one photon.  Without leaks the simulation reports the photon of the
first six random numbers, with one reflection; with leaks that photon is lost and another one, without reflections, is reported. -/
theorem simulation_leak_visible : ∃ (u : Nat → Nat → ℝ) (r r0 : TE ℝ) (n n0 : Nat) (s s0 : St ℝ), GoodSetup zLib zSrc rD ∧
    SimOutcome zLib (wArgs true rD) 1 none (some r) none ∧ SimOutcome zLib (wArgs false rD) 1 none (some r0) none ∧
    Reach (simCfg zLib zSrc rD (wArgs true rD) 1 u 0 1) asg1 n s ∧ s.finished (simCfg zLib zSrc rD (wArgs true rD) 1 u 0 1) ∧
    results (simCfg zLib zSrc rD (wArgs true rD) 1 u 0 1) [10] s = r ∧
    Reach (simCfg zLib zSrc rD (wArgs false rD) 1 u 0 1) asg1 n0 s0 ∧ s0.finished (simCfg zLib zSrc rD (wArgs false rD) 1 u 0 1) ∧
    results (simCfg zLib zSrc rD (wArgs false rD) 1 u 0 1) [10] s0 = r0 ∧
    (∃ x, r.exit 0 = some x ∧ x.n_refl = 0) ∧ (∃ x, r0.exit 0 = some x ∧ x.n_refl = 1) := by
  obtain ⟨a, ha, a1⟩ := first_on 0 0
  obtain ⟨b, hb, b1, b2, b3⟩ := second_on 0 0
  obtain ⟨c, hc, c1, c2, c3⟩ := first_off 0 0
  have hu : ∀ (t i : Nat), 0 ≤ wU i ∧ wU i ≤ 1 := fun _ i => ⟨(wU_unit i).1, (wU_unit i).2.le⟩
  let C := simCfg zLib zSrc rD (wArgs true rD) 1 (fun _ => wU) 0 1
  let C0 := simCfg zLib zSrc rD (wArgs false rD) 1 (fun _ => wU) 0 1
  have ca : simCode rD a = -1 := by unfold simCode; rw [a1]; rfl
  obtain ⟨hd, k, s, hr, hf, hh⟩ := finish_known (C := C) rfl rfl
    (att' := fun t p => if t = 0 ∧ p = 0 then .ok (a, 6) else if t = 0 ∧ p = 6 then .ok (b, 12) else .fuel)
    (by
      intro t p x h
      split at h
      · rename_i h0
        rw [← h, h0.2]; exact ha
      · split at h
        · rename_i h0
          rw [← h, h0.2]; exact hb
        · cases h)
    (by intro p; simp only; split <;> (try split) <;> simp)
    (by
      intro p y q h
      simp only at h
      split at h
      · injection h with h; injection h with h1 h2; subst h1
        exact attempt_attOk r_setup (wArgs true rD) 1 (u := fun _ => wU) hu (t := 0) ha
      · split at h
        · injection h with h; injection h with h1 h2; subst h1
          exact attempt_attOk r_setup (wArgs true rD) 1 (u := fun _ => wU) hu (t := 0) hb
        · cases h)
    (H := [(0, a), (0, b)]) (q := 12) (by
      have : ThreadRun C.D ((fun t p => if t = 0 ∧ p = 0 then Out.ok (a, 6) else if t = 0 ∧ p = 6 then Out.ok (b, 12) else .fuel) 0) [0] 0
          ([a, b].map (fun x => (0, x)) ++ []) 12 := by
        refine .cons (.retry (p1 := 6) (by simp) ?_ (.last (by simp) b2)) (.nil _)
        rw [show C.D = rD from rfl, ca]; decide
      exact this)
  obtain ⟨hd0, k0, s0, hr0, hf0, hh0⟩ := finish_known (C := C0) rfl rfl (att' := fun t p => if t = 0 ∧ p = 0 then .ok (c, 6) else .fuel)
    (by
      intro t p x h
      split at h
      · rename_i h0
        rw [← h, h0.2]; exact hc
      · cases h)
    (by intro p; simp only; split <;> simp)
    (by
      intro p b q h
      simp only at h
      split at h
      · injection h with h; injection h with h1 h2; subst h1
        exact attempt_attOk r_setup (wArgs false rD) 1 (u := fun _ => wU) hu (t := 0) hc
      · cases h)
    (H := [(0, c)]) (q := 6) (.cons (.last (by simp) c2) (.nil _))
  refine ⟨fun _ => wU, results C [10] s, results C0 [10] s0, k, k0, s, s0, r_setup,
    .ran (w_rejects true rD) zSrc rD rfl (fun _ => wU) wU_ok 0 1 asg1 hd k s hr hf,
    .ran (w_rejects false rD) zSrc rD rfl (fun _ => wU) wU_ok 0 1 asg1 hd0 k0 s0 hr0 hf0, hr, hf, rfl, hr0, hf0, rfl, ?_, ?_⟩
  · have R := simulation_reports hd hr hf [10]
    have hH : allHist C (fun t => (s.thr t).hist) = [(0, a), (0, b)] := by
      unfold allHist; rw [show C.T = 1 from rfl]; simp [hh]
    rw [hH] at R
    obtain ⟨y, y1, y2, -, -, y5, -⟩ := R.slot 0 (show 0 < 1 by omega)
    have : y = b := by
      simp only [List.mem_cons, List.not_mem_nil, or_false, Prod.mk.injEq, true_and] at y1
      rcases y1 with rfl | rfl
      · rw [show C.D = rD from rfl, ca] at y2; cases y2
      · rfl
    subst this
    exact ⟨_, y5, b3⟩
  · have R := simulation_reports hd0 hr0 hf0 [10]
    have hH : allHist C0 (fun t => (s0.thr t).hist) = [(0, c)] := by
      unfold allHist; rw [show C0.T = 1 from rfl]; simp [hh0]
    rw [hH] at R
    obtain ⟨y, y1, y2, -, -, y5, -⟩ := R.slot 0 (show 0 < 1 by omega)
    simp only [List.mem_singleton, Prod.mk.injEq, true_and] at y1
    subst y1
    exact ⟨_, y5, c3⟩

/-! ## A source none of whose photons is lost -/

/-- a small source without divergence in front of the conical bore of `exD` -/
noncomputable def pSrc : Src ℝ := ⟨1, 1/10, 1/10, 0, 0, 0, 0, 0, [10]⟩

theorem p_src : GoodSrc pSrc := ⟨by norm_num [pSrc], by norm_num [pSrc], by norm_num [pSrc], by norm_num [pSrc]⟩

theorem p_attempt (leak : Bool) (fuel k : Nat) (u : Nat → ℝ) (hu : ∀ i, 0 ≤ u i ∧ u i ≤ 1) (n : Nat) :
    ∃ a m, attempt exLib pSrc exD leak fuel k u n = .ok (a, m) ∧ a.code = 1 ∧ simCode exD a = 1 := by
  have hx : ∃ x m, getPhoton pSrc exD u fuel n = .ok (x, m) := by
    generalize hg : getPhoton pSrc exD u fuel n = o
    cases o with
    | ok y => exact ⟨y.1, y.2, rfl⟩
    | ub => exact absurd hg (source_photon_safe _ p_src _ _ _ _)
    | fuel =>
      exfalso
      unfold getPhoton srcAim at hg
      have hsx : ((pSrc.src_sigx <. lit 0 || pSrc.src_sigy <. lit 0) : Bool) = false := by
        simp only [pSrc, real_lt, real_lit]; norm_num
      simp only [hsx, Bool.false_eq_true, if_false, Out.bind_ok] at hg
      split at hg <;> cases hg
  obtain ⟨x, m, hx⟩ := hx
  obtain ⟨h0, hz, h1, ⟨f, f0, f1, he⟩, -, kk, k0, rx, ry, -⟩ := source_photon_geometry pSrc p_src exD u hu fuel n x m hx
  obtain ⟨d1, d2⟩ := source_photon_divergence pSrc p_src exD u hu fuel n x m hx (by simp [pSrc]) (by simp [pSrc])
  have dx : x.photon.startD.x = 0 := by
    have : x.photon.startD.x / x.photon.startD.z = 0 := abs_nonpos_iff.mp d1
    rcases div_eq_zero_iff.mp this with h | h
    · exact h
    · exact absurd h hz.ne'
  have dy : x.photon.startD.y = 0 := by
    have : x.photon.startD.y / x.photon.startD.z = 0 := abs_nonpos_iff.mp d2
    rcases div_eq_zero_iff.mp this with h | h
    · exact h
    · exact absurd h hz.ne'
  rw [dx, mul_zero] at rx
  rw [dy, mul_zero] at ry
  have hc : x.photon.startC.x ^ 2 + x.photon.startC.y ^ 2 ≤ 1/100 := by
    rw [show x.photon.startC.x = x.src.x by linarith, show x.photon.startC.y = x.src.y by linarith]
    simp only [OnEllipse, pSrc] at he
    nlinarith
  have hline : ∀ z, lineAt x.photon.startC x.photon.startD z = ⟨x.photon.startC.x, x.photon.startC.y, z⟩ := by
    intro z; simp [lineAt, dx, dy]
  obtain ⟨P', h, a, b, c, -⟩ := mono_clear_transmitted_partial exLib exD (by norm_num [exD]) (by norm_num [exD]) exGrid
    ⟨fun i _ => by simp only [exD, exProf]; split <;> norm_num, fun i _ => by simp [exD, exProf]⟩ leak fuel k x.photon [10] (by simp)
    (by intro e he; simp at he; subst he; norm_num) h0.ge (by rw [h0]; simp [exD, exProf]) hz 2 1
    (by have := valueAt_grid exGrid exProf.ext (i := 0) (by simp [exProf]); rw [exGrid.start] at this; rw [h0]; exact this)
    (by have := valueAt_grid exGrid exProf.cap (i := 0) (by simp [exProf]); rw [exGrid.start] at this; rw [h0]; exact this)
    (by rw [Real.sqrt_le_left (by norm_num)]; nlinarith) (by norm_num)
    (by intro i hi
        have hi : i = 0 := by simp only [exD, exProf] at hi; omega
        subst hi
        rw [dx, dy]
        simp [exD, exProf]; norm_num)
    (by intro z r _ hv hcl
        rw [hline] at hcl
        obtain ⟨i, hi, z0, z1, rfl⟩ := hv
        have hi : i = 0 := by simp only [exD, exProf] at hi; omega
        subst hi
        simp only [exD, exProf] at z0 z1 hcl
        simp [linAt] at z0 z1 hcl
        nlinarith)
    (by intro i hi _
        have hi : i = 0 := by simp only [exD, exProf] at hi; omega
        subst hi
        rw [hline]
        exact ((boundary_one_iff _ _ _).mp (boundary_contains_disc (2:ℝ) _ _ (by norm_num) (by nlinarith))).2) none
  have hl : launch exLib (some exD) leak fuel k (some x.photon) (some [10]) true = .ok (1, .filled [1], some P') := by
    rw [← launchE_value exLib (some exD) leak fuel k (some x.photon) (some [10]) true none, h]
    rfl
  refine ⟨_, m, build hx hl, rfl, ?_⟩
  unfold simCode
  simp only [if_true]
  rw [if_pos (show nShells (α := ℝ) exD.n_cap = 0 from nShells_one), if_neg]
  have hv : P'.exitD.x = 0 ∧ P'.exitD.y = 0 := by
    rw [c, vnorm_unit _ h1]; exact ⟨dx, dy⟩
  simp only [exitAt, b, hv.1, hv.2, real_add, real_mul, real_div, real_sub, real_sqrt, gt, real_lt, decide_eq_true_eq, not_lt, zero_mul, zero_div, add_zero]
  simp only [exD, exProf]
  rw [Real.sqrt_le_left (by norm_num)]
  nlinarith

theorem p_keeps : ¬ LeaksLose exLib pSrc exD := by
  rintro ⟨u, fuel, k, p, q, a, hu, h, hc, -⟩
  obtain ⟨b, m, hb, b1, -⟩ := p_attempt true fuel k u hu p
  rw [h] at hb
  injection hb with hb; injection hb with hb
  subst hb
  rw [hc] at b1
  cases b1

/-- the hypotheses of `simulation_leak_invisible_partial` are met -/
example : ∃ r, SimOutcome exLib ⟨some (pSrc, some exD), false, 1, 1, true, false⟩ 1 none (some r) none ∧
    SimOutcome exLib ⟨some (pSrc, some exD), false, 1, 1, false, false⟩ 1 none (some r.noLeaks) none := by
  have G : GoodSetup exLib pSrc exD := by
    refine ⟨p_src, exGrid, by norm_num [exD], by norm_num [exD, exProf], ?_, by intro z e; simp [exLib]⟩
    rw [scatf_accepts_iff]
    simp [exD, pSrc]
    norm_num
  have hu : ∀ (t i : Nat), 0 ≤ wU i ∧ wU i ≤ 1 := fun _ i => ⟨(wU_unit i).1, (wU_unit i).2.le⟩
  let A : SimArgs ℝ := ⟨some (pSrc, some exD), false, 1, 1, true, false⟩
  have hrej : simRejects A = false := by
    simp [simRejects, A, pSrc, energyBad, gt]
    norm_num
  let C := simCfg exLib pSrc exD A 1 (fun _ => wU) 0 1
  obtain ⟨a, m, ha, a1, a2⟩ := p_attempt true 0 1 wU (hu 0) 0
  obtain ⟨hd, k, s, hr, hf, hh⟩ := finish_known (C := C) rfl rfl (att' := C.att) (fun _ _ _ h => h)
    (by
      intro p h
      obtain ⟨b, q, hb, -⟩ := p_attempt true 0 1 wU (hu 0) p
      have : C.att 0 p = .ok (b, q) := hb
      rw [h] at this; cases this)
    (by intro p b q h; exact attempt_attOk G A 1 (u := fun _ => wU) hu (t := 0) h)
    (H := [(0, a)]) (q := m) (.cons (.last ha a2) (.nil _))
  have h := SimOutcome.ran (e := none) (a := A) hrej pSrc exD rfl (fun _ => wU) wU_ok 0 1 asg1 hd k s hr hf
  exact ⟨_, h, simulation_leak_invisible_partial exLib pSrc exD G A rfl rfl p_keeps 1 none none _ h⟩

end LeakSim
end Polycap
