import Verif.Props.SimExample

/-!
# C52, C77: a large simulation on one thread overflows

The setup of `SimExample` with a random stream in which every photon comes through, 10·m photons on one thread (m ≥ 2386093).
-/
namespace Polycap
open CNum

/-- every photon comes through: the numbers repeat with period 6 -/
noncomputable def passU (i : Nat) : ℝ := if i % 6 = 3 then 9/20 else if i % 6 = 4 then 1/2 else 0

theorem passU_unit (i : Nat) : 0 ≤ passU i ∧ passU i < 1 := by
  unfold passU; split_ifs <;> norm_num

/-- `n` photons -/
noncomputable def bigArgs (T n : Int) : SimArgs ℝ := ⟨some (zSrc, some zD), false, T, n, false, false⟩

theorem pass_att (q : Nat) (hq : 6 ∣ q) : ∃ a, attempt zLib zSrc zD false 1 1 passU q = .ok (a, q + 6) ∧ simCode zD a = 1 := by
  have h : q % 6 = 0 := Nat.mod_eq_zero_of_dvd hq
  obtain ⟨a, h1, -, h2, -⟩ := z_passes passU 1 q (by unfold passU; rw [if_neg (by omega), if_neg (by omega)]) (by unfold passU; rw [if_pos (by omega)])
    (by unfold passU; rw [if_neg (by omega), if_pos (by omega)])
  exact ⟨a, h1, h2⟩

/-- **C77, C52**: exactly when this simulation is free of undefined behaviour, for every number of photons, threads and every distribution -/
theorem pass_safe_iff (T n : Int) (omp : Int) (hT : 0 < (threadsUsed T omp).toNat) (asg : Nat → List Nat)
    (hd : Distributes (simCfg zLib zSrc zD (bigArgs T n) omp (fun _ => passU) 1 1) asg) :
    (∀ i s, Reach (simCfg zLib zSrc zD (bigArgs T n) omp (fun _ => passU) 1 1) asg i s → ∀ t < (threadsUsed T omp).toNat,
      tstep (simCfg zLib zSrc zD (bigArgs T n) omp (fun _ => passU) 1 1) t s ≠ .ub) ↔ Harmless n.toNat (threadsUsed T omp).toNat (asg 0) := by
  refine simulation_safe_iff (C := simCfg zLib zSrc zD (bigArgs T n) omp (fun _ => passU) 1 1) hd hT ?_ ?_ (fun q => 6 ∣ q) (by simp) ?_
  · intro t _ q hq
    have hq : attempt zLib zSrc zD false 1 1 passU q = .ub := hq
    unfold attempt at hq
    cases hp : getPhoton zSrc zD passU 1 q with
    | ub => exact source_photon_safe zSrc z_setup.src zD passU 1 q hp
    | fuel => rw [hp] at hq; cases hq
    | ok x =>
      rw [hp, Out.bind_ok] at hq
      obtain ⟨h0, -⟩ := source_photon_geometry zSrc z_setup.src zD passU (fun i => ⟨(passU_unit i).1, (passU_unit i).2.le⟩) 1 q x.1 x.2 hp
      obtain ⟨c, o, P', hL⟩ := launch_noleak_returns zLib zD z_setup.grid 1 0 x.1.photon h0.ge zSrc.energies z_setup.comp
      rw [hL, Out.bind_ok] at hq
      cases hq
  · intro t _ q a q' hq
    exact attempt_attOk z_setup (bigArgs T n) omp (u := fun _ => passU) (fun _ i => ⟨(passU_unit i).1, (passU_unit i).2.le⟩) (t := t) hq
  · intro q hq
    obtain ⟨a, h1, h2⟩ := pass_att q hq
    exact ⟨a, q + 6, h1, h2, by omega⟩

/-- **C52**, the property fails: 10·m photons on one thread, m ≥ 2386093 -/
theorem simulation_progress_overflow (m : Nat) (h : 2386093 ≤ m) (omp : Int) (ho : 1 ≤ omp) :
    ∃ i s, Reach (simCfg zLib zSrc zD (bigArgs 1 (10 * m : Nat)) omp (fun _ => passU) 1 1) (staticSlots (10 * m) 1) i s ∧
      tstep (simCfg zLib zSrc zD (bigArgs 1 (10 * m : Nat)) omp (fun _ => passU) 1 1) 0 s = .ub := by
  have hT : (threadsUsed 1 omp).toNat = 1 := by unfold threadsUsed; rw [if_neg (by omega)]; rfl
  have hd : Distributes (simCfg zLib zSrc zD (bigArgs 1 (10 * m : Nat)) omp (fun _ => passU) 1 1) (staticSlots (10 * m) 1) := by
    have := static_distributes (simCfg zLib zSrc zD (bigArgs 1 (10 * m : Nat)) omp (fun _ => passU) 1 1) (by show 0 < (threadsUsed 1 omp).toNat; omega)
    have e1 : (simCfg zLib zSrc zD (bigArgs 1 (10 * m : Nat)) omp (fun _ => passU) 1 1).n = 10 * m := rfl
    have e2 : (simCfg zLib zSrc zD (bigArgs 1 (10 * m : Nat)) omp (fun _ => passU) 1 1).T = 1 := hT
    rwa [e1, e2] at this
  by_contra hc
  push Not at hc
  have := (pass_safe_iff 1 (10 * m : Nat) omp (by omega) (staticSlots (10 * m) 1) hd).1 (by
    intro i s hr t ht
    have : t = 0 := by omega
    subst this
    exact hc i s hr)
  rw [hT, Int.toNat_natCast] at this
  exact single_thread_overflow m h this

/-- … and with three photons on eight threads, if thread 0 gets two of them -/
theorem simulation_few_photons (omp : Int) (ho : 8 ≤ omp) :
    ∃ asg, Distributes (simCfg zLib zSrc zD (bigArgs 8 3) omp (fun _ => passU) 1 1) asg ∧
    ∃ i s, Reach (simCfg zLib zSrc zD (bigArgs 8 3) omp (fun _ => passU) 1 1) asg i s ∧
      tstep (simCfg zLib zSrc zD (bigArgs 8 3) omp (fun _ => passU) 1 1) 0 s = .ub := by
  have hT : (threadsUsed 8 omp).toNat = 8 := by unfold threadsUsed; rw [if_neg (by omega)]; rfl
  let asg : Nat → List Nat := fun t => if t = 0 then [0, 2] else if t = 5 then [1] else []
  have hd : Distributes (simCfg zLib zSrc zD (bigArgs 8 3) omp (fun _ => passU) 1 1) asg := by
    have e1 : (simCfg zLib zSrc zD (bigArgs 8 3) omp (fun _ => passU) 1 1).n = 3 := rfl
    have e2 : (simCfg zLib zSrc zD (bigArgs 8 3) omp (fun _ => passU) 1 1).T = 8 := hT
    unfold Distributes
    rw [e1, e2]
    decide
  refine ⟨asg, hd, ?_⟩
  have hb : ¬ Harmless 3 8 (asg 0) := few_photons_division 3 8 0 2 [] (by omega) (by omega)
  unfold Harmless at hb
  push Not at hb
  obtain ⟨k, j, h1, h2, h3, h4⟩ := hb
  have e1 : (simCfg zLib zSrc zD (bigArgs 8 3) omp (fun _ => passU) 1 1).n = 3 := rfl
  have e2 : (simCfg zLib zSrc zD (bigArgs 8 3) omp (fun _ => passU) 1 1).T = 8 := hT
  refine bad_report_ub hd (by omega) (fun t _ q a q' hq => ?_) (fun q => 6 ∣ q) (by simp) (fun q hq => ?_) k j h1
    ((reports_when _ (by omega) (by omega) k).2 ⟨h2, by rw [e1, e2]; exact h3⟩) (by omega)
  · exact attempt_attOk z_setup (bigArgs 8 3) omp (u := fun _ => passU) (fun _ i => ⟨(passU_unit i).1, (passU_unit i).2.le⟩) (t := t) hq
  · obtain ⟨a, g1, g2⟩ := pass_att q hq
    exact ⟨a, q + 6, g1, g2, by omega⟩

end Polycap
