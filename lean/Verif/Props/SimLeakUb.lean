import Verif.Props.LeakUb
import Verif.Props.SimReal
import Verif.Props.Validate

/-!
# C52, C74: a simulation with leak calculation may read outside the profile

Over the reals.
-/
namespace Polycap
open CNum

/-- a parallel beam (no divergence) around the point (0, 1.9) of the front face -/
noncomputable def rimSrc : Src ℝ := ⟨100, 1/100, 1/100, 0, 0, 0, 19/10, 0, [10]⟩

theorem rim_setup : GoodSetup exLib rimSrc exD where
  src := ⟨by simp [rimSrc], by simp [rimSrc], by simp [rimSrc], by simp [rimSrc]⟩
  grid := exGrid
  caps := by simp [exD]
  ext0 := by simp [exD, exProf]
  comp := ex_scatf
  cs := by intro z e; simp [exLib]

theorem rim_photon (fuel n : Nat) : ∃ x m, getPhoton rimSrc exD (fun _ => 0) fuel n = .ok (x, m) ∧ x.photon.startC = ⟨0, 19/10, 0⟩ ∧
    x.photon.startD = ⟨0, 0, 1⟩ := by
  have hp : srcPoint rimSrc 0 0 0 = ⟨0, 19/10, 0⟩ := by simp [srcPoint, rimSrc]
  have ha : srcAim rimSrc exD.n_cap (exD.prof.cap 0) (exD.prof.ext 0) (fun _ => 0) fuel (n + 3) ⟨0, 19/10, 0⟩ =
      .ok (⟨0, 19/10, 0⟩, ⟨0, 0, 1⟩, n + 5) := by
    unfold srcAim
    rw [if_neg (by simp [rimSrc])]
    have e : (⟨rimSrc.src_sigx *. (lit 1 -. lit 2 *. fabs (0:ℝ)), rimSrc.src_sigy *. (lit 1 -. lit 2 *. fabs (0:ℝ)), lit 1⟩ : V3 ℝ) = ⟨0, 0, 1⟩ := by
      simp [rimSrc]
    simp only [e, vnorm_z]
    simp [rimSrc]
  unfold getPhoton
  simp only [hp, ha, Out.bind_ok]
  unfold photonNew
  rw [if_neg (by simp), if_neg (by simp)]
  exact ⟨_, _, rfl, rfl, rfl⟩

/-- one photon of this setup -/
theorem rim_attempt (fuel k n : Nat) : attempt exLib rimSrc exD true fuel (k + 1) (fun _ => 0) n = .ub := by
  obtain ⟨x, m, h1, h2, h3⟩ := rim_photon fuel n
  unfold attempt
  rw [h1, Out.bind_ok]
  simp only
  rw [launch_leak_rim exLib fuel k x.photon h2 h3 rimSrc.energies (by simp [rimSrc]) (by intro e he; simp [rimSrc] at he; subst he; norm_num)]
  rfl

/-- the optic passes the library's own check -/
theorem rim_valid : validate exD.prof exD.n_cap = 1 := by
  rw [show exD.n_cap = 1 from rfl, (validate_mono_iff _ _ (by norm_num) (by norm_num)).1]
  intro i hi
  simp only [exD, exProf]
  split <;> norm_num

/-- **C52, C74**, the property fails with leak calculation: a valid source and optic, random numbers in [0,1), any number of photons and
threads, any distribution – the first photon of a thread reads outside the profile. -/
theorem simulation_leak_ub (a : SimArgs ℝ) (hl : a.leak = true) (omp : Int) (fuel k : Nat) (asg : Nat → List Nat) (t : Nat) (ht : asg t ≠ []) :
    GoodSetup exLib rimSrc exD ∧ validate exD.prof exD.n_cap = 1 ∧ tstep (simCfg exLib rimSrc exD a omp (fun _ _ => 0) fuel (k + 1)) t
      (initSt (simCfg exLib rimSrc exD a omp (fun _ _ => 0) fuel (k + 1)) asg) = .ub := by
  refine ⟨rim_setup, rim_valid, ?_⟩
  obtain ⟨j, rest, hj⟩ := List.exists_cons_of_ne_nil ht
  unfold tstep
  simp only [initSt, hj, nextPc, simCfg, hl, rim_attempt, Out.bind_ub, Res.of]

example : ∃ asg : Nat → List Nat, Distributes (simCfg exLib rimSrc exD ⟨some (rimSrc, some exD), false, 1, 7, true, false⟩ 4 (fun _ _ => 0) 5 6) asg ∧
    asg 0 ≠ [] :=
  ⟨fun _ => List.range 7, by simp [Distributes, simCfg, threadsUsed], by simp⟩

end Polycap
