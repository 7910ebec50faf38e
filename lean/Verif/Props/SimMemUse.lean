import Verif.Props.SimMemProps
import Verif.Props.LaunchMemUse
import Verif.Props.SimExample

/-!
# C83: uses, failing allocations, and a run
-/
namespace Polycap.SMem
open CNum CM Mem Memo LMem

/-- **C83**, with C52: without leak calculation, on a valid setup, with harmless progress reports and while allocations succeed, no thread of any
schedule ever touches a released or foreign block, releases one twice, or reads something never written. -/
theorem sim_heap_safe (A : Prm ℝ) (hes : A.S.energies ≠ []) (hb : A.S.energies.any energyBad = false) (asg : Nat → List Nat) {h0 : Heap (Block ℝ)}
    (g0 : Good h0) (G : GoodSetup A.lib A.S A.D) (hl : A.a.leak = false) (hu : ∀ t i, 0 ≤ A.u t i ∧ A.u t i ≤ 1) (hk : 0 < A.k)
    (hd : Distributes A.cfg asg) (hT : 0 < (threadsUsed A.a.maxThreads A.omp).toNat)
    (hh : Harmless A.a.nPhotons.toNat (threadsUsed A.a.maxThreads A.omp).toNat (asg 0)) {k t : Nat} {s : MSt ℝ} {h : Heap (Block ℝ)}
    (r : MReach A asg h0 k s h) (ht : t < A.cfg.T) : (tstepM A t s).run h ≠ .ub := by
  intro hub
  obtain ⟨v, rv, hv⟩ := (sim_ub_iff A hes hb asg g0 k t ht).mp ⟨s, h, r, hub⟩
  obtain ⟨lib, S, D, a, omp, u, fuel, kk⟩ := A
  obtain ⟨kk, rfl⟩ : ∃ m, kk = m + 1 := ⟨kk - 1, by simp only at hk; omega⟩
  exact simulation_safe hd (simulation_safe_noleak lib S D G a hl omp u hu fuel kk asg hd hT hh) rv ht hv

variable {α : Type} [CNum α]

/-! ## Failing allocations -/

/-- **C83, finding.**  A thread whose array of weights cannot be allocated writes to NULL. -/
theorem thread_oom_weights_ub (ne : Nat) (hn : 0 < ne) (slots : List Nat) {h : Heap (Block α)} (o : h.orc h.next = false) :
    (threadStart ne slots).run h = none := by
  unfold threadStart
  rw [run_bind, run_malloc, o]
  simp only [Bool.false_eq_true, if_false]
  refine run_bind_none ?_
  obtain ⟨n, rfl⟩ : ∃ n, ne = n + 1 := ⟨ne - 1, by omega⟩
  simp [storeArr, run_bind]

/-- **C83, finding.**  A thread whose random generator cannot be allocated does something undefined. -/
theorem thread_oom_rng_ub (ne : Nat) (slots : List Nat) {h : Heap (Block α)} (o : h.orc h.next = true) (o1 : h.orc (h.next + 1) = false) :
    (threadStart ne slots).run h = none := by
  unfold threadStart
  rw [run_bind, run_malloc, o]
  simp only [if_true]
  cases ne with
  | zero => simp [storeArr, run_bind, run_malloc, run_load, run_store, o1]
  | succ n => simp [storeArr, run_bind, run_malloc, run_load, run_store, o1, List.replicate_succ]

/-- **C83, finding.**  A thread whose photon cannot be allocated writes through NULL. -/
theorem work_oom_photon_ub (A : Prm α) (t j : Nat) (rest : List Nat) (th : MThr α) (sh : Shared α) {h : Heap (Block α)} {x : SrcPhoton α × Nat}
    (hg : getPhoton A.S A.D (A.u t) A.fuel th.pos = .ok x) (o : h.orc h.next = false) : (workM A t j rest th sh).run h = .ub := by
  unfold workM
  rw [HM.bind_ofOut hg]
  have r : (malloc (Ph.blk ⟨none, none, 0, 0, none, none, none, none⟩) : CM (Block α) Ptr).run h = some (none, { h with next := h.next + 1 }) := by
    rw [run_malloc, o]; rfl
  rw [HM.bind_ofCM r, if_pos rfl]
  rfl

omit [CNum α] in
/-- the photon just allocated -/
theorem new_own {h : Heap (Block α)} {P : Photon α} (he : P.ext = []) (hi : P.int = []) :
    Own (upd h.mem h.next (some (Ph.blk ⟨none, none, 0, 0, none, none, none, none⟩))) 0 h.next false ⟨none, none, 0, 0, none, none, none, none⟩
      (fun _ => []) (fun _ => 0) P where
  blk := by simp
  arrs s := ⟨fun _ => ⟨rfl, rfl⟩, fun a ha => (by cases s <;> cases ha), by
    have : leaksOf P s = [] := by cases s <;> simp [leaksOf, he, hi]
    rw [this]; exact .nil⟩
  cnt s := by cases s <;> simp [leaksOf, he, hi, Ph.cnt]
  wts s l hl := by cases s <;> simp [leaksOf, he, hi] at hl
  nch h := by cases h
  en := rfl
  w := rfl
  amu := rfl
  sc := rfl
  one a := by simp [foot, owned, addrs, List.count_singleton]; split <;> omega

/-- **C83, finding.**  When, inside a simulation, the launch cannot allocate the photon's arrays of energies or weights, it releases the photon and
returns -1; the thread then uses and releases the photon again. -/
theorem work_oom_launch_ub (A : Prm α) (hes : A.S.energies ≠ []) (hb : A.S.energies.any energyBad = false) (t j : Nat) (rest : List Nat) (th : MThr α)
    (sh : Shared α) {h : Heap (Block α)} (wf : h.WF) {x : SrcPhoton α × Nat} (hg : getPhoton A.S A.D (A.u t) A.fuel th.pos = .ok x)
    (o0 : h.orc h.next = true) (o1 : h.orc (h.next + 1) = true)
    (hf : h.orc (h.next + 2) = false ∨ (h.orc (h.next + 2) = true ∧ h.orc (h.next + 3) = false)) : (workM A t j rest th sh).run h = .ub := by
  obtain ⟨he, hi⟩ := getPhoton_bare hg
  unfold workM
  rw [HM.bind_ofOut hg]
  set h1 : Heap (Block α) := { h with mem := upd h.mem h.next (some (Ph.blk ⟨none, none, 0, 0, none, none, none, none⟩)), next := h.next + 1 } with hh1
  have r : (malloc (Ph.blk ⟨none, none, 0, 0, none, none, none, none⟩) : CM (Block α) Ptr).run h = some (some h.next, h1) := by
    rw [run_malloc, o0]; rfl
  rw [HM.bind_ofCM r, if_neg (by simp)]
  have wf1 : h1.WF := fun a ha => by
    have ha : h.next + 1 ≤ a := ha
    simp only [hh1]
    rw [upd_other _ _ (by omega)]
    exact wf a (by omega)
  obtain ⟨⟨P', h2, L, gone⟩, -⟩ := launch_oom_frees_photon A.lib A.D A.a.leak A.fuel A.k A.S.energies hes hb wf1 (new_own (h := h) he hi) o1 hf
  rw [HM.run_bind_ok L]
  have e : simCode A.D (⟨-1, x.1.src, P', .untouched⟩ : Attempt α) = -1 := by unfold simCode; rw [if_neg (show ¬ ((-1 : Int) = 1) by decide)]
  simp only [e]
  rw [if_neg (by decide)]
  apply HM.run_bind_ub
  apply HM.run_ofCM_ub
  simp [getPh, run_bind, run_load, gone]

/-- **C83, finding.**  The same when an array of material constants cannot be allocated: the launch itself uses the photon it has released. -/
theorem work_oom_constants_ub (A : Prm α) (hes : A.S.energies ≠ []) (hb : A.S.energies.any energyBad = false) (hs : scatfRejects A.D A.S.energies = false)
    (t j : Nat) (rest : List Nat) (th : MThr α) (sh : Shared α) {h : Heap (Block α)} (wf : h.WF) {x : SrcPhoton α × Nat}
    (hg : getPhoton A.S A.D (A.u t) A.fuel th.pos = .ok x) (o0 : h.orc h.next = true) (o1 : h.orc (h.next + 1) = true)
    (o2 : h.orc (h.next + 2) = true) (o3 : h.orc (h.next + 3) = true)
    (hf : h.orc (h.next + 4) = false ∨ (h.orc (h.next + 4) = true ∧ h.orc (h.next + 5) = false)) : (workM A t j rest th sh).run h = .ub := by
  obtain ⟨he, hi⟩ := getPhoton_bare hg
  unfold workM
  rw [HM.bind_ofOut hg]
  set h1 : Heap (Block α) := { h with mem := upd h.mem h.next (some (Ph.blk ⟨none, none, 0, 0, none, none, none, none⟩)), next := h.next + 1 } with hh1
  have r : (malloc (Ph.blk ⟨none, none, 0, 0, none, none, none, none⟩) : CM (Block α) Ptr).run h = some (some h.next, h1) := by
    rw [run_malloc, o0]; rfl
  rw [HM.bind_ofCM r, if_neg (by simp)]
  have wf1 : h1.WF := fun a ha => by
    have ha : h.next + 1 ≤ a := ha
    simp only [hh1]
    rw [upd_other _ _ (by omega)]
    exact wf a (by omega)
  exact HM.run_bind_ub (launch_oom_use_after_free A.lib A.D A.a.leak A.fuel A.k A.S.energies hes hb hs wf1 (new_own (h := h) he hi) o1 o2 o3 hf)

/-! ## A run -/

/-- a heap with nothing in it, where every allocation succeeds -/
def bareHeap : Heap (Block ℝ) := ⟨fun _ => none, 0, fun _ => true⟩

theorem bareHeap_good : Good bareHeap := ⟨fun _ _ => rfl, fun _ _ => rfl⟩

noncomputable def zPrm : Prm ℝ := ⟨zLib, zSrc, zD, zArgs, 1, fun _ => zU, 1, 1⟩

theorem zPrm_ok : zPrm.S.energies ≠ [] ∧ zPrm.S.energies.any energyBad = false := by
  refine ⟨by simp [zPrm, zSrc], ?_⟩
  simp [zPrm, zSrc, energyBad, gt]
  norm_num

/-- **C83**, a run: one thread, two photons (the first leaves the optic outside the exit window and is replaced); the heap is empty again at the
end, and before that it was not. -/
theorem z_sim_memory : ∃ asg k s h, MReach zPrm asg bareHeap k s h ∧ s.finished zPrm ∧ h.mem = bareHeap.mem ∧ sumTo s.sh.iexit 1 = 1 ∧
    (∃ s1 h1, MReach zPrm asg bareHeap 0 s1 h1 ∧ h1.mem ≠ bareHeap.mem) := by
  obtain ⟨hes, hb⟩ := zPrm_ok
  obtain ⟨a, ha, a1, a2, a3⟩ := z_first 1
  obtain ⟨b, hbb, b1, b2, b3⟩ := z_second 1
  let C := zPrm.cfg
  let asg : Nat → List Nat := fun t => if t = 0 then [0] else []
  have hT : C.T = 1 := rfl
  have hn : C.n = 1 := rfl
  have hd : Distributes C asg := by unfold Distributes; rw [hT, hn]; decide
  have ho : SimOk C asg := simulation_safe_noleak zLib zSrc zD z_setup zArgs rfl 1 (fun _ => zU) (fun _ i => ⟨(zU_unit i).1, (zU_unit i).2.le⟩) 1 0
    asg hd (by decide) (harmless_single (by simp [asg]))
  have hrun : ThreadRun C.D (C.att 0) (asg 0) 0 [(0, a), (0, b)] 12 := by
    have : ThreadRun C.D (C.att 0) [0] 0 ([a, b].map (fun x => (0, x)) ++ []) 12 := by
      refine .cons (.retry (p1 := 6) ha ?_ (.last hbb b2)) (.nil _)
      rw [show C.D = zD from rfl, a2]; decide
    exact this
  obtain ⟨k, v, hr, hf⟩ := (simulation_finishes_iff hd ho).2 (by
    intro t ht
    have : t = 0 := by omega
    subst this
    exact ⟨_, _, hrun⟩)
  obtain ⟨s, h, r, R⟩ := sim_memory_complete zPrm hes hb asg bareHeap_good hr
  have fin : s.finished zPrm := fun t ht => by
    obtain ⟨ps, Rt, -⟩ := R.thr
    rw [(Rt t ht).pc.rank, hf t ht]; rfl
  refine ⟨asg, k, s, h, r, fin, (sim_leaves_nothing zPrm hes hb asg bareHeap_good r fin).1, ?_, ?_⟩
  · rw [R.sh]
    exact (simulation_reports hd hr hf [10]).iExit.trans hn
  · obtain ⟨f, h1, ps, r1, g1, Rt, S⟩ := startAll_run zPrm asg bareHeap_good zPrm.cfg.T
    refine ⟨_, h1, .start r1, fun e => ?_⟩
    rcases (Rt 0 (by decide)).own with ⟨h2, -⟩ | ⟨w, gg, pe, pi, pet, pit, x, O, hp⟩
    · cases h2
    · have : h1.mem gg = some .rng := S.holds (blkP gg .rng) (List.mem_flatMap.mpr ⟨0, List.mem_range.mpr (by decide), by rw [hp]; simp [ownsP]⟩)
      rw [e] at this
      cases this

end Polycap.SMem
