import Verif.Props.LaunchMemUse
import Verif.Props.LeakRecords

/-!
# C81: concrete heaps that meet the hypotheses
-/
namespace Polycap.LMem
open CNum CM Mem Memo

/-- a heap with one photon (at address 0) as `polycap_photon_new` makes it -/
def newHeap (orc : Nat → Bool) : Heap (Block ℝ) := ⟨upd (fun _ => none) 0 (some (Ph.blk ⟨none, none, 0, 0, none, none, none, none⟩)), 1, orc⟩

theorem newHeap_wf (orc : Nat → Bool) : (newHeap orc).WF := fun a ha => by
  have h : 1 ≤ a := ha
  simp only [newHeap]
  rw [upd_other _ _ (by omega)]

theorem newHeap_own (orc : Nat → Bool) {P : Photon ℝ} (he : P.ext = []) (hi : P.int = []) :
    Own (newHeap orc).mem 0 0 false ⟨none, none, 0, 0, none, none, none, none⟩ (fun _ => []) (fun _ => 0) P where
  blk := by simp [newHeap]
  arrs s := ⟨fun _ => ⟨rfl, rfl⟩, fun a ha => (by cases s <;> cases ha), by
    have : leaksOf P s = [] := by cases s <;> simp [leaksOf, he, hi]
    rw [this]; exact .nil⟩
  cnt s := by cases s <;> simp [leaksOf, he, hi, Ph.cnt]
  wts s l hl := by cases s <;> simp [leaksOf, he, hi] at hl
  nch h := by cases h
  en := rfl
  w := rfl
  amu := rfl
  sc := rfl
  one a := by simp [foot, owned, addrs, List.count_cons]; split <;> omega

/-- a new photon is launched through the capillary and released: the heap is empty again -/
example : ∃ h', (launchAndFree exLib (some exD) true 0 1 (some 0) (exP ⟨0, 0, 0⟩ ⟨0, 0, 1⟩ 0) (some [10]) true).run (newHeap fun _ => true) =
    .ok (1, h') ∧ ∀ a, h'.mem a = none := by
  obtain ⟨P', hl, -⟩ := ex_straight true 0
  obtain ⟨h', r, m⟩ := launch_leaves_nothing exLib exD true 0 1 [10] (by simp) (by simp [energyBad]; norm_num) (newHeap_wf _)
    (fun _ _ => rfl) (newHeap_own _ rfl rfl) rfl rfl hl
  refine ⟨h', r, fun a => ?_⟩
  rw [m]
  simp [without, foot, owned, addrs, newHeap, upd]

/-- a launch that records a leak event: the photon then owns an array with this leak, and releasing it leaves nothing -/
example : ∃ P' l h' a b' xs', (launchM zLib (some lkD) true 0 1 (some 0) (exP ⟨3/2, 0, 0⟩ ⟨0, 5/13, 12/13⟩ 0) (some [10]) true).run (newHeap fun _ => true) =
    .ok ((2, some (some a), P'), h') ∧ P'.int = [l] ∧ Own h'.mem 1 0 false b' xs' (fun _ => 0) P' := by
  obtain ⟨P', l, hl, h1⟩ := lk_leaks
  have L := launch_memory zLib lkD true 0 1 [10] (by simp) (by simp [energyBad]; norm_num) (newHeap_wf fun _ => true)
    (fun _ _ => rfl) (newHeap_own (fun _ => true) (P := exP ⟨3/2, 0, 0⟩ ⟨0, 5/13, 12/13⟩ 0) rfl rfl)
  rw [hl] at L
  obtain ⟨h', a, b', xs', r, -, o, -⟩ := L
  exact ⟨P', l, h', a, b', xs', r, h1, o⟩

example : ∃ h', (launchAndFree zLib (some lkD) true 0 1 (some 0) (exP ⟨3/2, 0, 0⟩ ⟨0, 5/13, 12/13⟩ 0) (some [10]) true).run (newHeap fun _ => true) =
    .ok (2, h') ∧ ∀ a, h'.mem a = none := by
  obtain ⟨P', l, hl, -⟩ := lk_leaks
  obtain ⟨h', r, m⟩ := launch_leaves_nothing zLib lkD true 0 1 [10] (by simp) (by simp [energyBad]; norm_num) (newHeap_wf _)
    (fun _ _ => rfl) (newHeap_own _ rfl rfl) rfl rfl hl
  refine ⟨h', r, fun a => ?_⟩
  rw [m]
  simp [without, foot, owned, addrs, newHeap, upd]

/-- a photon with a leak from an earlier launch: array 1, struct 2, weights 3 -/
def oldLeak : Leak ℝ := ⟨⟨0, 0, 1⟩, ⟨0, 0, 1⟩, ⟨1, 0, 0⟩, 0, [1]⟩
noncomputable def oldP : Photon ℝ := { exP ⟨0, 0, 0⟩ ⟨0, 0, 1⟩ 0 with int := [oldLeak] }
noncomputable def oldHeap : Heap (Block ℝ) :=
  ⟨upd (upd (upd (upd (fun _ => none) 0 (some (Ph.blk ⟨none, some 1, 0, 1, none, none, none, none⟩))) 1 (some (.ptrs [some 2])))
    2 (some (.leak oldLeak.coords oldLeak.dir oldLeak.elecv 1 (some 3) 0))) 3 (some (.doubles [1])), 4, fun _ => true⟩

theorem oldHeap_wf : oldHeap.WF := fun a ha => by
  have h : 4 ≤ a := ha
  simp only [oldHeap]
  rw [upd_other _ _ (by omega), upd_other _ _ (by omega), upd_other _ _ (by omega), upd_other _ _ (by omega)]

theorem oldHeap_own : Own oldHeap.mem 1 0 false ⟨none, some 1, 0, 1, none, none, none, none⟩ (fun s => if s then [] else [(2, 3)]) (fun _ => 0) oldP where
  blk := by simp [oldHeap, upd]
  arrs s := by
    cases s
    · refine ⟨fun h => (by cases h), fun a ha => ?_, ?_⟩
      · simp [Ph.arr] at ha; subst ha; simp [oldHeap, upd]
      · exact .cons ⟨by simp [oldHeap, upd, lv, oldLeak], by simp [oldHeap, upd, lv, oldLeak]⟩ .nil
    · exact ⟨fun _ => ⟨rfl, rfl⟩, fun a ha => (by cases ha), .nil⟩
  cnt s := by cases s <;> rfl
  wts s l hl := by
    cases s
    · have : l ∈ [oldLeak] := hl
      simp at this; subst this; rfl
    · have : l ∈ ([] : List (Leak ℝ)) := hl
      simp at this
  nch h := by cases h
  en := rfl
  w := rfl
  amu := rfl
  sc := rfl
  one a := by
    simp [foot, owned, addrs, List.count_cons]
    by_cases h0 : a = 0 <;> by_cases h1 : a = 1 <;> by_cases h2 : a = 2 <;> by_cases h3 : a = 3 <;> simp_all [eq_comm (b := a)]

/-- its struct (block 2) is still there when weights and photon have been released; nothing else is -/
example : ∃ h', (launchAndFree exLib (some exD) true 0 1 (some 0) oldP (some [10]) true).run oldHeap = .ok (1, h') ∧
    h'.mem 2 = oldHeap.mem 2 ∧ h'.mem 2 ≠ none ∧ h'.mem 0 = none ∧ h'.mem 1 = none ∧ h'.mem 3 = none := by
  obtain ⟨P', hl, -⟩ := ex_straight true 0
  have hl' : launch exLib (some exD) true 0 1 (some oldP) (some [10]) true = .ok (1, .filled [1], some P') := by
    have hb : (([10] : List ℝ).isEmpty || ([10] : List ℝ).any energyBad || !true) = false := by simp [energyBad]; norm_num
    have e : ∀ P : Photon ℝ, launch exLib (some exD) true 0 1 (some P) (some [10]) true =
        (launchBody exLib exD true 0 1 P [10] >>= fun x => .ok (x.1, x.2.1, some x.2.2)) := fun P => by
      simp only [launch, hb, Bool.false_eq_true, if_false]
    rw [← hl, e, e]; rfl
  obtain ⟨h', r, k, g, -⟩ := second_launch_leaks exLib exD true 0 1 [10] (by simp) (by simp [energyBad]; norm_num) oldHeap_wf
    (fun _ _ => rfl) oldHeap_own hl'
  have h2 := k 2 (by simp [structs])
  refine ⟨h', r, h2.1, by rw [h2.1]; exact h2.2, g 0 ?_ ?_, g 1 ?_ ?_, g 3 ?_ ?_⟩ <;> simp [foot, owned, addrs, structs]

/-- the third allocation of the launch (the photon's weights) fails: double free -/
example : (launchAndFree exLib (some exD) true 0 1 (some 0) (exP ⟨0, 0, 0⟩ ⟨0, 0, 1⟩ 0) (some [10]) true).run (newHeap fun n => n != 3) = .ub :=
  (launch_oom_frees_photon exLib exD true 0 1 [10] (by simp) (by simp [energyBad]; norm_num) (newHeap_wf _) (newHeap_own _ rfl rfl)
    (by simp [newHeap]) (.inr (by simp [newHeap]))).2

/-- the fourth fails: use after free -/
example : (launchM exLib (some exD) true 0 1 (some 0) (exP ⟨0, 0, 0⟩ ⟨0, 0, 1⟩ 0) (some [10]) true).run (newHeap fun n => n != 4) = .ub :=
  launch_oom_use_after_free exLib exD true 0 1 [10] (by simp) (by simp [energyBad]; norm_num) ex_scatf (newHeap_wf _) (newHeap_own _ rfl rfl)
    (by simp [newHeap]) (by simp [newHeap]) (by simp [newHeap]) (.inl (by simp [newHeap]))

/-- the first fails: the weights are written to NULL -/
example : (launchM exLib (some exD) true 0 1 (some 0) (exP ⟨0, 0, 0⟩ ⟨0, 0, 1⟩ 0) (some [10]) true).run (newHeap fun n => n != 1) = .ub := by
  obtain ⟨P', hl, -⟩ := ex_straight true 0
  refine launch_oom_weights exLib exD true 0 1 [10] (by simp) (by simp [energyBad]; norm_num) (newHeap_wf _) (newHeap_own _ rfl rfl)
    (by simp [newHeap]) (fun n hn => ?_) (ex_cap (c := ⟨0, 0, 0⟩) (by simp) (by simp)) ?_ hl
  · have : 1 < n := hn
    simp [newHeap]; omega
  · rw [← Bool.not_eq_true]
    show ¬ startsInWall exD (0, 0) ⟨0, 0, 0⟩ = true
    rw [ex_glass (by simp) (by simp)]
    norm_num

end Polycap.LMem
