import Verif.Props.LaunchMemProps

/-!
# C81: using a launched photon; what a launch leaves behind; failing allocations
-/
namespace Polycap.LMem
open CNum CM Mem Memo

variable {α : Type} [CNum α]

/-- launch a photon, then release the returned weights and the photon, as a caller does -/
def launchAndFree (lib : Xray α) (D : Option (Descr α)) (leak : Bool) (fuel k : Nat) (p : Ptr) (P : Photon α) (energies : Option (List α))
    (wptr : Bool) : HM (Block α) Int := do
  let x ← launchM lib D leak fuel k p P energies wptr
  HM.ofCM (free (x.2.1.getD none))
  HM.ofCM (photonFree p)
  Pure.pure x.1

/-- **C81.**  Launch a photon and release the weights and the photon: the photon's struct, the weight arrays of its earlier leaks and its two
arrays of leaks are gone, and the heap is otherwise exactly what it was: nothing the launch allocated is left. -/
theorem launch_then_free (lib : Xray α) (D : Descr α) (leak : Bool) (fuel k : Nat) (es : List α) (hes : es ≠ []) (hb : es.any energyBad = false)
    {h : Heap (Block α)} (wf : h.WF) (am : Ample h) {n0 p : Nat} {b : Ph} {xs : Bool → List (Nat × Nat)} {P : Photon α}
    (o : Own h.mem n0 p false b xs (fun _ => 0) P) {c : Int} {w : WOut α} {P' : Photon α}
    (hl : launch lib (some D) leak fuel k (some P) (some es) true = .ok (c, w, some P')) :
    ∃ h', (launchAndFree lib (some D) leak fuel k (some p) P (some es) true).run h = .ok (c, h') ∧
      h'.mem = without h.mem (p :: (dead b xs true ++ dead b xs false)) ∧ h'.WF ∧ Ample h' := by
  have L := launch_memory lib D leak fuel k es hes hb wf am o
  rw [hl] at L
  obtain ⟨h1, a, b1, xs1, r1, w1, o1, n1, g1, k1, wf1, am1⟩ := L
  obtain ⟨h2, r2, f2⟩ := free_run wf1 w1
  have o2 := o1.frame wf1 f2 (fun x hx => by simp; rintro rfl; exact n1 hx)
  obtain ⟨h3, r3, f3⟩ := photonFree_run f2.wf o2
  have F := (f2.ext (C := a :: foot p b1 xs1) (C' := foot p b1 xs1) (R := foot p b1 xs1) (by simp) (by simp)).trans wf1 f3
  refine ⟨h3, ?_, ?_, f3.wf, am1.frame F⟩
  · simp only [launchAndFree]
    rw [HM.run_bind_ok r1]
    simp only [Option.getD_some]
    rw [HM.bind_ofCM r2, HM.bind_ofCM r3]
    rfl
  · funext x
    by_cases hx : x ∈ a :: foot p b1 xs1
    · rw [F.gone x hx (by simp)]
      simp only [without]
      split
      · rfl
      · rename_i hn
        rcases g1 x hx with rfl | h6
        · simp at hn
        · exact h6.symm
    · rw [F.keep x hx (by simp), k1 x hx]
      have hp : p ∈ foot p b1 xs1 := mem_foot.mpr (by simp)
      have : x ≠ p := by rintro rfl; exact hx (by simp [hp])
      simp [without, this]

/-- **C81.**  A photon that has not recorded leaks before (for instance a new one): launch it, release the weights and the photon, and every
block it or the launch ever had is gone; everything else is untouched. -/
theorem launch_leaves_nothing (lib : Xray α) (D : Descr α) (leak : Bool) (fuel k : Nat) (es : List α) (hes : es ≠ []) (hb : es.any energyBad = false)
    {h : Heap (Block α)} (wf : h.WF) (am : Ample h) {n0 p : Nat} {b : Ph} {xs : Bool → List (Nat × Nat)} {P : Photon α}
    (o : Own h.mem n0 p false b xs (fun _ => 0) P) (he : P.ext = []) (hi : P.int = []) {c : Int} {w : WOut α} {P' : Photon α}
    (hl : launch lib (some D) leak fuel k (some P) (some es) true = .ok (c, w, some P')) :
    ∃ h', (launchAndFree lib (some D) leak fuel k (some p) P (some es) true).run h = .ok (c, h') ∧ h'.mem = without h.mem (foot p b xs) := by
  obtain ⟨h', r, m, -⟩ := launch_then_free lib D leak fuel k es hes hb wf am o hl
  refine ⟨h', r, m.trans ?_⟩
  have hx : ∀ s, xs s = [] := fun s => by
    have := (o.arrs s).leaks
    have hl : leaksOf P s = [] := by cases s <;> simp [leaksOf, he, hi]
    rw [hl] at this
    exact List.forall₂_nil_right_iff.mp this
  have e1 : b.en = none := o.en
  have e2 : b.w = none := o.w
  have e3 : b.amu = none := o.amu
  have e4 : b.sc = none := o.sc
  funext x
  have : x ∈ p :: (dead b xs true ++ dead b xs false) ↔ x ∈ foot p b xs := by
    simp [dead, hx, mem_foot, e1, e2, e3, e4, addrs]
    tauto
  simp only [without, this]

/-- **C81, finding.**  A photon with leaks from an earlier launch: after another launch, and after releasing weights and photon, the struct of
every earlier leak is still allocated, and no pointer to it is left (everything the photon owned is gone but these). -/
theorem second_launch_leaks (lib : Xray α) (D : Descr α) (leak : Bool) (fuel k : Nat) (es : List α) (hes : es ≠ []) (hb : es.any energyBad = false)
    {h : Heap (Block α)} (wf : h.WF) (am : Ample h) {n0 p : Nat} {b : Ph} {xs : Bool → List (Nat × Nat)} {P : Photon α}
    (o : Own h.mem n0 p false b xs (fun _ => 0) P) {c : Int} {w : WOut α} {P' : Photon α}
    (hl : launch lib (some D) leak fuel k (some P) (some es) true = .ok (c, w, some P')) :
    ∃ h', (launchAndFree lib (some D) leak fuel k (some p) P (some es) true).run h = .ok (c, h') ∧
      (∀ x ∈ structs xs, h'.mem x = h.mem x ∧ h.mem x ≠ none) ∧ (∀ x ∈ foot p b xs, x ∉ structs xs → h'.mem x = none) ∧
      (structs xs).length = P.ext.length + P.int.length ∧ (structs xs).Nodup := by
  obtain ⟨h', r, m, -⟩ := launch_then_free lib D leak fuel k es hes hb wf am o hl
  have one := o.one
  have sub : ∀ (zs : List (Nat × Nat)) (a : Nat), (addrs zs).count a = (zs.map (·.1)).count a + (zs.map (·.2)).count a := by
    intro zs a
    induction zs with
    | nil => rfl
    | cons z zs ih =>
      simp only [addrs, List.flatMap_cons, List.count_append, List.map_cons, List.count_cons, List.count_nil] at ih ⊢
      omega
  have cnt : ∀ a, (structs xs).count a + ((p :: (dead b xs true ++ dead b xs false)).count a + (b.en.toList.count a + b.w.toList.count a + b.amu.toList.count a + b.sc.toList.count a)) = (foot p b xs).count a := by
    intro a
    rw [foot_count p b xs true]
    simp only [structs, dead, List.count_append, List.count_cons, List.count_nil, sub, Bool.not_true]
    omega
  have e1 : b.en = none := o.en
  have e2 : b.w = none := o.w
  have e3 : b.amu = none := o.amu
  have e4 : b.sc = none := o.sc
  have cnt' : ∀ a, (structs xs).count a + (p :: (dead b xs true ++ dead b xs false)).count a = (foot p b xs).count a := by
    intro a; rw [← cnt a]; simp [e1, e2, e3, e4]
  refine ⟨h', r, fun x hx => ?_, fun x hx hn => ?_, ?_, ?_⟩
  · have h1 : 0 < (structs xs).count x := List.count_pos_iff.mpr hx
    have h2 := cnt' x
    have h3 := one x
    have hd : x ∉ p :: (dead b xs true ++ dead b xs false) := not_mem_count.mp (by omega)
    have hf : x ∈ foot p b xs := List.count_pos_iff.mp (by omega)
    refine ⟨by rw [m]; simp only [without, hd, if_false], o.live hf⟩
  · have h1 : 0 < (foot p b xs).count x := List.count_pos_iff.mpr hx
    have h2 := cnt' x
    have h3 := not_mem_count.mpr hn
    have hd : x ∈ p :: (dead b xs true ++ dead b xs false) := List.count_pos_iff.mp (by omega)
    rw [m]; simp only [without, hd, if_true]
  · have l1 := o.len true
    have l2 := o.len false
    simp only [leaksOf] at l1 l2
    simp [structs]
    simp at l1 l2
    omega
  · rw [List.nodup_iff_count_le_one]
    intro a
    have := cnt' a; have := one a; omega

/-- **C81.**  A refused launch (no photon, no energies, an energy out of range, no place for the weights) leaves the heap as it is and does not
set the weights. -/
theorem launch_refused_memory (lib : Xray α) (D : Option (Descr α)) (leak : Bool) (fuel k : Nat) (p : Ptr) (P : Photon α)
    (energies : Option (List α)) (wptr : Bool) (h : Heap (Block α))
    (hbad : p = none ∨ energies = none ∨ energies = some [] ∨ (∃ es, energies = some es ∧ es.any energyBad = true) ∨ wptr = false) :
    (launchM lib D leak fuel k p P energies wptr).run h = .ok ((-1, none, P), h) := by
  simp only [launchM]
  by_cases hp : p = none
  · rw [if_pos hp]; rfl
  · rw [if_neg hp]
    cases energies with
    | none => rfl
    | some es =>
      have : (es.isEmpty || es.any energyBad || !wptr) = true := by
        rcases hbad with h | h | h | ⟨es', h, h'⟩ | h
        · exact absurd h hp
        · cases h
        · injection h with h; subst h; rfl
        · injection h with h; subst h; simp [h']
        · simp [h]
      simp only [this, if_true]
      rfl

/-! ## Failing allocations -/

omit [CNum α] in
/-- the heap when the arrays of a launch are about to be allocated: the photon has no leaks and no arrays -/
theorem cleared {h : Heap (Block α)} (wf : h.WF) {n0 p : Nat} {b : Ph} {xs : Bool → List (Nat × Nat)} {P : Photon α}
    (o : Own h.mem n0 p false b xs (fun _ => 0) P) : ∃ h1, (clearOld (some p)).run h = some ((), h1) ∧
      h1.mem p = some (Ph.blk ⟨none, none, b.nE, b.nI, none, none, none, none⟩) ∧ h1.next = h.next ∧ h1.orc = h.orc ∧ h1.WF := by
  have hpl := o.lt wf (mem_foot.mpr (by simp) : p ∈ foot p b xs)
  have e1 : b.en = none := o.en
  have e2 : b.w = none := o.w
  have e3 : b.amu = none := o.amu
  have e4 : b.sc = none := o.sc
  refine ⟨_, clearOld_run o, ?_, rfl, rfl, fun x hx => ?_⟩
  · simp only [upd_same]; congr 2; rw [e1, e2, e3, e4]
  · simp only at hx ⊢
    rw [upd_other _ _ (by omega)]
    simp only [without]; split
    · rfl
    · exact wf x hx

/-- **C81, finding.**  When the array for the energies or the one for the weights cannot be allocated, the launch returns -1 but has released
the caller's photon: releasing the photon afterwards, as every caller must on -1, is a double free. -/
theorem launch_oom_frees_photon (lib : Xray α) (D : Descr α) (leak : Bool) (fuel k : Nat) (es : List α) (hes : es ≠ [])
    (hb : es.any energyBad = false) {h : Heap (Block α)} (wf : h.WF) {n0 p : Nat} {b : Ph} {xs : Bool → List (Nat × Nat)} {P : Photon α}
    (o : Own h.mem n0 p false b xs (fun _ => 0) P) (o0 : h.orc h.next = true)
    (hf : h.orc (h.next + 1) = false ∨ (h.orc (h.next + 1) = true ∧ h.orc (h.next + 2) = false)) :
    (∃ P' h', (launchM lib (some D) leak fuel k (some p) P (some es) true).run h = .ok ((-1, some (some h.next), P'), h') ∧ h'.mem p = none) ∧
    (launchAndFree lib (some D) leak fuel k (some p) P (some es) true).run h = .ub := by
  obtain ⟨h1, rc, hp, hn, ho, wf1⟩ := cleared wf o
  have hg : (es.isEmpty || es.any energyBad || !true) = false := by cases es <;> simp_all
  rw [← hn, ← ho] at hf
  rw [← hn, ← ho] at o0
  have hpl := live_lt wf1 hp
  rw [← hn]
  set n := h1.next with hnn
  have p1 : p ≠ n + 1 := by omega
  have p2 : p ≠ n + 2 := by omega
  have key : ∃ h', (launchArrays (some p) es).run h1 = some ((some n, false), h') ∧ h'.mem p = none ∧ h'.mem n = some (.raw es.length) := by
    rcases hf with h2 | ⟨h2, h3⟩
    · refine ⟨⟨upd (upd h1.mem n (some (.raw es.length))) p none, n + 2, h1.orc⟩, ?_, by simp, by simp [upd, hpl.ne']⟩
      simp [launchArrays, getPh, putPh, Ph.blk, photonFree, freeLeakArr, run_bind, run_malloc, run_load, run_store, run_free, upd, o0, h2, Nat.add_assoc, ← hnn, hpl.ne, hp]
      funext a
      simp only [upd]
      grind
    · refine ⟨⟨upd (upd h1.mem n (some (.raw es.length))) p none, n + 3, h1.orc⟩, ?_, by simp, by simp [upd, hpl.ne']⟩
      have hm := wf1 (n + 1) (by omega)
      simp [launchArrays, getPh, putPh, Ph.blk, photonFree, freeLeakArr, run_bind, run_malloc, run_load, run_store, run_free, upd, o0, h2, h3, Nat.add_assoc, ← hnn, hpl.ne, hp, p1, p1.symm]
      funext a
      simp only [upd]
      grind
  obtain ⟨h', r, hm, hw⟩ := key
  have L : (launchM lib (some D) leak fuel k (some p) P (some es) true).run h = .ok ((-1, some (some n), finish (launchInit lib D es P)), h') := by
    simp only [launchM, reduceCtorEq, if_false, hg, Bool.false_eq_true]
    rw [HM.bind_ofCM rc]
    simp only [launchBodyM]
    show ((HM.ofCM (launchArrays (some p) es) >>= _) >>= _ : HM (Block α) _).run h1 = _
    have assoc : ∀ {A B C : Type} (x : HM (Block α) A) (f : A → HM (Block α) B) (g : B → HM (Block α) C) (h : Heap (Block α)),
        ((x >>= f) >>= g).run h = (x.run h >>= fun y => (f y.1).run y.2) >>= fun y => (g y.1).run y.2 := fun _ _ _ _ => rfl
    rw [assoc, HM.run_ofCM r, Out.bind_ok]
    rfl
  refine ⟨⟨_, h', L, hm⟩, ?_⟩
  simp only [launchAndFree]
  rw [HM.run_bind_ok L]
  simp only [Option.getD_some]
  rw [HM.bind_ofCM (run_free_ok hw)]
  apply HM.run_bind_ub
  apply HM.run_ofCM_ub
  have : upd h'.mem n none p = none := by simp only [upd]; split <;> simp [hm]
  simp [photonFree, run_bind, run_load, this]

/-- **C81, finding.**  When one of the two arrays of material constants cannot be allocated, the launch uses the photon after releasing it. -/
theorem launch_oom_use_after_free (lib : Xray α) (D : Descr α) (leak : Bool) (fuel k : Nat) (es : List α) (hes : es ≠ [])
    (hb : es.any energyBad = false) (hs : scatfRejects D es = false) {h : Heap (Block α)} (wf : h.WF) {n0 p : Nat} {b : Ph}
    {xs : Bool → List (Nat × Nat)} {P : Photon α} (o : Own h.mem n0 p false b xs (fun _ => 0) P) (o0 : h.orc h.next = true)
    (o1 : h.orc (h.next + 1) = true) (o2 : h.orc (h.next + 2) = true)
    (hf : h.orc (h.next + 3) = false ∨ (h.orc (h.next + 3) = true ∧ h.orc (h.next + 4) = false)) :
    (launchM lib (some D) leak fuel k (some p) P (some es) true).run h = .ub := by
  obtain ⟨h1, rc, hp, hn, ho, wf1⟩ := cleared wf o
  have hg : (es.isEmpty || es.any energyBad || !true) = false := by cases es <;> simp_all
  rw [← hn, ← ho] at hf o0 o1 o2
  have hpl := live_lt wf1 hp
  set n := h1.next with hnn
  have p1 : p ≠ n + 1 := by omega
  have p2 : p ≠ n + 2 := by omega
  have p3 : p ≠ n + 3 := by omega
  have p4 : p ≠ n + 4 := by omega
  set m1 : Nat → Option (Block α) := upd (upd (upd (upd h1.mem n (some (.raw es.length))) (n + 1) (some (.doubles es))) (n + 2)
    (some (.doubles (es.map fun _ => lit 1)))) p (some (Ph.blk ⟨none, none, 0, 0, some (n + 1), some (n + 2), none, none⟩)) with hm1
  have r1 : (launchArrays (some p) es).run h1 = some ((some n, true), ⟨m1, n + 3, h1.orc⟩) := by
    simp [launchArrays, getPh, putPh, Ph.blk, storeArr, run_bind, run_malloc, run_load, run_store, upd, o0, o1, o2, Nat.add_assoc, ← hnn, hpl.ne, p1, p2, p1.symm, p2.symm, hp]
    funext a
    simp only [hm1, upd, Ph.blk, List.map_const']
    clear hm1 m1
    grind
  have hb1 : m1 p = some (Ph.blk ⟨none, none, 0, 0, some (n + 1), some (n + 2), none, none⟩) := by simp [hm1]
  have hb2 : m1 (n + 1) = some (.doubles es) := by simp [hm1, upd, p1.symm]
  have hb3 : m1 (n + 2) = some (.doubles (es.map fun _ => lit 1)) := by simp [hm1, upd, p2.symm]
  clear_value m1
  have r2 : ∀ amu sc : List α, ∃ h', (scatfM (some p) amu sc).run (⟨m1, n + 3, h1.orc⟩ : Heap (Block α)) = some (false, h') := by
    intro amu sc
    rcases hf with h3 | ⟨h3, h4⟩
    · simp [scatfM, getPh, putPh, Ph.blk, photonFree, freeLeakArr, run_bind, run_malloc, run_load, run_store, run_free, upd, h3, Nat.add_assoc, hb1, hb2, hb3, p1, p2, p1.symm, p2.symm]
    · simp [scatfM, getPh, putPh, Ph.blk, photonFree, freeLeakArr, run_bind, run_malloc, run_load, run_store, run_free, upd, h3, h4, Nat.add_assoc, hb1, hb2, hb3, p1, p2, p1.symm, p2.symm, p3, p3.symm]
  simp only [launchM, reduceCtorEq, if_false, hg, Bool.false_eq_true]
  rw [HM.bind_ofCM rc]
  apply HM.run_bind_ub
  simp only [launchBodyM]
  rw [HM.bind_ofCM r1]
  simp only [Bool.not_true, Bool.false_eq_true, if_false, hs]
  obtain ⟨h', r⟩ := r2 ((launchInit lib D es P).chans.map (·.amu)) ((launchInit lib D es P).chans.map (·.scatf))
  rw [HM.bind_ofCM r]
  rfl

/-- the start of a launch when only the returned array of weights could not be allocated -/
theorem start_null_run {h : Heap (Block α)} (wf : h.WF) (o0 : h.orc h.next = false) (am : ∀ n, h.next < n → h.orc n = true) {p nE nI : Nat}
    (hp : h.mem p = some (Ph.blk ⟨none, none, nE, nI, none, none, none, none⟩)) (lib : Xray α) (D : Descr α) (es : List α) (P : Photon α) :
    ∃ h1 h2, (launchArrays (some p) es).run h = some ((none, true), h1) ∧
      (if scatfRejects D es then (Pure.pure true : CM (Block α) Bool) else scatfM (some p) ((launchInit lib D es P).chans.map (·.amu))
        ((launchInit lib D es P).chans.map (·.scatf))).run h1 = some (true, h2) ∧
      Own h2.mem es.length p true (started (h.next + 1) (!scatfRejects D es)) (fun _ => []) (fun _ => 0) (launchInit lib D es P) ∧
      h2.WF ∧ Ample h2 := by
  have hpl := live_lt wf hp
  have or_ : ∀ k, h.orc (h.next + (k + 1)) = true := fun k => am _ (by omega)
  have or1 := or_ 0
  have or2 := or_ 1
  have or3 := or_ 2
  have or4 := or_ 3
  simp only [Nat.reduceAdd] at or1 or2 or3 or4
  set n := h.next with hn
  have e1 : (launchInit lib D es P).chans.map (·.e) = es := by simp [launchInit, Function.comp_def]
  have e2 : (launchInit lib D es P).chans.map (·.w) = es.map (fun _ => lit 1) := by simp [launchInit, Function.comp_def]
  have hlen : (launchInit lib D es P).chans.length = es.length := by simp [launchInit]
  have hco : (launchInit lib D es P).coef = !scatfRejects D es := rfl
  set Q := launchInit lib D es P with hQ
  have hx : Q.ext = [] := rfl
  have hi : Q.int = [] := rfl
  have p1 : p ≠ n + 1 := by omega
  have p2 : p ≠ n + 2 := by omega
  have p3 : p ≠ n + 3 := by omega
  have p4 : p ≠ n + 4 := by omega
  set m1 : Nat → Option (Block α) := upd (upd (upd h.mem (n + 1) (some (.doubles es))) (n + 2)
    (some (.doubles (es.map fun _ => lit 1)))) p (some (Ph.blk ⟨none, none, 0, 0, some (n + 1), some (n + 2), none, none⟩)) with hm1
  have r1 : (launchArrays (some p) es).run h = some ((none, true), ⟨m1, n + 3, h.orc⟩) := by
    simp [launchArrays, getPh, putPh, Ph.blk, storeArr, run_bind, run_malloc, run_load, run_store, upd, o0, or1, or2, Nat.add_assoc, ← hn, hpl.ne, p1, p2, p1.symm, p2.symm, hp]
    funext a
    simp only [hm1, upd, Ph.blk, List.map_const']
    clear hm1 m1 e1 e2 hlen hco hx hi hQ
    grind
  cases hr : scatfRejects D es with
  | true =>
    rw [hr] at hco
    refine ⟨_, ⟨m1, n + 3, h.orc⟩, r1, rfl, ?_, fun a ha => ?_, fun k hk => am k (by simp only at hk; omega)⟩
    · exact own_fresh (n := n + 1) (p := p) hx hi hlen false hco (by omega) (by simp [hm1]) (by simp [hm1, upd, p1.symm, e1])
        (by simp [hm1, upd, p2.symm, e2]) (by simp) (by simp)
    · simp only [hm1] at ha ⊢
      rw [upd_other _ _ (by omega), upd_other _ _ (by omega), upd_other _ _ (by omega)]
      exact wf a (by omega)
  | false =>
    rw [hr] at hco
    set m2 : Nat → Option (Block α) := upd (upd (upd m1 (n + 3) (some (.doubles (Q.chans.map (·.amu))))) (n + 4)
      (some (.doubles (Q.chans.map (·.scatf))))) p (some (Ph.blk ⟨none, none, 0, 0, some (n + 1), some (n + 2), some (n + 3), some (n + 4)⟩)) with hm2
    have r2 : (scatfM (some p) (Q.chans.map (·.amu)) (Q.chans.map (·.scatf))).run (⟨m1, n + 3, h.orc⟩ : Heap (Block α)) = some (true, ⟨m2, n + 5, h.orc⟩) := by
      have hb : m1 p = some (Ph.blk ⟨none, none, 0, 0, some (n + 1), some (n + 2), none, none⟩) := by simp [hm1]
      rw [hm2]
      clear_value m1
      simp [scatfM, getPh, putPh, Ph.blk, storeArr, run_bind, run_malloc, run_load, run_store, upd, or3, or4, Nat.add_assoc, hb, p3, p4, p3.symm, p4.symm]
      funext a
      simp only [upd]
      grind
    refine ⟨_, ⟨m2, n + 5, h.orc⟩, r1, by simpa using r2, ?_, fun a ha => ?_, fun k hk => am k (by simp only at hk; omega)⟩
    · exact own_fresh (n := n + 1) (p := p) hx hi hlen true hco (by omega) (by simp [hm2])
        (by simp [hm2, hm1, upd, p1.symm, e1]) (by simp [hm2, hm1, upd, p2.symm, e2])
        (fun _ => by simp [hm2, hm1, upd, p3.symm]) (fun _ => by simp [hm2, hm1, upd, p4.symm])
    · simp only [hm2, hm1] at ha ⊢
      rw [upd_other _ _ (by omega), upd_other _ _ (by omega), upd_other _ _ (by omega), upd_other _ _ (by omega), upd_other _ _ (by omega),
        upd_other _ _ (by omega)]
      exact wf a (by omega)

/-- **C81, finding.**  When only the array for the returned weights cannot be allocated, the launch of a photon that starts inside a capillary
does not fail: it never returns properly (whenever the tracing ends, the weights are copied to NULL). -/
theorem launch_oom_weights (lib : Xray α) (D : Descr α) (leak : Bool) (fuel k : Nat) (es : List α) (hes : es ≠ []) (hb : es.any energyBad = false)
    {h : Heap (Block α)} (wf : h.WF) {n0 p : Nat} {b : Ph} {xs : Bool → List (Nat × Nat)} {P : Photon α}
    (o : Own h.mem n0 p false b xs (fun _ => 0) P) (o0 : h.orc h.next = false) (am : ∀ n, h.next < n → h.orc n = true)
    {qr : Int × Int} (hc : launchCap D P.startC = some qr) (hw : startsInWall D qr P.startC = false) {c : Int} {w : WOut α} {P' : Photon α}
    (hl : launch lib (some D) leak fuel k (some P) (some es) true = .ok (c, w, some P')) :
    (launchM lib (some D) leak fuel k (some p) P (some es) true).run h = .ub := by
  obtain ⟨h1, rc, hp, hn, ho, wf1⟩ := cleared wf o
  have hg : (es.isEmpty || es.any energyBad || !true) = false := by cases es <;> simp_all
  have h0 : 0 < es.length := List.length_pos_iff.mpr hes
  obtain ⟨h2, h3, r2, r3, o3, wf3, am3⟩ := start_null_run wf1 (by rw [hn, ho]; exact o0) (by rw [hn, ho]; exact am) hp lib D es P
  have q1 : (launchInit lib D es P).startC = P.startC := rfl
  have hlaunch : launch lib (some D) leak fuel k (some P) (some es) true =
      (launchBody lib D leak fuel k P es >>= fun x => .ok (x.1, x.2.1, some x.2.2)) := by
    simp only [launch, hg, Bool.false_eq_true, if_false]
  rw [hlaunch, launchBody_eq, q1, hc] at hl
  simp only [launchFrom, q1, hw, Bool.false_eq_true, if_false, launchInside] at hl
  simp only [launchM, reduceCtorEq, if_false, hg, Bool.false_eq_true]
  rw [HM.bind_ofCM rc]
  apply HM.run_bind_ub
  simp only [launchBodyM]
  rw [HM.bind_ofCM r2]
  simp only [Bool.not_true, Bool.false_eq_true, if_false]
  rw [HM.bind_ofCM r3]
  simp only [Bool.not_true, Bool.false_eq_true, if_false, q1, hc]
  apply HM.run_bind_ub
  obtain ⟨h4, r4, m4, f4⟩ := malloc_run wf3 am3 (.raw (D.prof.nmax + 1))
  obtain ⟨h5, r5, m5, f5⟩ := malloc_run f4.wf (am3.frame f4) (.raw (D.prof.nmax + 1))
  have o5 := (o3.frame wf3 f4 (fun x _ => by simp)).frame f4.wf f5 (fun x _ => by simp)
  simp only [launchAxesM]
  rw [HM.bind_ofCM r4]
  simp only [reduceCtorEq, if_false]
  rw [HM.bind_ofCM r5]
  simp only [reduceCtorEq, if_false, q1, hw, Bool.false_eq_true, launchInsideM]
  have S := traceLoop_sim (trace_sim h0 D leak fuel k p (axX D qr) (axY D qr)) (D.prof.nmax + 1) 0
    (segIdFrom D.prof.z 0 P.startC.z (D.prof.nmax + 1)) (launchInit lib D es P) h5 _ _ f5.wf ((am3.frame f4).frame f5) o5
  generalize traceLoop (trace D leak fuel k (axX D qr) (axY D qr)) (D.prof.nmax + 1) 0 (segIdFrom D.prof.z 0 P.startC.z (D.prof.nmax + 1))
    (launchInit lib D es P) = v at S hl
  cases v with
  | ub => cases hl
  | fuel => cases hl
  | ok x =>
    obtain ⟨h6, b6, xs6, r6, o6, f6⟩ := S
    rw [HM.run_bind_ok r6, HM.bind_ofCM (getPh_run o6.blk)]
    obtain ⟨a, ha, hm⟩ := o6.w
    have hn1 : (x.2.2.chans.map (·.w)).length = (launchInit lib D es P).chans.length := by
      rw [List.length_map, o6.nch rfl, o3.nch rfl]
    rw [ha, HM.bind_ofCM (loadArr_run hm hn1)]
    apply HM.run_bind_ub
    apply HM.run_ofCM_ub
    rfl

end Polycap.LMem
