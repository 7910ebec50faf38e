import Verif.Props.LaunchMemBase

/-!
# Memory of a launch (C81): the operations on a photon's blocks
-/
namespace Polycap.LMem
open CNum CM Mem Memo

variable {α : Type}

theorem Own.sep {m : Nat → Option (Block α)} {ne p : Nat} {act : Bool} {b : Ph} {xs : Bool → List (Nat × Nat)} {r : Bool → Nat}
    {P : Photon α} (o : Own m ne p act b xs r P) {s : Bool} {q : Nat} (hq : b.arr s = some q) :
    q ≠ p ∧ b.en ≠ some q ∧ b.w ≠ some q ∧ b.amu ≠ some q ∧ b.sc ≠ some q ∧ b.arr (!s) ≠ some q ∧ ∀ s', q ∉ addrs (xs s') := by
  have h := o.one q
  rw [foot_count p b xs s, hq] at h
  simp only [Option.toList_some, List.count_singleton_self] at h
  have hc : ∀ {o : Ptr}, o.toList.count q = 0 → o ≠ some q := fun {o} h1 h2 => by rw [h2] at h1; simp at h1
  refine ⟨fun e => ?_, hc (by omega), hc (by omega), hc (by omega), hc (by omega), hc (by omega), fun s' => ?_⟩
  · subst e; simp only [List.count_singleton_self] at h; omega
  · refine List.count_eq_zero.mp ?_
    rcases bool_cases s s' with rfl | rfl <;> omega

theorem Own.len {m : Nat → Option (Block α)} {ne p : Nat} {act : Bool} {b : Ph} {xs : Bool → List (Nat × Nat)} {r : Bool → Nat}
    {P : Photon α} (o : Own m ne p act b xs r P) (s : Bool) : (xs s).length = (leaksOf P s).length := (o.arrs s).leaks.length_eq

theorem one_replace {p : Nat} {b b' : Ph} {xs xs' : Bool → List (Nat × Nat)} {n : Nat} (s : Bool) (h : ∀ a, (foot p b xs).count a ≤ 1)
    (hf : ∀ a ∈ foot p b xs, a < n) (he : b'.en = b.en) (hw : b'.w = b.w) (ha : b'.amu = b.amu) (hs : b'.sc = b.sc)
    (ho : b'.arr (!s) = b.arr (!s)) (hx : xs' (!s) = xs (!s))
    (hc : ∀ a, a < n → (addrs (xs' s)).count a + (b'.arr s).toList.count a ≤ (addrs (xs s)).count a + (b.arr s).toList.count a)
    (hn : ∀ a, n ≤ a → (addrs (xs' s)).count a + (b'.arr s).toList.count a ≤ 1) : ∀ a, (foot p b' xs').count a ≤ 1 := by
  intro a
  have h1 := h a
  have e := foot_count p b xs s a
  rw [foot_count p b' xs' s, he, hw, ha, hs, ho, hx]
  rcases Nat.lt_or_ge a n with hl | hl
  · have := hc a hl; omega
  · have : (foot p b xs).count a = 0 := List.count_eq_zero.mpr fun hm => by have := hf a hm; omega
    have := hn a hl; omega

/-- making room for `k` more leaks -/
theorem grow_run {h : Heap (Block α)} (wf : h.WF) (am : Ample h) {ne p : Nat} {act : Bool} {b : Ph} {xs : Bool → List (Nat × Nat)}
    {P : Photon α} (o : Own h.mem ne p act b xs (fun _ => 0) P) (s : Bool) (k : Nat) :
    ∃ h', (growLeaks s (some p) k).run h = some ((some h.next, (xs s).length), h') ∧
      Own h'.mem ne p act (b.set s (some h.next) ((xs s).length + k)) xs (Function.update (fun _ => 0) s k) P ∧
      Frame (foot p b xs) (foot p (b.set s (some h.next) ((xs s).length + k)) xs) h h' ∧
      ∀ a bl, h.mem a = some bl → a ≠ p → b.arr s ≠ some a → h'.mem a = some bl := by
  have hcnt : b.cnt s = (xs s).length := by rw [o.cnt s, o.len s]; rfl
  have hp := o.lt wf (mem_foot.mpr (by simp) : p ∈ foot p b xs)
  have hfl : ∀ a ∈ foot p b xs, a < h.next := fun a ha => o.lt wf ha
  -- the old array is not part of anything else
  have hsep : ∀ a, b.arr s = some a → a ∉ (foot p (b.set s (some h.next) ((xs s).length + k)) xs) := by
    intro a ha hm
    obtain ⟨h1, h2, h3, h4, h5, h6, h7⟩ := o.sep ha
    have hlt := hfl a (mem_foot_arr (s := s) (by simp [ha]))
    rcases mem_foot.mp hm with e | e | e | e | ⟨s', e⟩ | e
    · exact h2 (by simpa using e)
    · exact h3 (by simpa using e)
    · exact h4 (by simpa using e)
    · exact h5 (by simpa using e)
    · rcases List.mem_append.mp e with e | e
      · exact h7 s' e
      · rcases bool_cases s s' with rfl | rfl
        · simp at e; omega
        · exact h6 (by simpa using e)
    · exact h1 e
  have run1 := reallocPtrs_run wf am (o.arrs s) k
  set h1 : Heap (Block α) := ⟨upd (without h.mem (b.arr s).toList) h.next (some (.ptrs ((xs s).map (fun x => some x.1) ++ List.replicate k none))), h.next + 1, h.orc⟩ with hh1
  have hpb : h1.mem p = some b.blk := by
    have : p ∉ (b.arr s).toList := fun hm => by
      have := (o.sep (s := s) (q := p) (by simpa using hm)).1; exact this rfl
    simp only [hh1]
    rw [upd_other _ _ hp.ne]
    simp only [without, this, if_false]; exact o.blk
  set b' := b.set s (some h.next) ((xs s).length + k) with hb'
  set h2 : Heap (Block α) := { h1 with mem := upd h1.mem p (some b'.blk) } with hh2
  have other : ∀ a, a ≠ p → a ≠ h.next → a ∉ (b.arr s).toList → h2.mem a = h.mem a := by
    intro a e1 e2 e3
    simp only [hh2, hh1]
    rw [upd_other _ _ e1, upd_other _ _ e2]
    simp only [without, e3, if_false]
  have notold : ∀ a ∈ foot p b' xs, a ∉ (b.arr s).toList := fun a ha hm => hsep a (by simpa using hm) ha
  have keepx : ∀ a ∈ foot p b' xs, a ≠ p → a ≠ h.next → h2.mem a = h.mem a := fun a ha e1 e2 => other a e1 e2 (notold a ha)
  have inold : ∀ a ∈ foot p b' xs, a = h.next ∨ a ∈ foot p b xs := by
    intro a ha
    rcases mem_foot.mp ha with e | e | e | e | ⟨s', e⟩ | e
    · exact .inr (mem_foot.mpr (.inl (by simpa [hb'] using e)))
    · exact .inr (mem_foot.mpr (.inr <| .inl (by simpa [hb'] using e)))
    · exact .inr (mem_foot.mpr (.inr <| .inr <| .inl (by simpa [hb'] using e)))
    · exact .inr (mem_foot.mpr (.inr <| .inr <| .inr <| .inl (by simpa [hb'] using e)))
    · rcases List.mem_append.mp e with e | e
      · exact .inr (mem_foot_arr (s := s') (by simp [e]))
      · rcases bool_cases s s' with rfl | rfl
        · left; simp [hb'] at e; omega
        · exact .inr (mem_foot_arr (s := !s) (by simp [hb'] at e; simp [e]))
    · exact .inr (mem_foot.mpr (by simp [e]))
  have nearr : ∀ {q : Ptr} {oo : Option (List α)}, ArrIs h.mem q oo → (∀ a, q = some a → a ∈ foot p b' xs) → ArrIs h2.mem q oo := by
    intro q oo ha hm
    refine ha.congr fun a hq => keepx a (hm a hq) (fun e => ?_) (fun e => ?_)
    · cases oo with
      | none => rw [show q = none from ha] at hq; cases hq
      | some l =>
        obtain ⟨a', rfl, ha'⟩ := ha
        injection hq with hq; subst hq; subst e; rw [o.blk] at ha'; cases ha'
    · have := ha.live a hq; rw [e] at this; exact this (wf _ (le_refl _))
  have leakx : ∀ s', List.Forall₂ (fun x l => LeakAt h2.mem x (lv l)) (xs s') (leaksOf P s') := fun s' =>
    forall2_congr (o.arrs s').leaks fun a ha => keepx a (mem_foot_arr (s := s') (by simp [ha])) (fun e => by
      have := o.one p
      rw [foot_count p b xs s'] at this
      have : (addrs (xs s')).count p = 0 := by simp at this; omega
      exact List.count_eq_zero.mp this (e ▸ ha))
      (fun e => by have := hfl a (mem_foot_arr (s := s') (by simp [ha])); omega)
  refine ⟨h2, ?_, ?_, ?_, fun a bl ha e1 e2 => by
    rw [other a e1 (live_lt wf ha).ne (by simpa using e2)]; exact ha⟩
  · rw [growLeaks_eq, run_bind_some (getPh_run o.blk), hcnt, run_bind_some run1, run_bind_some (putPh_run hpb)]
    rfl
  · refine ⟨by simp [hh2], fun s' => ?_, fun s' => ?_, o.wts, o.nch, ?_, ?_, ?_, ?_, ?_⟩
    · rcases bool_cases s s' with rfl | rfl
      · refine ⟨fun hc => by simp [hb'] at hc, fun a ha => ?_, leakx _⟩
        have ha' : a = h.next := by simp [hb'] at ha; exact ha.symm
        subst ha'
        simp only [Function.update_self, hh2, hh1]
        rw [upd_other _ _ (by omega), upd_same]
      · have hne : (!s) ≠ s := by cases s <;> simp
        rw [Function.update_of_ne hne]
        have := o.arrs (!s)
        refine ⟨fun hc => this.null (by simpa [hb'] using hc), fun a ha => ?_, leakx _⟩
        have ha' : b.arr (!s) = some a := by simpa [hb'] using ha
        rw [keepx a (mem_foot_arr (s := !s) (by simp [ha])) (o.sep ha').1 (by have := hfl a (mem_foot_arr (s := !s) (by simp [ha'])); omega)]
        exact this.arr a ha'
    · rcases bool_cases s s' with rfl | rfl
      · simp [hb', o.len s']
      · have hne : (!s) ≠ s := by cases s <;> simp
        rw [Function.update_of_ne hne, hb', set_cnt_other]; exact o.cnt _
    · rw [hb', set_en]; exact nearr o.en fun a ha => mem_foot.mpr (by simp [hb', ha])
    · rw [hb', set_w]; exact nearr o.w fun a ha => mem_foot.mpr (by simp [hb', ha])
    · rw [hb', set_amu]; exact nearr o.amu fun a ha => mem_foot.mpr (by simp [hb', ha])
    · rw [hb', set_sc]; exact nearr o.sc fun a ha => mem_foot.mpr (by simp [hb', ha])
    · refine one_replace s o.one hfl (by simp [hb']) (by simp [hb']) (by simp [hb']) (by simp [hb']) (by simp [hb']) rfl ?_ ?_
      · intro a ha
        have : (b'.arr s).toList.count a = 0 := by simp [hb', List.count_cons]; omega
        omega
      · intro a ha
        have : (addrs (xs s)).count a = 0 := List.count_eq_zero.mpr fun hm => by have := hfl a (mem_foot_arr (s := s) (by simp [hm])); omega
        rw [this]; simp only [hb', set_arr_same, Option.toList_some, List.count_singleton]; split <;> omega
  · refine ⟨fun a ha hn => ?_, fun a ha hn => ?_, fun a ha => ?_, by simp [hh2, hh1], by simp [hh2, hh1], ?_⟩
    · have hal := hfl a ha
      have hap : a ≠ p := fun e => hn (mem_foot.mpr (by simp [e]))
      have : a ∈ (b.arr s).toList := by
        rcases mem_foot.mp ha with e | e | e | e | ⟨s', e⟩ | e
        · exact absurd (mem_foot.mpr (by simp [hb', e])) hn
        · exact absurd (mem_foot.mpr (by simp [hb', e])) hn
        · exact absurd (mem_foot.mpr (by simp [hb', e])) hn
        · exact absurd (mem_foot.mpr (by simp [hb', e])) hn
        · rcases List.mem_append.mp e with e | e
          · exact absurd (mem_foot_arr (s := s') (by simp [e])) hn
          · rcases bool_cases s s' with rfl | rfl
            · exact e
            · exact absurd (mem_foot_arr (s := !s) (by simp [hb']; right; simpa using e)) hn
        · exact absurd e hap
      simp only [hh2, hh1]
      rw [upd_other _ _ hap, upd_other _ _ (by omega)]
      simp only [without, this, if_true]
    · refine other a (fun e => hn (mem_foot.mpr (by simp [e]))) (fun e => hn (mem_foot_arr (s := s) (by simp [hb', e]))) (fun hm => ha (mem_foot_arr (s := s) (by simp at hm; simp [hm])))
    · rcases inold a ha with e | e
      · right; omega
      · exact .inl e
    · intro a ha
      simp only [hh2, hh1] at ha ⊢
      rw [upd_other _ _ (by omega), upd_other _ _ (by omega)]
      simp only [without]; split
      · rfl
      · exact wf a (by omega)

theorem forall2_append {A B : Type} {R : A → B → Prop} {xs ys : List A} {us vs : List B} (h : List.Forall₂ R xs us) (g : List.Forall₂ R ys vs) :
    List.Forall₂ R (xs ++ ys) (us ++ vs) := by
  induction h with
  | nil => exact g
  | cons h1 _ ih => exact .cons h1 ih

theorem or_shuffle {A B C D E F G : Prop} : (A ∨ B ∨ C ∨ D ∨ (E ∨ G) ∨ F) ↔ (A ∨ B ∨ C ∨ D ∨ E ∨ F) ∨ G := by tauto

theorem mem_addrs_snoc {xs : List (Nat × Nat)} {x : Nat × Nat} {a : Nat} : a ∈ addrs (xs ++ [x]) ↔ a ∈ addrs xs ∨ a = x.1 ∨ a = x.2 := by
  simp [addrs]

theorem leakNew_run {h : Heap (Block α)} (wf : h.WF) (am : Ample h) (l : Leak α) {ws : Nat} (hw : h.mem ws = some (.doubles l.weight)) :
    (leakNew l.coords l.dir l.elecv l.n_refl l.weight.length (some ws) none).run h = some ((some h.next, none),
      ⟨upd (upd h.mem h.next (some (.leak l.coords l.dir l.elecv l.weight.length (some (h.next + 1)) l.n_refl))) (h.next + 1) (some (.doubles l.weight)),
        h.next + 2, h.orc⟩) := by
  have hwl := live_lt wf hw
  have o0 := am h.next (le_refl _)
  have o1 := am (h.next + 1) (by omega)
  simp [leakNew, loadArr, storeArr, run_bind, run_malloc, run_load, run_store, o0, o1, upd, hw, hwl.ne, show ws ≠ h.next + 1 by omega]
  funext a
  simp only [upd]
  grind

theorem setPtrAt_run {h : Heap (Block α)} {q : Nat} {ps : List Ptr} (hq : h.mem q = some (.ptrs ps)) {i : Nat} (hi : i < ps.length) (x : Ptr) :
    (setPtrAt (some q) i x).run h = some ((), { h with mem := upd h.mem q (some (.ptrs (ps.set i x))) }) := by
  simp [setPtrAt, run_bind, run_load, hq, hi, run_store]

/-- one more leak, made from the weights in the array `ws`, is put into the first pending place -/
theorem put_run {h : Heap (Block α)} (wf : h.WF) (am : Ample h) {ne p : Nat} {act : Bool} {b : Ph} {xs : Bool → List (Nat × Nat)}
    {r : Bool → Nat} {P : Photon α} (o : Own h.mem ne p act b xs r P) (s : Bool) {k : Nat} (hr : r s = k + 1) (l : Leak α)
    (hl : l.weight.length = ne) {ws : Nat} (hw : h.mem ws = some (.doubles l.weight)) :
    ∃ h' xs', (leakNew l.coords l.dir l.elecv l.n_refl ne (some ws) none >>= fun x => setPtrAt (b.arr s) (xs s).length x.1).run h = some ((), h') ∧
      Own h'.mem ne p act b xs' (Function.update r s k) (addTo s P [l]) ∧ Frame (foot p b xs) (foot p b xs') h h' ∧
      (xs' s).length = (xs s).length + 1 ∧ ∀ a bl, h.mem a = some bl → b.arr s ≠ some a → h'.mem a = some bl := by
  have hne : (!s) ≠ s := by cases s <;> simp
  have hfl : ∀ a ∈ foot p b xs, a < h.next := fun a ha => o.lt wf ha
  obtain ⟨q, hq⟩ : ∃ q, b.arr s = some q := by
    cases hq : b.arr s with
    | none => have := ((o.arrs s).null hq).2; omega
    | some q => exact ⟨q, rfl⟩
  have hqm := (o.arrs s).arr q hq
  have hql := live_lt wf hqm
  have hwl := live_lt wf hw
  obtain ⟨n1, n2, n3, n4, n5, n6, n7⟩ := o.sep hq
  have hwq : ws ≠ q := by intro e; rw [e, hqm] at hw; cases hw
  have o0 := am h.next (le_refl _)
  have o1 := am (h.next + 1) (by omega)
  set ps := (xs s).map (fun x => some x.1) ++ List.replicate (r s) none with hps
  have hset : ps.set (xs s).length (some h.next) = (xs s ++ [(h.next, h.next + 1)]).map (fun x => some x.1) ++ List.replicate k none := by
    rw [hps, hr, List.replicate_succ]
    simp
  set h' : Heap (Block α) := ⟨upd (upd (upd h.mem q (some (.ptrs (ps.set (xs s).length (some h.next))))) h.next
    (some (.leak l.coords l.dir l.elecv ne (some (h.next + 1)) l.n_refl))) (h.next + 1) (some (.doubles l.weight)), h.next + 2, h.orc⟩ with hh'
  set xs' := Function.update xs s (xs s ++ [(h.next, h.next + 1)]) with hxs'
  have xs_same : xs' s = xs s ++ [(h.next, h.next + 1)] := by simp [hxs']
  have xs_other : xs' (!s) = xs (!s) := by rw [hxs', Function.update_of_ne hne]
  have other : ∀ a, a ≠ q → a < h.next → h'.mem a = h.mem a := by
    intro a e1 e2
    simp only [hh']
    rw [upd_other _ _ (by omega), upd_other _ _ (by omega), upd_other _ _ e1]
  have arrk : ∀ {q' : Ptr} {oo : Option (List α)}, ArrIs h.mem q' oo → q' ≠ some q → ArrIs h'.mem q' oo := by
    intro q' oo ha hn
    refine ha.congr fun a ha' => other a (fun e => hn (by rw [ha', e])) ?_
    have := ha.live a ha'
    by_contra hc
    exact this (wf a (by omega))
  have leakx : ∀ s', List.Forall₂ (fun x l => LeakAt h'.mem x (lv l)) (xs s') (leaksOf P s') := fun s' =>
    forall2_congr (o.arrs s').leaks fun a ha => other a (fun e => n7 s' (e ▸ ha)) (hfl a (mem_foot_arr (s := s') (by simp [ha])))
  have mem' : ∀ a, a ∈ foot p b xs' ↔ a ∈ foot p b xs ∨ a = h.next ∨ a = h.next + 1 := by
    intro a
    have e1 : (∃ s', a ∈ addrs (xs' s') ++ (b.arr s').toList) ↔ (∃ s', a ∈ addrs (xs s') ++ (b.arr s').toList) ∨ a = h.next ∨ a = h.next + 1 := by
      constructor
      · rintro ⟨s', hs⟩
        rcases bool_cases s s' with rfl | rfl
        · rw [xs_same, List.mem_append, mem_addrs_snoc] at hs
          rcases hs with (hs | hs) | hs
          · exact .inl ⟨s', by simp [hs]⟩
          · exact .inr hs
          · exact .inl ⟨s', List.mem_append.mpr (.inr hs)⟩
        · rw [xs_other] at hs; exact .inl ⟨_, hs⟩
      · rintro (⟨s', hs⟩ | hs)
        · rcases bool_cases s s' with rfl | rfl
          · refine ⟨s', ?_⟩
            rw [xs_same, List.mem_append, mem_addrs_snoc]
            rcases List.mem_append.mp hs with hs | hs
            · exact .inl (.inl hs)
            · exact .inr hs
          · exact ⟨_, by rw [xs_other]; exact hs⟩
        · exact ⟨s, by rw [xs_same, List.mem_append, mem_addrs_snoc]; exact .inl (.inr hs)⟩
    rw [mem_foot, mem_foot, e1]
    exact or_shuffle
  refine ⟨h', xs', ?_, ?_, ?_, by rw [xs_same]; simp, ?_⟩
  · rw [hq]
    have hlt : (xs s).length < ps.length := by rw [hps, hr]; simp
    subst hl
    rw [run_bind_some (leakNew_run wf am l hw), setPtrAt_run (ps := ps) (by simp [upd, hql.ne, show q ≠ h.next + 1 by omega, hqm]) hlt, hh']
    simp only [Option.some.injEq, Prod.mk.injEq, true_and]
    congr 1
    funext a
    simp only [upd]
    have := hql.ne
    by_cases e1 : a = q
    · subst e1; simp [hql.ne, show a ≠ h.next + 1 by omega]
    · simp [e1]
  · refine ⟨by rw [other p (Ne.symm n1) (hfl p (mem_foot.mpr (by simp)))]; exact o.blk, fun s' => ?_, fun s' => ?_, fun s' => ?_, fun ha => ?_,
      ?_, ?_, ?_, ?_, ?_⟩
    · rcases bool_cases s s' with rfl | rfl
      · refine ⟨fun hc => (by rw [hq] at hc; cases hc), fun a ha => ?_, ?_⟩
        · rw [hq] at ha; injection ha with ha; subst ha
          rw [xs_same, Function.update_self, ← hset]
          simp only [hh']
          rw [upd_other _ _ (by omega), upd_other _ _ (by omega), upd_same]
        · rw [xs_same, leaksOf_add_same]
          refine forall2_append (leakx _) (.cons ⟨?_, ?_⟩ .nil)
          · simp only [hh', lv, hl]
            rw [upd_other _ _ (by omega), upd_same]
          · simp only [hh', lv]; rw [upd_same]
      · rw [xs_other, Function.update_of_ne hne, leaksOf_add_other]
        have := o.arrs (!s)
        refine ⟨this.null, fun a ha => ?_, leakx _⟩
        rw [other a (fun e => n6 (by rw [ha, e])) (hfl a (mem_foot_arr (s := !s) (by simp [ha])))]
        exact this.arr a ha
    · rcases bool_cases s s' with rfl | rfl
      · rw [o.cnt, leaksOf_add_same, Function.update_self, hr]; simp; omega
      · rw [o.cnt, leaksOf_add_other, Function.update_of_ne hne]
    · rcases bool_cases s s' with rfl | rfl
      · rw [leaksOf_add_same]
        intro l' hl'
        rcases List.mem_append.mp hl' with h1 | h1
        · exact o.wts _ l' h1
        · simp at h1; rw [h1]; exact hl
      · rw [leaksOf_add_other]; exact o.wts _
    · rw [add_chans]; exact o.nch ha
    · rw [add_chans]; exact arrk o.en n2
    · rw [add_chans]; exact arrk o.w n3
    · rw [add_chans, add_coef]; exact arrk o.amu n4
    · rw [add_chans, add_coef]; exact arrk o.sc n5
    · refine one_replace s o.one hfl rfl rfl rfl rfl rfl xs_other ?_ ?_
      · intro a ha
        rw [xs_same, count_addrs_append]
        have : (addrs [(h.next, h.next + 1)]).count a = 0 := by simp [addrs, List.count_cons]; omega
        omega
      · intro a ha
        rw [xs_same, count_addrs_append]
        have e1 : (addrs (xs s)).count a = 0 := List.count_eq_zero.mpr fun hm => by have := hfl a (mem_foot_arr (s := s) (by simp [hm])); omega
        have e2 : (b.arr s).toList.count a = 0 := List.count_eq_zero.mpr fun hm => by have := hfl a (mem_foot_arr (s := s) (by simp at hm; simp [hm])); omega
        rw [e1, e2]
        simp only [addrs, List.flatMap_cons, List.flatMap_nil, List.append_nil, List.count_cons, List.count_nil, beq_iff_eq]
        split <;> split <;> omega
  · refine ⟨fun a ha hn => absurd ((mem' a).mpr (.inl ha)) hn, fun a ha hn => ?_, fun a ha => ?_, by simp [hh'], by simp [hh'], ?_⟩
    · rw [mem'] at hn
      push Not at hn
      simp only [hh']
      rw [upd_other _ _ hn.2.2, upd_other _ _ hn.2.1, upd_other _ _ (fun e => ha (mem_foot_arr (s := s) (by simp [hq, e])))]
    · rcases (mem' a).mp ha with e | e | e
      · exact .inl e
      · right; omega
      · right; omega
    · intro a ha
      simp only [hh'] at ha ⊢
      rw [upd_other _ _ (by omega), upd_other _ _ (by omega), upd_other _ _ (by omega)]
      exact wf a (by omega)
  · intro a bl ha hn
    rw [other a (fun e => hn (by rw [hq, e])) (live_lt wf ha), ha]

/-- recording a leak whose weights are in the array `ws` -/
theorem addLeak_run {h : Heap (Block α)} (wf : h.WF) (am : Ample h) {ne p : Nat} {act : Bool} {b : Ph} {xs : Bool → List (Nat × Nat)}
    {P : Photon α} (o : Own h.mem ne p act b xs (fun _ => 0) P) (s : Bool) (l : Leak α) (hl : l.weight.length = ne) {ws : Nat}
    (hw : h.mem ws = some (.doubles l.weight)) :
    ∃ h' b' xs', (addLeak s (some p) l ne (some ws)).run h = some (true, h') ∧ b'.w = b.w ∧
      Own h'.mem ne p act b' xs' (fun _ => 0) (addTo s P [l]) ∧ Frame (foot p b xs) (foot p b' xs') h h' := by
  obtain ⟨h1, r1, o1, f1, k1⟩ := grow_run wf am o s 1
  have hw1 : h1.mem ws = some (.doubles l.weight) := k1 ws _ hw (fun e => by rw [e, o.blk] at hw; cases hw)
    (fun e => by rw [(o.arrs s).arr ws e] at hw; cases hw)
  obtain ⟨h2, xs', r2, o2, f2, -⟩ := put_run f1.wf (am.frame f1) o1 s (k := 0) (by simp) l hl hw1
  refine ⟨h2, _, xs', ?_, ?_, ?_, f1.trans wf f2⟩
  · simp only [addLeak]
    rw [run_bind_some r1]
    simp only [reduceCtorEq, if_false]
    rw [set_arr_same] at r2
    cases hx : (leakNew l.coords l.dir l.elecv l.n_refl ne (some ws) none).run h1 with
    | none => rw [run_bind_none hx] at r2; cases r2
    | some y =>
      rw [run_bind_some hx] at r2 ⊢
      rw [run_bind_some r2]; rfl
  · simp
  · have e : Function.update (Function.update (fun _ : Bool => 0) s 1) s 0 = fun _ => 0 := by funext s'; cases s <;> cases s' <;> rfl
    rw [e] at o2; exact o2

theorem addTo_addTo (s : Bool) (P : Photon α) (l m : List (Leak α)) : addTo s (addTo s P l) m = addTo s P (l ++ m) := by
  cases s <;> simp [addTo]

theorem addTo_nil (s : Bool) (P : Photon α) : addTo s P [] = P := by cases s <;> simp [addTo]

/-- copying leaks that belong to something else into the pending places -/
theorem copy_run {ne p act s a o} {b : Ph} {sps : List Ptr} : ∀ {ls : List (Leak α)} {ys : List (Nat × Nat)} {i : Nat} {h : Heap (Block α)}
    {xs : Bool → List (Nat × Nat)} {r : Bool → Nat} {P : Photon α}, h.WF → Ample h → Own h.mem ne p act b xs r P → r s = ys.length →
    h.mem a = some (.ptrs sps) → a ∉ foot p b xs → (∀ (j : Nat) y, ys[j]? = some y → sps[i + j]? = some (some y.1)) →
    List.Forall₂ (fun x l => LeakAt h.mem x (lv l)) ys ls → (∀ x ∈ addrs ys, x ∉ foot p b xs) → (∀ l ∈ ls, l.weight.length = ne) →
    o + i = (xs s).length →
    ∃ h' xs', (copyLeaksM (some a) (b.arr s) o ne i ys.length).run h = some ((), h') ∧
      Own h'.mem ne p act b xs' (Function.update r s 0) (addTo s P ls) ∧ Frame (foot p b xs) (foot p b xs') h h'
  | [], ys, i, h, xs, r, P, wf, am, own, hr, ha, hna, hp, hf, hd, hw, ho => by
    cases hf
    refine ⟨h, xs, rfl, ?_, Frame.refl _ wf⟩
    have e : Function.update r s 0 = r := by
      have : r s = 0 := hr
      rw [← this, Function.update_eq_self]
    rw [e, addTo_nil]; exact own
  | l :: ls, ys', i, h, xs, r, P, wf, am, own, hr, ha, hna, hp, hf, hd, hw, ho => by
    cases hf with
    | @cons y _ ys _ hy hf =>
    have hw0 := hw l (by simp)
    have ry : y.2 ∉ foot p b xs := hd y.2 (by simp [addrs])
    obtain ⟨h1, xs1, r1, o1, f1, l1, -⟩ := put_run wf am own s (k := ys.length) (by rw [hr]; simp) l hw0 (ws := y.2) hy.2
    have keep : ∀ x ∈ addrs ys, h1.mem x = h.mem x ∧ x ∉ foot p b xs1 := by
      intro x hx
      have hl : h.mem x ≠ none := forall2_live hf x hx
      obtain ⟨bl, hbl⟩ := Option.ne_none_iff_exists'.mp hl
      have := f1.other wf hbl (hd x (by simp only [addrs, List.flatMap_cons, List.mem_append]; exact .inr hx))
      exact ⟨by rw [this.1, hbl], this.2⟩
    obtain ⟨ha1, hna1⟩ := f1.other wf ha hna
    obtain ⟨h2, xs2, r2, o2, f2⟩ := copy_run (s := s) (o := o) (i := i + 1) f1.wf (am.frame f1) o1 (by simp) ha1 hna1
      (fun j y' hj => by rw [show i + 1 + j = i + (j + 1) by omega]; exact hp (j + 1) y' (by simpa using hj))
      (forall2_congr hf fun x hx => (keep x hx).1) (fun x hx => (keep x hx).2) (fun l' hl' => hw l' (by simp [hl'])) (by rw [l1]; omega)
    refine ⟨h2, xs2, ?_, ?_, f1.trans wf f2⟩
    · rw [List.length_cons, copyLeaksM]
      have e1 : (ptrAt (some a) i).run h = some (some y.1, h) := by
        have := hp 0 y rfl
        simp only [Nat.add_zero] at this
        simp [ptrAt, run_bind, run_load, ha, this]
      rw [run_bind_some e1]
      have e2 : (load (some y.1)).run h = some (.leak l.coords l.dir l.elecv l.weight.length (some y.2) l.n_refl, h) := by
        rw [run_load, hy.1]; rfl
      rw [run_bind_some e2]
      simp only
      rw [← ho] at r1
      cases hx : (leakNew l.coords l.dir l.elecv l.n_refl ne (some y.2) none).run h with
      | none => rw [run_bind_none hx] at r1; cases r1
      | some z =>
        rw [run_bind_some hx] at r1 ⊢
        rw [run_bind_some r1]; exact r2
    · rw [addTo_addTo, Function.update_idem] at o2
      exact o2

/-- the leaks of one photon are added to those of another -/
theorem append_run {h : Heap (Block α)} (wf : h.WF) (am : Ample h) {ne p t : Nat} {act act' : Bool} {b bt : Ph} {xs xt : Bool → List (Nat × Nat)}
    {P T : Photon α} (o : Own h.mem ne p act b xs (fun _ => 0) P) (ot : Own h.mem ne t act' bt xt (fun _ => 0) T)
    (hd : ∀ a ∈ foot t bt xt, a ∉ foot p b xs) (s : Bool) :
    ∃ h' b' xs', (appendLeaks s (some p) (some t) ne).run h = some (true, h') ∧
      Own h'.mem ne p act b' xs' (fun _ => 0) (addTo s P (leaksOf T s)) ∧ Frame (foot p b xs) (foot p b' xs') h h' := by
  have hcnt : (if s then bt.nE else bt.nI) = (xt s).length := by
    have := ot.cnt s; rw [← ot.len s] at this; rw [← Nat.add_zero (xt s).length]; exact this
  have harr : (if s then bt.ext else bt.int) = bt.arr s := rfl
  simp only [appendLeaks]
  rw [run_bind_some (getPh_run ot.blk)]
  simp only [hcnt, harr]
  by_cases h0 : (xt s).length = 0
  · rw [if_pos h0]
    have : leaksOf T s = [] := by rw [← List.length_eq_zero_iff, ← ot.len s]; exact h0
    exact ⟨h, b, xs, rfl, by rw [this, addTo_nil]; exact o, Frame.refl _ wf⟩
  · rw [if_neg h0]
    obtain ⟨a, ha⟩ : ∃ a, bt.arr s = some a := by
      cases hq : bt.arr s with
      | none => have := ((ot.arrs s).null hq).1; rw [this] at h0; simp at h0
      | some q => exact ⟨q, rfl⟩
    have ham := (ot.arrs s).arr a ha
    have hat : a ∈ foot t bt xt := mem_foot_arr (s := s) (by simp [ha])
    obtain ⟨h1, r1, o1, f1, -⟩ := grow_run wf am o s (xt s).length
    have keep : ∀ x ∈ foot t bt xt, h1.mem x = h.mem x ∧ x ∉ foot p (b.set s (some h.next) ((xs s).length + (xt s).length)) xs := by
      intro x hx
      obtain ⟨bl, hbl⟩ := Option.ne_none_iff_exists'.mp (ot.live hx)
      have := f1.other wf hbl (hd x hx)
      exact ⟨by rw [this.1, hbl], this.2⟩
    have e : Function.update (Function.update (fun _ : Bool => 0) s (xt s).length) s 0 = fun _ => 0 := by
      rw [Function.update_idem]; exact Function.update_eq_self s _
    obtain ⟨h2, xs2, r2, o2, f2⟩ := copy_run (s := s) (o := (xs s).length) (i := 0) (ys := xt s) (ls := leaksOf T s) f1.wf (am.frame f1) o1 (by simp)
      (by rw [(keep a hat).1]; exact ham) (keep a hat).2
      (fun j y hj => by
        rw [Nat.zero_add, List.getElem?_append_left (by rw [List.length_map]; exact (List.getElem?_eq_some_iff.1 hj).1), List.getElem?_map, hj]; rfl)
      (forall2_congr (ot.arrs s).leaks fun x hx => (keep x (mem_foot_arr (s := s) (by simp [hx]))).1)
      (fun x hx => (keep x (mem_foot_arr (s := s) (by simp [hx]))).2) (ot.wts s) (by omega)
    rw [e] at o2
    refine ⟨h2, _, xs2, ?_, o2, f1.trans wf f2⟩
    rw [run_bind_some r1]
    simp only [reduceCtorEq, if_false]
    rw [set_arr_same] at r2
    rw [ha, run_bind_some r2]; rfl

/-- releasing a photon -/
theorem photonFree_run {h : Heap (Block α)} (wf : h.WF) {ne p : Nat} {act : Bool} {b : Ph} {xs : Bool → List (Nat × Nat)}
    {P : Photon α} (o : Own h.mem ne p act b xs (fun _ => 0) P) :
    ∃ h', (photonFree (some p)).run h = some ((), h') ∧ Frame (foot p b xs) [] h h' := by
  have opt : ∀ s, OptLeaks h.mem (b.arr s) (xs s) (b.cnt s) := by
    intro s
    have L := o.arrs s
    cases hq : b.arr s with
    | none => exact (L.null hq).1
    | some a =>
      refine ⟨by rw [o.cnt s, o.len s]; rfl, (leaksOf P s).map lv, ⟨[], ?_⟩, by rw [List.length_map]; exact o.len s, fun i x v hx hv => ?_⟩
      · have := L.arr a hq; simpa using this
      · rw [List.getElem?_map] at hv
        obtain ⟨l, hl, rfl⟩ := Option.map_eq_some_iff.mp hv
        obtain ⟨h1, h2⟩ := List.getElem?_eq_some_iff.1 hx
        obtain ⟨h3, h4⟩ := List.getElem?_eq_some_iff.1 hl
        have := List.forall₂_iff_get.mp L.leaks
        have := this.2 i h1 h3
        simp only [List.get_eq_getElem, h2, h4] at this
        exact this
  have H : PhotonAt h.mem p b.ext b.int (xs true) (xs false) b.en b.w b.amu b.sc :=
    ⟨⟨b.nE, b.nI, o.blk, opt true, opt false⟩, o.en.opt, o.w.opt, o.amu.opt, o.sc.opt⟩
  have r := (photon_free_correct h).2 _ _ _ _ _ _ _ _ _ H (foot_nodup o.one)
  refine ⟨_, r, fun a ha _ => if_pos ha, fun a ha _ => if_neg ha, by simp, le_refl _, rfl, fun a ha => ?_⟩
  simp only [without]; split
  · rfl
  · exact wf a ha

/-- the four working arrays of a photon -/
def Ph.work (b : Ph) : List Nat := b.en.toList ++ b.w.toList ++ b.amu.toList ++ b.sc.toList

def Ph.bare (b : Ph) : Ph := { b with en := none, w := none, amu := none, sc := none }

@[simp] theorem bare_arr (b : Ph) (s : Bool) : b.bare.arr s = b.arr s := by cases s <;> rfl
@[simp] theorem bare_cnt (b : Ph) (s : Bool) : b.bare.cnt s = b.cnt s := by cases s <;> rfl

theorem count_work (b : Ph) (a : Nat) : b.work.count a = b.en.toList.count a + b.w.toList.count a + b.amu.toList.count a + b.sc.toList.count a := by
  simp [Ph.work]; omega

theorem foot_split (p : Nat) (b : Ph) (xs : Bool → List (Nat × Nat)) (a : Nat) : (foot p b xs).count a = b.work.count a + (foot p b.bare xs).count a := by
  rw [foot_count p b xs true, foot_count p b.bare xs true, count_work]
  simp [Ph.bare]
  show _ = _ + (List.count a (addrs (xs true)) + List.count a (b.arr true).toList + (List.count a (addrs (xs false)) + List.count a (b.arr false).toList) + _)
  omega

/-- the working arrays are released -/
theorem freeWork_run {h : Heap (Block α)} (wf : h.WF) {ne p : Nat} {b : Ph} {xs : Bool → List (Nat × Nat)} {r : Bool → Nat}
    {P : Photon α} (o : Own h.mem ne p true b xs r P) :
    ∃ h', (freeWork (some p)).run h = some ((), h') ∧ Own h'.mem ne p false b.bare xs r (finish P) ∧ Frame (foot p b xs) (foot p b.bare xs) h h' := by
  have hfl : ∀ a ∈ foot p b xs, a < h.next := fun a ha => o.lt wf ha
  have hmem : ∀ a, a ∈ foot p b xs ↔ a ∈ b.work ∨ a ∈ foot p b.bare xs := by
    intro a
    rw [← List.count_pos_iff, ← List.count_pos_iff, ← List.count_pos_iff, foot_split]; omega
  have hdis : ∀ a ∈ b.work, a ∉ foot p b.bare xs := by
    intro a h1 h2
    have := o.one a
    rw [foot_split] at this
    rw [← List.count_pos_iff] at h1 h2; omega
  have hwn : b.work.Nodup := List.nodup_iff_count_le_one.mpr fun a => by have := o.one a; rw [foot_split] at this; omega
  have hpw : p ∉ b.work := fun hm => hdis p hm (mem_foot.mpr (by simp))
  set h' : Heap (Block α) := ⟨upd (without h.mem b.work) p (some b.bare.blk), h.next, h.orc⟩ with hh'
  have hkeep : ∀ a ∈ foot p b.bare xs, a ≠ p → h'.mem a = h.mem a := by
    intro a ha e
    simp only [hh']
    rw [upd_other _ _ e]
    exact if_neg fun hm => hdis a hm ha
  have hwork := hwn
  simp only [Ph.work, List.nodup_append] at hwn
  refine ⟨h', ?_, ?_, ?_⟩
  · simp only [freeWork]
    rw [run_bind_some (getPh_run o.blk), run_bind_some (free_opt h b.en o.en.live)]
    have live : ∀ (q : Ptr) (oo : Option (List α)) (l : List Nat), ArrIs h.mem q oo → (∀ a ∈ l, ∀ a' ∈ q.toList, a ≠ a') →
        ∀ a, q = some a → without h.mem l a ≠ none := by
      intro q oo l hq hl a ha
      have : a ∉ l := fun hm => hl a hm a (by simp [ha]) rfl
      simp only [without, this, if_false]; exact hq.live a ha
    rw [run_bind_some (free_opt _ b.w (live b.w _ _ o.w hwn.1.1.2.2)), run_bind_some (free_opt _ b.amu (by
      simp only [without_append]; exact live b.amu _ _ o.amu hwn.1.2.2)), run_bind_some (free_opt _ b.sc (by
      simp only [without_append]; exact live b.sc _ _ o.sc hwn.2.2))]
    simp only [without_append]
    rw [putPh_run (b := b) (by simp only [without]; rw [if_neg (by exact hpw)]; exact o.blk)]
    rfl
  · refine ⟨by simp [hh'], fun s => ?_, fun s => ?_, o.wts, by simp, rfl, rfl, rfl, rfl, fun a => ?_⟩
    · rw [bare_arr]
      refine (o.arrs s).congr fun a ha => hkeep a (mem_foot_arr (s := s) (by rw [bare_arr]; exact ha)) ?_
      rintro rfl
      have := o.one a
      rw [foot_count a b xs s] at this
      simp only [List.count_singleton_self] at this
      rcases List.mem_append.mp ha with h1 | h1 <;> rw [← List.count_pos_iff] at h1 <;> omega
    · rw [bare_cnt]; exact o.cnt s
    · have := o.one a; rw [foot_split] at this; omega
  · refine ⟨fun a ha hn => ?_, fun a ha hn => ?_, fun a ha => .inl ((hmem a).mpr (.inr ha)), le_refl _, rfl, fun a ha => ?_⟩
    · have hw : a ∈ b.work := ((hmem a).mp ha).resolve_right hn
      simp only [hh']
      rw [upd_other _ _ (by rintro rfl; exact hpw hw)]
      exact if_pos hw
    · simp only [hh']
      rw [upd_other _ _ (fun e => hn (mem_foot.mpr (by simp [e])))]
      exact if_neg fun hm => ha ((hmem a).mpr (.inl hm))
    · simp only [hh'] at ha ⊢
      rw [upd_other _ _ (by have := hfl p (mem_foot.mpr (by simp)); omega)]
      simp only [without]; split
      · rfl
      · exact wf a ha

/-- new weights are written to the photon's array -/
theorem storeW_run {h : Heap (Block α)} (wf : h.WF) {ne p : Nat} {b : Ph} {xs : Bool → List (Nat × Nat)} {r : Bool → Nat}
    {P P' : Photon α} (o : Own h.mem ne p true b xs r P) (hx : P'.ext = P.ext) (hi : P'.int = P.int) (hc : P'.coef = P.coef)
    (hl : P'.chans.length = P.chans.length) (he : P'.chans.map (·.e) = P.chans.map (·.e)) (ha : P'.chans.map (·.amu) = P.chans.map (·.amu))
    (hs : P'.chans.map (·.scatf) = P.chans.map (·.scatf)) :
    ∃ h', (storeArr b.w (P'.chans.map (·.w))).run h = some ((), h') ∧ Own h'.mem ne p true b xs r P' ∧ Frame (foot p b xs) (foot p b xs) h h' := by
  obtain ⟨a, hw, hm⟩ := o.w
  have hal := live_lt wf hm
  have one := o.one a
  rw [foot_count p b xs true, hw] at one
  simp only [Option.toList_some, List.count_singleton_self] at one
  have cz : ∀ {q : Ptr}, q.toList.count a = 0 → q ≠ some a := fun {q} h1 h2 => by rw [h2] at h1; simp at h1
  have lk : ∀ s, leaksOf P' s = leaksOf P s := fun s => by cases s <;> simp [leaksOf, hx, hi]
  refine ⟨{ h with mem := upd h.mem a (some (.doubles (P'.chans.map (·.w)))) }, ?_, ?_, ?_⟩
  · rw [hw]
    simp [storeArr, run_bind, run_load, hm, run_store, hl]
  · have ne' : ∀ {q : Ptr} {oo : Option (List α)}, ArrIs h.mem q oo → q ≠ some a →
        ArrIs (upd h.mem a (some (.doubles (P'.chans.map (·.w))))) q oo := fun h1 h2 =>
      h1.congr fun y hy => upd_other _ _ fun e => h2 (by rw [hy, e])
    refine ⟨?_, fun s => ?_, fun s => by rw [lk]; exact o.cnt s, fun s => by rw [lk]; exact o.wts s, fun h1 => by rw [hl]; exact o.nch h1,
      ?_, ⟨a, hw, upd_same _ _ _⟩, ?_, ?_, o.one⟩
    · show upd h.mem a _ p = _
      rw [upd_other]
      · exact o.blk
      · rintro rfl; simp only [List.count_singleton_self] at one; omega
    · rw [lk]
      refine (o.arrs s).congr fun y hy => upd_other _ _ ?_
      rintro rfl
      rcases List.mem_append.mp hy with h1 | h1 <;> rw [← List.count_pos_iff] at h1 <;> cases s <;> simp only [Bool.not_true] at one <;> omega
    · rw [he]; exact ne' o.en (cz (by omega))
    · rw [ha, hc]; exact ne' o.amu (cz (by omega))
    · rw [hs, hc]; exact ne' o.sc (cz (by omega))
  · have hin : a ∈ foot p b xs := mem_foot.mpr (by simp [hw])
    refine ⟨fun _ h1 h2 => absurd h1 h2, fun x h1 _ => upd_other _ _ fun e => h1 (e ▸ hin), fun _ h1 => .inl h1, le_refl _, rfl, fun x hx => ?_⟩
    simp only at hx ⊢
    rw [upd_other _ _ (by omega)]; exact wf x hx

/-- a fresh photon with its four arrays -/
theorem own_fresh {m : Nat → Option (Block α)} {n p ne : Nat} {P : Photon α} (hx : P.ext = []) (hi : P.int = []) (hc : P.chans.length = ne)
    (co : Bool) (hco : P.coef = co) (hp : p < n)
    (m0 : m p = some (Ph.blk ⟨none, none, 0, 0, some n, some (n + 1), if co then some (n + 2) else none, if co then some (n + 3) else none⟩))
    (m1 : m n = some (.doubles (P.chans.map (·.e)))) (m2 : m (n + 1) = some (.doubles (P.chans.map (·.w))))
    (m3 : co = true → m (n + 2) = some (.doubles (P.chans.map (·.amu)))) (m4 : co = true → m (n + 3) = some (.doubles (P.chans.map (·.scatf)))) :
    Own m ne p true ⟨none, none, 0, 0, some n, some (n + 1), if co then some (n + 2) else none, if co then some (n + 3) else none⟩
      (fun _ => []) (fun _ => 0) P where
  blk := m0
  arrs s := by
    have : leaksOf P s = [] := by cases s <;> simp [leaksOf, hx, hi]
    rw [this]
    exact ⟨fun _ => ⟨rfl, rfl⟩, fun a ha => by cases s <;> simp [Ph.arr] at ha, .nil⟩
  cnt s := by cases s <;> simp [Ph.cnt, leaksOf, hx, hi]
  wts s := by cases s <;> simp [leaksOf, hx, hi]
  nch _ := hc
  en := ⟨n, rfl, m1⟩
  w := ⟨n + 1, rfl, m2⟩
  amu := by
    rw [hco]
    cases co with
    | false => rfl
    | true => exact ⟨n + 2, rfl, m3 rfl⟩
  sc := by
    rw [hco]
    cases co with
    | false => rfl
    | true => exact ⟨n + 3, rfl, m4 rfl⟩
  one a := by
    rw [foot_count _ _ _ true]
    cases co
    · simp only [Ph.arr, addrs, List.flatMap_nil, Option.toList_none, Option.toList_some, List.count_nil, List.count_singleton, if_true, if_false,
        Bool.false_eq_true, Bool.not_true, beq_iff_eq]
      split <;> split <;> split <;> omega
    · simp only [Ph.arr, addrs, List.flatMap_nil, Option.toList_none, Option.toList_some, List.count_nil, List.count_singleton, if_true, if_false,
        Bool.false_eq_true, Bool.not_true, beq_iff_eq]
      split <;> split <;> split <;> split <;> split <;> omega

theorem free_run {h : Heap (Block α)} (wf : h.WF) {a : Nat} {bl : Block α} (ha : h.mem a = some bl) :
    ∃ h', (free (some a)).run h = some ((), h') ∧ Frame [a] [] h h' := by
  refine ⟨_, run_free_ok ha, fun x hx _ => ?_, fun x hx _ => ?_, by simp, le_refl _, rfl, fun x hx => ?_⟩
  · simp at hx; simp [hx]
  · simp at hx; simp [upd, hx]
  · simp only [upd]; split
    · rfl
    · exact wf x hx

theorem malloc_run {h : Heap (Block α)} (wf : h.WF) (am : Ample h) (bl : Block α) :
    ∃ h', (malloc bl).run h = some (some h.next, h') ∧ h'.mem h.next = some bl ∧ Frame [] [h.next] h h' := by
  refine ⟨⟨upd h.mem h.next (some bl), h.next + 1, h.orc⟩, by rw [run_malloc, if_pos (am _ (le_refl _))], upd_same _ _ _, by simp, fun x _ hx => ?_, fun x hx => ?_, by simp, rfl, fun x hx => ?_⟩
  · simp at hx; simp [upd, hx]
  · simp at hx; right; omega
  · simp only at hx ⊢
    rw [upd_other _ _ (by omega)]; exact wf x (by omega)

/-- the temporary photon and its two axis arrays -/
theorem tempNew_run {h : Heap (Block α)} (wf : h.WF) (am : Ample h) {ne : Nat} {T : Photon α} (hx : T.ext = []) (hi : T.int = [])
    (hc : T.chans.length = ne) (hco : T.coef = true) (nax : Nat) :
    ∃ h' t bt cx cy, (tempNew (T.chans.map (·.e)) (T.chans.map (·.w)) (T.chans.map (·.amu)) (T.chans.map (·.scatf)) nax).run h =
        some (some (some t, some cx, some cy), h') ∧
      Own h'.mem ne t true bt (fun _ => []) (fun _ => 0) T ∧ h'.mem cx = some (.raw nax) ∧ h'.mem cy = some (.raw nax) ∧ cx ≠ cy ∧
      cx ∉ foot t bt (fun _ => []) ∧ cy ∉ foot t bt (fun _ => []) ∧ Frame [] (foot t bt (fun _ => []) ++ [cx, cy]) h h' := by
  have or_ : ∀ k, h.orc (h.next + k) = true := fun k => am _ (by omega)
  have o0 : h.orc h.next = true := or_ 0
  set n := h.next with hn
  refine ⟨⟨upd (upd (upd (upd (upd (upd (upd h.mem n (some (Ph.blk ⟨none, none, 0, 0, some (n + 1), some (n + 2), some (n + 3), some (n + 4)⟩)))
      (n + 1) (some (.doubles (T.chans.map (·.e))))) (n + 2) (some (.doubles (T.chans.map (·.w))))) (n + 3) (some (.doubles (T.chans.map (·.amu)))))
      (n + 4) (some (.doubles (T.chans.map (·.scatf))))) (n + 5) (some (.raw nax))) (n + 6) (some (.raw nax)), n + 7, h.orc⟩, n,
      ⟨none, none, 0, 0, some (n + 1), some (n + 2), some (n + 3), some (n + 4)⟩, n + 5, n + 6, ?_, ?_, ?_, ?_, by omega, ?_, ?_, ?_⟩
  · simp [tempNew, scatfM, getPh, putPh, Ph.blk, storeArr, run_bind, run_malloc, run_load, run_store, upd, o0, or_, Nat.add_assoc, ← hn]
    funext a
    simp only [upd]
    grind
  · exact own_fresh (n := n + 1) (p := n) hx hi hc true hco (by omega) (by simp [upd]) (by simp [upd]) (by simp [upd]) (fun _ => by simp [upd])
      (fun _ => by simp [upd])
  · simp [upd]
  · simp [upd]
  · simp [foot, owned, addrs]
  · simp [foot, owned, addrs]
  · have hm : ∀ a, a ∈ foot n ⟨none, none, 0, 0, some (n + 1), some (n + 2), some (n + 3), some (n + 4)⟩ (fun _ => []) ++ [n + 5, n + 6] ↔
        n ≤ a ∧ a < n + 7 := by
      intro a
      simp [foot, owned, addrs]
      omega
    refine ⟨by simp, fun a _ ha => ?_, fun a ha => ?_, by simp only; omega, rfl, fun a ha => ?_⟩
    · rw [hm] at ha
      simp only
      rw [upd_other _ _ (by omega), upd_other _ _ (by omega), upd_other _ _ (by omega), upd_other _ _ (by omega), upd_other _ _ (by omega),
        upd_other _ _ (by omega), upd_other _ _ (by omega)]
    · rw [hm] at ha; right; omega
    · simp only at ha ⊢
      rw [upd_other _ _ (by omega), upd_other _ _ (by omega), upd_other _ _ (by omega), upd_other _ _ (by omega), upd_other _ _ (by omega),
        upd_other _ _ (by omega), upd_other _ _ (by omega)]
      exact wf a (by omega)

/-- the temporary photon and its axis arrays are released -/
theorem tempFree_run {h : Heap (Block α)} (wf : h.WF) {ne t : Nat} {bt : Ph} {xt : Bool → List (Nat × Nat)} {T : Photon α} {act : Bool}
    (o : Own h.mem ne t act bt xt (fun _ => 0) T) {cx cy : Nat} {bx by' : Block α} (hx : h.mem cx = some bx) (hy : h.mem cy = some by') (hxy : cx ≠ cy)
    (nx : cx ∉ foot t bt xt) (ny : cy ∉ foot t bt xt) :
    ∃ h', (tempFree (some t) (some cx) (some cy)).run h = some ((), h') ∧ Frame (foot t bt xt ++ [cx, cy]) [] h h' := by
  obtain ⟨h1, r1, f1⟩ := photonFree_run wf o
  obtain ⟨h2, r2, f2⟩ := free_run f1.wf (f1.other wf hx nx).1
  obtain ⟨h3, r3, f3⟩ := free_run f2.wf (f2.other f1.wf (f1.other wf hy ny).1 (by simp; exact hxy.symm)).1
  refine ⟨h3, ?_, ?_⟩
  · simp only [tempFree]
    rw [run_bind_some r1, run_bind_some r2]; exact r3
  · have g1 := f1.add [cx, cy]
    have g2 := (f2.add [cy]).congr (C := [] ++ [cx, cy]) (C' := [] ++ [cy]) (by simp) (by simp)
    have g3 := f3.congr (C := [] ++ [cy]) (C' := []) (by simp) (by simp)
    exact (g1.trans wf g2).trans wf g3

end Polycap.LMem
