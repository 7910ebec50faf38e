import Verif.LaunchMem
import Verif.Props.MemoryProps

/-!
# Memory of a launch (C81): specification of ownership and the building blocks
-/
namespace Polycap.LMem
open CNum CM Mem Memo

variable {α : Type}

/-! ## Specification -/

/-- a leak event as the caller sees it -/
def lv (l : Leak α) : LView α := ⟨l.coords, l.dir, l.elecv, l.n_refl, l.weight⟩

/-- external (`true`) and internal leaks of a photon, and the corresponding members of its struct -/
def leaksOf (P : Photon α) (s : Bool) : List (Leak α) := if s then P.ext else P.int
def Ph.arr (b : Ph) (s : Bool) : Ptr := if s then b.ext else b.int
def Ph.cnt (b : Ph) (s : Bool) : Nat := if s then b.nE else b.nI
def Ph.set (b : Ph) (s : Bool) (q : Ptr) (n : Nat) : Ph := if s then { b with ext := q, nE := n } else { b with int := q, nI := n }
def addTo (s : Bool) (P : Photon α) (ls : List (Leak α)) : Photon α :=
  if s then { P with ext := P.ext ++ ls } else { P with int := P.int ++ ls }

/-- every block a photon at `p` owns -/
def foot (p : Nat) (b : Ph) (xs : Bool → List (Nat × Nat)) : List Nat :=
  owned p b.ext b.int (xs true) (xs false) b.en b.w b.amu b.sc

/-- The array `q` holds the leaks `ls` (in the blocks `xs`) and `r` pointers still to be set. -/
structure LArr (m : Nat → Option (Block α)) (q : Ptr) (xs : List (Nat × Nat)) (ls : List (Leak α)) (r : Nat) : Prop where
  null : q = none → xs = [] ∧ r = 0
  arr : ∀ a, q = some a → m a = some (.ptrs (xs.map (fun x => some x.1) ++ List.replicate r none))
  leaks : List.Forall₂ (fun x l => LeakAt m x (lv l)) xs ls

/-- the pointer `q` is NULL, or an array of these numbers -/
def ArrIs (m : Nat → Option (Block α)) (q : Ptr) : Option (List α) → Prop
  | none => q = none
  | some xs => ∃ a, q = some a ∧ m a = some (.doubles xs)

/-- The photon struct at `p` has the pointers and counters `b`; its leaks are those of the value `P`; during a launch (`act`) it has its
working arrays with the contents in `P`, otherwise none; all blocks are different. `ne`: the number of energies. -/
structure Own (m : Nat → Option (Block α)) (ne p : Nat) (act : Bool) (b : Ph) (xs : Bool → List (Nat × Nat)) (r : Bool → Nat) (P : Photon α) :
    Prop where
  blk : m p = some b.blk
  arrs : ∀ s, LArr m (b.arr s) (xs s) (leaksOf P s) (r s)
  cnt : ∀ s, b.cnt s = (leaksOf P s).length + r s
  wts : ∀ s, ∀ l ∈ leaksOf P s, l.weight.length = ne
  nch : act = true → P.chans.length = ne
  en : ArrIs m b.en (if act then some (P.chans.map (·.e)) else none)
  w : ArrIs m b.w (if act then some (P.chans.map (·.w)) else none)
  amu : ArrIs m b.amu (if act && P.coef then some (P.chans.map (·.amu)) else none)
  sc : ArrIs m b.sc (if act && P.coef then some (P.chans.map (·.scatf)) else none)
  one : ∀ a, (foot p b xs).count a ≤ 1

/-- From `h` to `h'` the blocks `A` have been replaced by the blocks `A'`; nothing else has changed. -/
structure Frame {B : Type} (A A' : List Nat) (h h' : Heap B) : Prop where
  gone : ∀ a ∈ A, a ∉ A' → h'.mem a = none
  keep : ∀ a, a ∉ A → a ∉ A' → h'.mem a = h.mem a
  fresh : ∀ a ∈ A', a ∈ A ∨ h.next ≤ a
  next : h.next ≤ h'.next
  orc : h'.orc = h.orc
  wf : h'.WF

/-- no allocation fails from here on -/
def Ample {B : Type} (h : Heap B) : Prop := ∀ n, h.next ≤ n → h.orc n = true

/-! ## Frames -/

theorem Frame.refl {B : Type} (A : List Nat) {h : Heap B} (wf : h.WF) : Frame A A h h :=
  ⟨fun _ h1 h2 => absurd h1 h2, fun _ _ _ => rfl, fun _ ha => .inl ha, le_refl _, rfl, wf⟩

theorem Frame.trans {B : Type} {A A' A'' : List Nat} {h h1 h2 : Heap B} (wf : h.WF) (f : Frame A A' h h1) (g : Frame A' A'' h1 h2) :
    Frame A A'' h h2 where
  gone a ha hn := by
    by_cases hb : a ∈ A'
    · exact g.gone a hb hn
    · rw [g.keep a hb hn]; exact f.gone a ha hb
  keep a ha hn := by
    by_cases hb : a ∈ A'
    · rw [g.gone a hb hn]
      rcases f.fresh a hb with h | h
      · exact absurd h ha
      · exact (wf a h).symm
    · rw [g.keep a hb hn, f.keep a ha hb]
  fresh a ha := by
    rcases g.fresh a ha with h | h
    · exact f.fresh a h
    · exact .inr (f.next.trans h)
  next := f.next.trans g.next
  orc := g.orc.trans f.orc
  wf := g.wf

theorem Frame.add {B : Type} {A A' : List Nat} {h h' : Heap B} (f : Frame A A' h h') (F : List Nat) : Frame (A ++ F) (A' ++ F) h h' where
  gone a ha hn := by
    rw [List.mem_append] at ha hn
    push Not at hn
    exact f.gone a (ha.resolve_right hn.2) hn.1
  keep a ha hn := by
    rw [List.mem_append] at ha hn
    push Not at ha hn
    exact f.keep a ha.1 hn.1
  fresh a ha := by
    rw [List.mem_append] at ha ⊢
    rcases ha with h | h
    · exact (f.fresh a h).imp .inl id
    · exact .inl (.inr h)
  next := f.next
  orc := f.orc
  wf := f.wf

theorem Frame.congr {B : Type} {A A' C C' : List Nat} {h h' : Heap B} (f : Frame A A' h h') (h1 : ∀ a, a ∈ C ↔ a ∈ A) (h2 : ∀ a, a ∈ C' ↔ a ∈ A') :
    Frame C C' h h' where
  gone a ha hn := f.gone a ((h1 a).mp ha) (fun x => hn ((h2 a).mpr x))
  keep a ha hn := f.keep a (fun x => ha ((h1 a).mpr x)) (fun x => hn ((h2 a).mpr x))
  fresh a ha := (f.fresh a ((h2 a).mp ha)).imp (h1 a).mpr id
  next := f.next
  orc := f.orc
  wf := f.wf

theorem Ample.frame {B : Type} {A A' : List Nat} {h h' : Heap B} (x : Ample h) (f : Frame A A' h h') : Ample h' :=
  fun n hn => by rw [f.orc]; exact x n (f.next.trans hn)

/-- blocks that do not belong to `A` stay as they are -/
theorem Frame.other {B : Type} {A A' : List Nat} {h h' : Heap B} (f : Frame A A' h h') (wf : h.WF) {a : Nat} {b : B} (ha : h.mem a = some b)
    (hn : a ∉ A) : h'.mem a = some b ∧ a ∉ A' := by
  have : a ∉ A' := fun hm => by
    rcases f.fresh a hm with h | hx
    · exact hn h
    · rw [wf a hx] at ha; cases ha
  exact ⟨by rw [f.keep a hn this, ha], this⟩

/-! ## Ownership -/

theorem ArrIs.congr {m m' : Nat → Option (Block α)} {q : Ptr} {o : Option (List α)} (h : ArrIs m q o) (e : ∀ a, q = some a → m' a = m a) :
    ArrIs m' q o := by
  cases o with
  | none => exact h
  | some xs => obtain ⟨a, rfl, ha⟩ := h; exact ⟨a, rfl, by rw [e a rfl]; exact ha⟩

theorem ArrIs.live {m : Nat → Option (Block α)} {q : Ptr} {o : Option (List α)} (h : ArrIs m q o) : ∀ a, q = some a → m a ≠ none := by
  intro a ha
  cases o with
  | none => rw [show q = none from h] at ha; cases ha
  | some xs => obtain ⟨b, rfl, hb⟩ := h; injection ha with e; subst e; rw [hb]; simp

theorem ArrIs.opt {m : Nat → Option (Block α)} {q : Ptr} {o : Option (List α)} (h : ArrIs m q o) : OptArr m q := by
  intro a ha
  cases o with
  | none => rw [show q = none from h] at ha; cases ha
  | some xs => obtain ⟨b, rfl, hb⟩ := h; injection ha with e; subst e; exact ⟨xs, hb⟩

theorem forall2_congr {m m' : Nat → Option (Block α)} {xs : List (Nat × Nat)} {ls : List (Leak α)}
    (h : List.Forall₂ (fun x l => LeakAt m x (lv l)) xs ls) (e : ∀ a ∈ addrs xs, m' a = m a) :
    List.Forall₂ (fun x l => LeakAt m' x (lv l)) xs ls := by
  induction h with
  | nil => exact .nil
  | cons hx _ ih =>
    refine .cons (hx.mono (e _ (by simp [addrs])) (e _ (by simp [addrs]))) (ih fun a ha => e a ?_)
    simp only [addrs, List.flatMap_cons, List.mem_append]; exact .inr ha

theorem LArr.congr {m m' : Nat → Option (Block α)} {q : Ptr} {xs : List (Nat × Nat)} {ls : List (Leak α)} {r : Nat} (h : LArr m q xs ls r)
    (e : ∀ a ∈ addrs xs ++ q.toList, m' a = m a) : LArr m' q xs ls r where
  null := h.null
  arr a ha := by rw [e a (by simp [ha])]; exact h.arr a ha
  leaks := forall2_congr h.leaks fun a ha => e a (by simp [ha])

theorem mem_foot {p : Nat} {b : Ph} {xs : Bool → List (Nat × Nat)} {a : Nat} : a ∈ foot p b xs ↔
    b.en = some a ∨ b.w = some a ∨ b.amu = some a ∨ b.sc = some a ∨ (∃ s, a ∈ addrs (xs s) ++ (b.arr s).toList) ∨ a = p := by
  simp [foot, owned, Ph.arr, or_assoc]
  tauto

theorem mem_foot_arr {p : Nat} {b : Ph} {xs : Bool → List (Nat × Nat)} {s : Bool} {a : Nat} (h : a ∈ addrs (xs s) ++ (b.arr s).toList) :
    a ∈ foot p b xs := mem_foot.mpr (.inr <| .inr <| .inr <| .inr <| .inl ⟨s, h⟩)

theorem Own.congr {m m' : Nat → Option (Block α)} {ne p : Nat} {act : Bool} {b : Ph} {xs : Bool → List (Nat × Nat)} {r : Bool → Nat}
    {P : Photon α} (o : Own m ne p act b xs r P) (e : ∀ a ∈ foot p b xs, m' a = m a) : Own m' ne p act b xs r P where
  blk := by rw [e p (mem_foot.mpr (by simp))]; exact o.blk
  arrs s := (o.arrs s).congr fun a ha => e a (mem_foot_arr ha)
  cnt := o.cnt
  wts := o.wts
  nch := o.nch
  en := o.en.congr fun a ha => e a (mem_foot.mpr (by simp [ha]))
  w := o.w.congr fun a ha => e a (mem_foot.mpr (by simp [ha]))
  amu := o.amu.congr fun a ha => e a (mem_foot.mpr (by simp [ha]))
  sc := o.sc.congr fun a ha => e a (mem_foot.mpr (by simp [ha]))
  one := o.one

theorem forall2_live {m : Nat → Option (Block α)} {xs : List (Nat × Nat)} {ls : List (Leak α)}
    (h : List.Forall₂ (fun x l => LeakAt m x (lv l)) xs ls) : ∀ a ∈ addrs xs, m a ≠ none := by
  induction h with
  | nil => simp [addrs]
  | cons hx _ ih =>
    intro a ha
    simp only [addrs, List.flatMap_cons, List.mem_append, List.mem_cons, List.not_mem_nil, or_false] at ha
    rcases ha with (rfl | rfl) | ha
    · rw [hx.1]; simp
    · rw [hx.2]; simp
    · exact ih a ha

theorem Own.live {m : Nat → Option (Block α)} {ne p : Nat} {act : Bool} {b : Ph} {xs : Bool → List (Nat × Nat)} {r : Bool → Nat}
    {P : Photon α} (o : Own m ne p act b xs r P) {a : Nat} (ha : a ∈ foot p b xs) : m a ≠ none := by
  rcases mem_foot.mp ha with h | h | h | h | ⟨s, h⟩ | rfl
  · exact o.en.live a h
  · exact o.w.live a h
  · exact o.amu.live a h
  · exact o.sc.live a h
  · rcases List.mem_append.mp h with h | h
    · exact forall2_live (o.arrs s).leaks a h
    · rw [(o.arrs s).arr a (by simpa using h)]; simp
  · rw [o.blk]; simp

theorem Own.lt {h : Heap (Block α)} {ne p : Nat} {act : Bool} {b : Ph} {xs : Bool → List (Nat × Nat)} {r : Bool → Nat}
    {P : Photon α} (o : Own h.mem ne p act b xs r P) (wf : h.WF) {a : Nat} (ha : a ∈ foot p b xs) : a < h.next := by
  by_contra hn
  exact o.live ha (wf a (by omega))

theorem Own.frame {h h' : Heap (Block α)} {ne p : Nat} {act : Bool} {b : Ph} {xs : Bool → List (Nat × Nat)} {r : Bool → Nat}
    {P : Photon α} (o : Own h.mem ne p act b xs r P) (wf : h.WF) {A A' : List Nat} (f : Frame A A' h h')
    (hd : ∀ a ∈ foot p b xs, a ∉ A) : Own h'.mem ne p act b xs r P :=
  o.congr fun a ha => f.keep a (hd a ha) fun hm => by
    rcases f.fresh a hm with h | h
    · exact hd a ha h
    · have := o.lt wf ha; omega

theorem count_addrs_append (xs ys : List (Nat × Nat)) (a : Nat) : (addrs (xs ++ ys)).count a = (addrs xs).count a + (addrs ys).count a := by
  simp [addrs, List.count_append]

theorem foot_count (p : Nat) (b : Ph) (xs : Bool → List (Nat × Nat)) (s : Bool) (a : Nat) : (foot p b xs).count a =
    (addrs (xs s)).count a + (b.arr s).toList.count a + ((addrs (xs !s)).count a + (b.arr !s).toList.count a) +
      (b.en.toList.count a + b.w.toList.count a + b.amu.toList.count a + b.sc.toList.count a + [p].count a) := by
  cases s <;> simp only [foot, owned, List.count_append, Ph.arr, Bool.not_true, Bool.not_false, Bool.false_eq_true, if_false, if_true] <;> omega

theorem foot_nodup {p : Nat} {b : Ph} {xs : Bool → List (Nat × Nat)} (h : ∀ a, (foot p b xs).count a ≤ 1) : (foot p b xs).Nodup :=
  List.nodup_iff_count_le_one.mpr h

theorem not_mem_count {l : List Nat} {a : Nat} : l.count a = 0 ↔ a ∉ l := List.count_eq_zero

@[simp] theorem set_arr_same (b : Ph) (s : Bool) (q : Ptr) (n : Nat) : (b.set s q n).arr s = q := by cases s <;> rfl
@[simp] theorem set_arr_other (b : Ph) (s : Bool) (q : Ptr) (n : Nat) : (b.set s q n).arr (!s) = b.arr (!s) := by cases s <;> rfl
@[simp] theorem set_cnt_same (b : Ph) (s : Bool) (q : Ptr) (n : Nat) : (b.set s q n).cnt s = n := by cases s <;> rfl
@[simp] theorem set_cnt_other (b : Ph) (s : Bool) (q : Ptr) (n : Nat) : (b.set s q n).cnt (!s) = b.cnt (!s) := by cases s <;> rfl
@[simp] theorem set_en (b : Ph) (s : Bool) (q : Ptr) (n : Nat) : (b.set s q n).en = b.en := by cases s <;> rfl
@[simp] theorem set_w (b : Ph) (s : Bool) (q : Ptr) (n : Nat) : (b.set s q n).w = b.w := by cases s <;> rfl
@[simp] theorem set_amu (b : Ph) (s : Bool) (q : Ptr) (n : Nat) : (b.set s q n).amu = b.amu := by cases s <;> rfl
@[simp] theorem set_sc (b : Ph) (s : Bool) (q : Ptr) (n : Nat) : (b.set s q n).sc = b.sc := by cases s <;> rfl
@[simp] theorem leaksOf_add_same (P : Photon α) (s : Bool) (ls : List (Leak α)) : leaksOf (addTo s P ls) s = leaksOf P s ++ ls := by cases s <;> rfl
@[simp] theorem leaksOf_add_other (P : Photon α) (s : Bool) (ls : List (Leak α)) : leaksOf (addTo s P ls) (!s) = leaksOf P (!s) := by cases s <;> rfl
@[simp] theorem add_chans (P : Photon α) (s : Bool) (ls : List (Leak α)) : (addTo s P ls).chans = P.chans := by cases s <;> rfl
@[simp] theorem add_coef (P : Photon α) (s : Bool) (ls : List (Leak α)) : (addTo s P ls).coef = P.coef := by cases s <;> rfl

theorem bool_cases (s s' : Bool) : s' = s ∨ s' = !s := by cases s <;> cases s' <;> simp

/-! ## Steps -/

theorem getPh_run {h : Heap (Block α)} {p : Nat} {b : Ph} (hb : h.mem p = some b.blk) : (getPh (some p)).run h = some (b, h) := by
  simp [getPh, run_bind, run_load, hb, Ph.blk]

theorem putPh_run {h : Heap (Block α)} {p : Nat} {b b' : Ph} (hb : h.mem p = some b.blk) :
    (putPh (some p) b').run h = some ((), { h with mem := upd h.mem p (some b'.blk) }) := by
  simp [putPh, run_store, hb]

theorem wf_upd {B : Type} {h : Heap B} (wf : h.WF) {a : Nat} {v : Option B} (ha : a < h.next) (n : Nat) (hn : h.next ≤ n) (o : Nat → Bool) :
    (⟨upd h.mem a v, n, o⟩ : Heap B).WF := by
  intro x hx
  show upd h.mem a v x = none
  rw [upd_other _ _ (by simp only at hx; omega)]
  exact wf x (by simp only at hx; omega)

theorem reallocPtrs_run {h : Heap (Block α)} (wf : h.WF) (am : Ample h) {q : Ptr} {xs : List (Nat × Nat)} {ls : List (Leak α)}
    (L : LArr h.mem q xs ls 0) (k : Nat) : (reallocPtrs q (xs.length + k)).run h = some (some h.next,
      ⟨upd (without h.mem q.toList) h.next (some (.ptrs (xs.map (fun x => some x.1) ++ List.replicate k none))), h.next + 1, h.orc⟩) := by
  have o0 := am h.next (le_refl _)
  cases q with
  | none =>
    obtain ⟨rfl, -⟩ := L.null rfl
    simp [reallocPtrs, run_malloc, o0, without_nil]
  | some a =>
    have ha := L.arr a rfl
    have lt := live_lt wf ha
    simp only [List.replicate_zero, List.append_nil] at ha
    simp only [reallocPtrs, reduceCtorEq, if_false, run_bind, run_load, ha, run_malloc, o0, if_true, List.length_map, Nat.add_sub_cancel_left]
    rw [run_free_ok (b := .ptrs (xs.map fun x => some x.1)) (by simp [upd, lt.ne, ha])]
    simp only [run_pure, Option.some.injEq, Prod.mk.injEq, true_and]
    congr 1
    funext x
    simp only [upd, without, Option.toList_some, List.mem_singleton]
    grind

theorem growLeaks_eq (s : Bool) (p : Ptr) (k : Nat) : (growLeaks s p k : CM (Block α) (Ptr × Nat)) = (do
    let b ← getPh p
    let q ← reallocPtrs (b.arr s) (b.cnt s + k)
    putPh p (b.set s q (b.cnt s + k))
    pure (q, b.cnt s)) := by cases s <;> rfl

end Polycap.LMem
