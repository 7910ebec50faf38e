import Verif.SimMem
import Verif.Props.LaunchMemUse

/-!
# Memory of a simulation (C83): separated pieces of the heap
-/
namespace Polycap.SMem
open CNum CM Mem Memo LMem

variable {α : Type}

/-- a statement about some blocks of the heap -/
structure Piece (B : Type) where
  /-- the blocks -/
  F : List Nat
  holds : (Nat → Option B) → Prop
  loc : ∀ {m m' : Nat → Option B}, (∀ a ∈ F, m' a = m a) → holds m → holds m'
  live : ∀ {m : Nat → Option B}, holds m → ∀ a ∈ F, m a ≠ none

def feet {B : Type} (ps : List (Piece B)) : List Nat := ps.flatMap (·.F)

/-- The heap `m` is the heap `m0` together with the pieces `ps`, which are in separate blocks; nothing else is allocated, and nothing of `m0`
has changed. -/
structure Sep {B : Type} (m0 : Nat → Option B) (ps : List (Piece B)) (m : Nat → Option B) : Prop where
  holds : ∀ p ∈ ps, p.holds m
  one : ∀ a, (feet ps).count a ≤ 1
  new : ∀ a ∈ feet ps, m0 a = none
  rest : ∀ a, a ∉ feet ps → m a = m0 a

variable {B : Type}

theorem feet_append (ps qs : List (Piece B)) : feet (ps ++ qs) = feet ps ++ feet qs := by simp [feet]
theorem feet_cons (p : Piece B) (qs : List (Piece B)) : feet (p :: qs) = p.F ++ feet qs := by simp [feet]
@[simp] theorem feet_nil : feet ([] : List (Piece B)) = [] := rfl
theorem feet_single (p : Piece B) : feet [p] = p.F := by simp [feet]

theorem Sep.perm {m0 : Nat → Option B} {ps qs : List (Piece B)} {m : Nat → Option B} (h : Sep m0 ps m) (e : ps.Perm qs) : Sep m0 qs m := by
  have ef : (feet ps).Perm (feet qs) := e.flatMap_right _
  exact ⟨fun p hp => h.holds p (e.mem_iff.mpr hp), fun a => by rw [← ef.count_eq]; exact h.one a, fun a ha => h.new a (ef.mem_iff.mpr ha),
    fun a ha => h.rest a (fun x => ha (ef.mem_iff.mp x))⟩

theorem Sep.live {m0 : Nat → Option B} {ps : List (Piece B)} {m : Nat → Option B} (h : Sep m0 ps m) {a : Nat} (ha : a ∈ feet ps) : m a ≠ none := by
  obtain ⟨p, hp, ha⟩ := List.mem_flatMap.mp ha
  exact p.live (h.holds p hp) a ha

theorem Sep.nil {m0 m : Nat → Option B} (h : Sep m0 [] m) : m = m0 := funext fun a => h.rest a (by simp)

theorem Sep.refl (m : Nat → Option B) : Sep m [] m := ⟨by simp, by simp, by simp, fun _ _ => rfl⟩

theorem Sep.nodup {m0 : Nat → Option B} {p : Piece B} {ps : List (Piece B)} {m : Nat → Option B} (h : Sep m0 ps m) (hp : p ∈ ps) : p.F.Nodup := by
  rw [List.nodup_iff_count_le_one]
  intro a
  obtain ⟨s, t, rfl⟩ := List.append_of_mem hp
  have := h.one a
  simp only [feet_append, feet_cons, List.count_append] at this
  omega

/-- two pieces of a separated heap have no block in common -/
theorem Sep.disj {m0 : Nat → Option B} {p q : Piece B} {ps : List (Piece B)} {m : Nat → Option B} (h : Sep m0 (p :: q :: ps) m) {a : Nat}
    (ha : a ∈ p.F) : a ∉ q.F := by
  have := h.one a
  simp only [feet_cons, List.count_append] at this
  have h1 := List.count_pos_iff.mpr ha
  exact not_mem_count.mp (by omega)

theorem Sep.disj' {m0 : Nat → Option B} {ps qs : List (Piece B)} {m : Nat → Option B} (h : Sep m0 (ps ++ qs) m) {a : Nat}
    (ha : a ∈ feet ps) : a ∉ feet qs := by
  have := h.one a
  simp only [feet_append, List.count_append] at this
  have h1 := List.count_pos_iff.mpr ha
  exact not_mem_count.mp (by omega)

/-- replacing some pieces; new blocks were not allocated before -/
theorem Sep.change {m0 : Nat → Option B} {ps qs rs : List (Piece B)} {m m' : Nat → Option B} (s : Sep m0 (ps ++ rs) m)
    (gone : ∀ a ∈ feet ps, a ∉ feet qs → m' a = none) (keep : ∀ a, a ∉ feet ps → a ∉ feet qs → m' a = m a)
    (fresh : ∀ a ∈ feet qs, a ∈ feet ps ∨ m a = none) (hq : ∀ q ∈ qs, q.holds m') (one : ∀ a, (feet qs).count a ≤ 1) : Sep m0 (qs ++ rs) m' := by
  have sep : ∀ a ∈ feet rs, a ∉ feet ps ∧ a ∉ feet qs := fun a ha => by
    have h1 : a ∉ feet ps := fun h2 => s.disj' h2 ha
    refine ⟨h1, fun h2 => ?_⟩
    rcases fresh a h2 with h3 | h3
    · exact h1 h3
    · exact s.live (by rw [feet_append]; exact List.mem_append_right _ ha) h3
  refine ⟨fun p hp => ?_, fun a => ?_, fun a ha => ?_, fun a ha => ?_⟩
  · rcases List.mem_append.mp hp with h1 | h1
    · exact hq p h1
    · refine p.loc (fun a ha => ?_) (s.holds p (List.mem_append_right _ h1))
      have := sep a (List.mem_flatMap.mpr ⟨p, h1, ha⟩)
      exact keep a this.1 this.2
  · rw [feet_append, List.count_append]
    by_cases ha : a ∈ feet rs
    · rw [not_mem_count.mpr (sep a ha).2]
      have := s.one a
      rw [feet_append, List.count_append] at this; omega
    · rw [not_mem_count.mpr ha]; have := one a; omega
  · rw [feet_append] at ha
    rcases List.mem_append.mp ha with h1 | h1
    · rcases fresh a h1 with h2 | h2
      · exact s.new a (by rw [feet_append]; exact List.mem_append_left _ h2)
      · rw [← h2]
        refine (s.rest a fun h3 => ?_).symm
        exact s.live h3 h2
    · exact s.new a (by rw [feet_append]; exact List.mem_append_right _ h1)
  · rw [feet_append, List.mem_append, not_or] at ha
    by_cases h1 : a ∈ feet ps
    · rw [gone a h1 ha.1]
      exact (s.new a (by rw [feet_append]; exact List.mem_append_left _ h1)).symm
    · rw [keep a h1 ha.1]
      exact s.rest a (by rw [feet_append, List.mem_append, not_or]; exact ⟨h1, ha.2⟩)

/-- replacing some pieces -/
theorem Sep.step {m0 : Nat → Option B} {ps qs rs : List (Piece B)} {h h' : Heap B} (s : Sep m0 (ps ++ rs) h.mem) (wf : h.WF)
    (f : Frame (feet ps) (feet qs) h h') (hq : ∀ q ∈ qs, q.holds h'.mem) (one : ∀ a, (feet qs).count a ≤ 1) : Sep m0 (qs ++ rs) h'.mem :=
  s.change f.gone f.keep (fun a ha => (f.fresh a ha).imp id (wf a)) hq one

/-- bring one piece to the front, or back -/
theorem Sep.at {m0 : Nat → Option B} {m : Nat → Option B} (l : List (Piece B)) (p : Piece B) (r : List (Piece B)) :
    Sep m0 (l ++ p :: r) m ↔ Sep m0 (p :: (l ++ r)) m :=
  ⟨fun s => s.perm List.perm_middle, fun s => s.perm List.perm_middle.symm⟩

theorem Sep.swap {m0 : Nat → Option B} {m : Nat → Option B} {p q : Piece B} {r : List (Piece B)} (s : Sep m0 (p :: q :: r) m) :
    Sep m0 (q :: p :: r) m := s.perm (List.Perm.swap _ _ _)

/-- the heap is in order and memory suffices -/
structure Good (h : Heap B) : Prop where
  wf : h.WF
  am : Ample h

theorem Good.frame {A A' : List Nat} {h h' : Heap B} (g : Good h) (f : Frame A A' h h') : Good h' := ⟨f.wf, g.am.frame f⟩

/-! ## Pieces -/

/-- one block -/
def blkP (a : Nat) (b : B) : Piece B where
  F := [a]
  holds m := m a = some b
  loc h e := by rw [h a (by simp)]; exact e
  live e x hx := by simp at hx; rw [hx, e]; simp

theorem larr_live {m : Nat → Option (Block α)} {q : Ptr} {xs : List (Nat × Nat)} {ls : List (Leak α)} {r : Nat} (h : LArr m q xs ls r) :
    ∀ a ∈ addrs xs ++ q.toList, m a ≠ none := by
  intro a ha
  rcases List.mem_append.mp ha with h1 | h1
  · exact forall2_live h.leaks a h1
  · rw [h.arr a (by simpa using h1)]; simp

/-- an array of leaks with room for `r` more -/
def bufP (q : Ptr) (xs : List (Nat × Nat)) (ls : List (Leak α)) (r : Nat) : Piece (Block α) where
  F := addrs xs ++ q.toList
  holds m := LArr m q xs ls r
  loc h e := e.congr h
  live e := larr_live e

/-- a photon that is not being launched -/
def phP (ne p : Nat) (b : Ph) (xs : Bool → List (Nat × Nat)) (P : Photon α) : Piece (Block α) where
  F := foot p b xs
  holds m := Own m ne p false b xs (fun _ => 0) P
  loc h e := e.congr h
  live e _ ha := e.live ha

/-! ## Steps on one piece -/

theorem free_piece {m0 : Nat → Option (Block α)} {h : Heap (Block α)} (g : Good h) {a : Nat} {b : Block α} {rs : List (Piece (Block α))}
    (s : Sep m0 (blkP a b :: rs) h.mem) : ∃ h', (free (some a)).run h = some ((), h') ∧ Good h' ∧ Sep m0 rs h'.mem := by
  obtain ⟨h', r, f⟩ := free_run g.wf (s.holds (blkP a b) (by simp) : h.mem a = some b)
  refine ⟨h', r, g.frame f, ?_⟩
  exact Sep.step (ps := [blkP a b]) (qs := []) s g.wf (by simpa [feet, blkP] using f) (by simp) (by simp)

theorem malloc_piece {m0 : Nat → Option (Block α)} {h : Heap (Block α)} (g : Good h) (b : Block α) {rs : List (Piece (Block α))}
    (s : Sep m0 rs h.mem) : ∃ h' a, (malloc b).run h = some (some a, h') ∧ Good h' ∧ Sep m0 (blkP a b :: rs) h'.mem := by
  obtain ⟨h', r, e, f⟩ := malloc_run g.wf g.am b
  refine ⟨h', h.next, r, g.frame f, ?_⟩
  refine Sep.step (ps := []) (qs := [blkP h.next b]) s g.wf (by simpa [feet, blkP] using f) (by simpa [blkP] using e) (fun a => ?_)
  rw [feet_single]
  exact List.nodup_iff_count_le_one.mp (by simp [blkP]) a

theorem load_piece {m0 : Nat → Option (Block α)} {h : Heap (Block α)} {a : Nat} {xs : List α} {rs : List (Piece (Block α))}
    (s : Sep m0 (blkP a (.doubles xs) :: rs) h.mem) {n : Nat} (hn : n ≤ xs.length) : (loadArr (some a) n).run h = some (xs.take n, h) := by
  have e : h.mem a = some (.doubles xs) := s.holds (blkP a (.doubles xs)) (by simp)
  simp [loadArr, run_bind, run_load, e, hn]

theorem store_piece {m0 : Nat → Option (Block α)} {h : Heap (Block α)} (g : Good h) {a : Nat} {b : Block α} {xs : List α}
    {rs : List (Piece (Block α))} (s : Sep m0 (blkP a b :: rs) h.mem)
    (hb : (∃ n, b = .raw n ∧ xs.length ≤ n) ∨ ∃ ys, b = .doubles ys ∧ xs.length ≤ ys.length) :
    ∃ h', (storeArr (some a) xs).run h = some ((), h') ∧ Good h' ∧ Sep m0 (blkP a (.doubles xs) :: rs) h'.mem := by
  have e : h.mem a = some b := s.holds (blkP a b) (by simp)
  have lt := live_lt g.wf e
  have f : Frame [a] [a] h { h with mem := upd h.mem a (some (.doubles xs)) } := by
    refine ⟨by simp, fun x hx _ => ?_, by simp, le_refl _, rfl, wf_upd g.wf lt _ (le_refl _) _⟩
    simp at hx; simp [upd, hx]
  refine ⟨{ h with mem := upd h.mem a (some (.doubles xs)) }, ?_, g.frame f, ?_⟩
  · rcases hb with ⟨n, rfl, hn⟩ | ⟨ys, rfl, hn⟩ <;> simp [storeArr, run_bind, run_load, e, hn, run_store]
  · refine Sep.step (ps := [blkP a b]) (qs := [blkP a (.doubles xs)]) s g.wf (by simpa [feet, blkP] using f) (by simp [blkP]) (fun x => ?_)
    rw [feet_single]
    exact List.nodup_iff_count_le_one.mp (by simp [blkP]) x

/-! ## Arrays of leaks -/

theorem buf_count {q : Ptr} {xs : List (Nat × Nat)} (ls : List (Leak α)) (r : Nat) : feet [bufP q xs ls r] = addrs xs ++ q.toList := by
  simp [feet, bufP]

theorem emptyBuf {m0 : Nat → Option (Block α)} {m : Nat → Option (Block α)} {rs : List (Piece (Block α))} :
    Sep m0 (bufP none [] [] 0 :: rs) m ↔ Sep m0 rs m := by
  have e : feet (bufP (α := α) none [] [] 0 :: rs) = feet rs := by simp [feet_cons, bufP, addrs]
  constructor
  · intro s
    exact ⟨fun p hp => s.holds p (by simp [hp]), fun a => by rw [← e]; exact s.one a, fun a ha => s.new a (by rw [e]; exact ha),
      fun a ha => s.rest a (by rw [e]; exact ha)⟩
  · intro s
    refine ⟨fun p hp => ?_, fun a => by rw [e]; exact s.one a, fun a ha => s.new a (by rw [← e]; exact ha),
      fun a ha => s.rest a (by rw [← e]; exact ha)⟩
    rcases List.mem_cons.mp hp with rfl | hp
    · exact ⟨fun _ => ⟨rfl, rfl⟩, fun a ha => (by cases ha), List.Forall₂.nil⟩
    · exact s.holds p hp

theorem realloc_run {h : Heap (Block α)} (wf : h.WF) (am : Ample h) {q : Ptr} {xs : List (Nat × Nat)} {ls : List (Leak α)} {r : Nat}
    (L : LArr h.mem q xs ls r) {n : Nat} (hn : xs.length + r ≤ n) : (reallocPtrs q n).run h = some (some h.next,
      ⟨upd (without h.mem q.toList) h.next (some (.ptrs (xs.map (fun x => some x.1) ++ List.replicate (n - xs.length) none))), h.next + 1, h.orc⟩) := by
  have o0 := am h.next (le_refl _)
  cases q with
  | none =>
    obtain ⟨rfl, -⟩ := L.null rfl
    simp [reallocPtrs, run_malloc, o0, without_nil]
  | some a =>
    have ha := L.arr a rfl
    have lt := live_lt wf ha
    have hrep : List.replicate r (none : Ptr) ++ List.replicate (n - (xs.length + r)) none = List.replicate (n - xs.length) none := by
      rw [List.replicate_append_replicate]; congr 1; omega
    simp only [reallocPtrs, reduceCtorEq, if_false, run_bind, run_load, ha, run_malloc, o0, if_true, List.length_map, List.length_append, List.length_replicate,
      List.append_assoc, hrep]
    rw [run_free_ok (b := .ptrs (xs.map (fun x => some x.1) ++ List.replicate r none)) (by simp [upd, lt.ne, ha])]
    simp only [run_pure, Option.some.injEq, Prod.mk.injEq, true_and]
    congr 1
    funext x
    simp only [upd, without, Option.toList_some, List.mem_singleton]
    grind

/-- growing an array of leaks -/
theorem realloc_piece {m0 : Nat → Option (Block α)} {h : Heap (Block α)} (g : Good h) {q : Ptr} {xs : List (Nat × Nat)} {ls : List (Leak α)} {r : Nat}
    {rs : List (Piece (Block α))} (s : Sep m0 (bufP q xs ls r :: rs) h.mem) {n : Nat} (hn : xs.length + r ≤ n) :
    ∃ h' q', (reallocPtrs q n).run h = some (some q', h') ∧ Good h' ∧ Sep m0 (bufP (some q') xs ls (n - xs.length) :: rs) h'.mem := by
  have L : LArr h.mem q xs ls r := s.holds (bufP q xs ls r) (by simp)
  have nd : (addrs xs ++ q.toList).Nodup := s.nodup (p := bufP q xs ls r) (by simp)
  have lt : ∀ a ∈ addrs xs ++ q.toList, a < h.next := fun a ha => by
    by_contra hx
    exact larr_live L a ha (g.wf a (by omega))
  have run := realloc_run g.wf g.am L hn
  set h' : Heap (Block α) :=
    ⟨upd (without h.mem q.toList) h.next (some (.ptrs (xs.map (fun x => some x.1) ++ List.replicate (n - xs.length) none))), h.next + 1, h.orc⟩ with hh
  have hsame : ∀ a ∈ addrs xs, h'.mem a = h.mem a := fun a ha => by
    have h1 := lt a (by simp [ha])
    have h2 : a ∉ q.toList := fun h2 => (List.nodup_append.mp nd).2.2 a ha a h2 rfl
    simp only [hh, upd, without, h2, if_false, h1.ne]
  have f : Frame (addrs xs ++ q.toList) (addrs xs ++ [h.next]) h h' := by
    refine ⟨fun a ha hn => ?_, fun a ha hn => ?_, fun a ha => ?_, by simp [hh], rfl, fun a ha => ?_⟩
    · rw [List.mem_append, not_or] at hn
      have h2 : a ∈ q.toList := (List.mem_append.mp ha).resolve_left hn.1
      have h3 := lt a ha
      simp only [hh, upd, without, h2, if_true, h3.ne, if_false]
    · rw [List.mem_append, not_or] at ha hn
      have h3 : a ≠ h.next := by simpa using hn.2
      simp only [hh, upd, without, ha.2, if_false, h3]
    · rcases List.mem_append.mp ha with h1 | h1
      · left; simp [h1]
      · right; simp at h1; omega
    · simp only [hh] at ha ⊢
      rw [upd_other _ _ (by omega)]
      simp only [without]; split
      · rfl
      · exact g.wf a (by omega)
  refine ⟨h', h.next, run, g.frame f, ?_⟩
  refine Sep.step (ps := [bufP q xs ls r]) (qs := [bufP (some h.next) xs ls (n - xs.length)]) s g.wf (by rw [buf_count, buf_count]; exact f) ?_ (fun a => ?_)
  · intro p hp
    rw [List.mem_singleton] at hp; subst hp
    refine ⟨fun e => by simp at e, fun a ha => ?_, forall2_congr L.leaks hsame⟩
    injection ha with ha; subst ha
    simp [hh]
  · rw [buf_count, List.count_append]
    have h1 := List.nodup_iff_count_le_one.mp (List.nodup_append.mp nd).1 a
    by_cases ha : a = h.next
    · subst ha
      have : h.next ∉ addrs xs := fun hm => by have := lt h.next (by simp [hm]); omega
      rw [not_mem_count.mpr this]; simp
    · have : a ∉ (some h.next : Ptr).toList := by simpa using ha
      rw [not_mem_count.mpr this]; omega

/-- one more leak, made from the weights in the array `ws`, is put into the first free place -/
theorem put_piece {m0 : Nat → Option (Block α)} {h : Heap (Block α)} (g : Good h) {q : Nat} {xs : List (Nat × Nat)} {ls : List (Leak α)} {r : Nat}
    {rs : List (Piece (Block α))} (s : Sep m0 (bufP (some q) xs ls (r + 1) :: rs) h.mem) (l : Leak α) {ws : Nat}
    (hw : h.mem ws = some (.doubles l.weight)) :
    ∃ h' x, (leakNew l.coords l.dir l.elecv l.n_refl l.weight.length (some ws) none >>= fun y => setPtrAt (some q) xs.length y.1).run h = some ((), h') ∧
      Good h' ∧ Sep m0 (bufP (some q) (xs ++ [x]) (ls ++ [l]) r :: rs) h'.mem := by
  have L : LArr h.mem (some q) xs ls (r + 1) := s.holds (bufP (some q) xs ls (r + 1)) (by simp)
  have nd : (addrs xs ++ [q]).Nodup := s.nodup (p := bufP (some q) xs ls (r + 1)) (by simp)
  have lt : ∀ a ∈ addrs xs ++ [q], a < h.next := fun a ha => by
    by_contra hx
    exact larr_live L a (by simpa using ha) (g.wf a (by omega))
  have hq := L.arr q rfl
  have hql : q < h.next := lt q (by simp)
  have r1 := leakNew_run g.wf g.am l hw
  set h1 : Heap (Block α) := ⟨upd (upd h.mem h.next (some (.leak l.coords l.dir l.elecv l.weight.length (some (h.next + 1)) l.n_refl)))
    (h.next + 1) (some (.doubles l.weight)), h.next + 2, h.orc⟩ with hh1
  have hq1 : h1.mem q = some (.ptrs (xs.map (fun x => some x.1) ++ List.replicate (r + 1) none)) := by
    simp only [hh1]
    rw [upd_other _ _ (by omega), upd_other _ _ (by omega)]; exact hq
  have r2 := setPtrAt_run hq1 (i := xs.length) (by simp) (some h.next)
  have hset : (xs.map (fun x => some x.1) ++ List.replicate (r + 1) (none : Ptr)).set xs.length (some h.next) =
      (xs ++ [(h.next, h.next + 1)]).map (fun x => some x.1) ++ List.replicate r none := by
    rw [List.set_append_right _ _ (by simp)]
    simp [List.replicate_succ]
  rw [hset] at r2
  set h2 : Heap (Block α) := { h1 with mem := upd h1.mem q (some (.ptrs ((xs ++ [(h.next, h.next + 1)]).map (fun x => some x.1) ++ List.replicate r none))) } with hh2
  have hnq : q ∉ addrs xs := fun hm => (List.nodup_append.mp nd).2.2 q hm q (by simp) rfl
  have hsame : ∀ a ∈ addrs xs, h2.mem a = h.mem a := fun a ha => by
    have h3 := lt a (by simp [ha])
    have h4 : a ≠ q := fun e => hnq (e ▸ ha)
    simp only [hh2, hh1]
    rw [upd_other _ _ h4, upd_other _ _ (by omega), upd_other _ _ (by omega)]
  have hnx : addrs (xs ++ [(h.next, h.next + 1)]) = addrs xs ++ [h.next, h.next + 1] := by simp [addrs]
  have f : Frame (addrs xs ++ [q]) (addrs (xs ++ [(h.next, h.next + 1)]) ++ [q]) h h2 := by
    rw [hnx]
    refine ⟨fun a ha hn => ?_, fun a ha hn => ?_, fun a ha => ?_, by simp [hh2, hh1], rfl, fun a ha => ?_⟩
    · exact absurd (by simp at ha hn ⊢; tauto) hn
    · simp at hn
      simp only [hh2, hh1]
      rw [upd_other _ _ (by tauto), upd_other _ _ (by tauto), upd_other _ _ (by tauto)]
    · simp at ha ⊢
      rcases ha with h3 | h3 | h3 | h3
      · exact .inl (.inl h3)
      · right; omega
      · right; omega
      · exact .inl (.inr h3)
    · simp only [hh2, hh1] at ha ⊢
      rw [upd_other _ _ (by omega), upd_other _ _ (by omega), upd_other _ _ (by omega)]
      exact g.wf a (by omega)
  refine ⟨h2, (h.next, h.next + 1), ?_, g.frame f, ?_⟩
  · rw [run_bind_some r1]; exact r2
  · refine Sep.step (ps := [bufP (some q) xs ls (r + 1)]) (qs := [bufP (some q) (xs ++ [(h.next, h.next + 1)]) (ls ++ [l]) r]) s g.wf
      (by rw [buf_count, buf_count]; exact f) ?_ (fun a => ?_)
    · intro p hp
      rw [List.mem_singleton] at hp; subst hp
      refine ⟨fun e => by simp at e, fun a ha => ?_, ?_⟩
      · injection ha with ha; subst ha; simp [hh2]
      · refine forall2_append (forall2_congr L.leaks hsame) (.cons ⟨?_, ?_⟩ .nil)
        · simp only [hh2, hh1, lv]
          rw [upd_other _ _ (by omega), upd_other _ _ (by omega), upd_same]
        · simp only [hh2, hh1, lv]
          rw [upd_other _ _ (by omega), upd_same]
    · rw [buf_count, hnx]
      refine List.nodup_iff_count_le_one.mp ?_ a
      have h3 : ∀ a ∈ addrs xs, a < h.next := fun a ha => lt a (by simp [ha])
      have h4 := (List.nodup_append.mp nd).1
      simp only [Option.toList_some, List.append_assoc, List.nodup_append, h4, true_and]
      refine ⟨by simp; omega, fun x hx y hy => ?_⟩
      have := h3 x hx
      simp at hy
      rcases hy with rfl | rfl | rfl
      · omega
      · omega
      · exact fun e => hnq (e ▸ hx)

variable [CNum α]

/-- the piece `src` has, in the array `a`, pointers to the leaks `ms` -/
def Holds (src : Piece (Block α)) (a : Nat) (sps : List Ptr) (ys : List (Nat × Nat)) (ms : List (Leak α)) : Prop :=
  ∀ m, src.holds m → m a = some (.ptrs sps) ∧ List.Forall₂ (fun x l => LeakAt m x (lv l)) ys ms

omit [CNum α] in
/-- copies of leaks that are somewhere else are put into the free places -/
theorem copy_piece {m0 : Nat → Option (Block α)} {ne q a o : Nat} {sps : List Ptr} {src : Piece (Block α)} {rs : List (Piece (Block α))} (hm : src ∈ rs) :
    ∀ {ms : List (Leak α)} {ys : List (Nat × Nat)} {i r : Nat} {h : Heap (Block α)} {xs : List (Nat × Nat)} {ls : List (Leak α)},
    Good h → Sep m0 (bufP (some q) xs ls (ys.length + r) :: rs) h.mem → Holds src a sps ys ms →
    (∀ (j : Nat) y, ys[j]? = some y → sps[i + j]? = some (some y.1)) → (∀ l ∈ ms, l.weight.length = ne) → o + i = xs.length →
    ∃ h' xs', (copyLeaksM (some a) (some q) o ne i ys.length).run h = some ((), h') ∧ Good h' ∧
      Sep m0 (bufP (some q) xs' (ls ++ ms) r :: rs) h'.mem
  | [], ys, i, r, h, xs, ls, g, s, hs, hp, hl, ho => by
    obtain rfl := List.forall₂_nil_right_iff.mp (hs _ (s.holds src (by simp [hm]))).2
    refine ⟨h, xs, by simp [copyLeaksM], g, ?_⟩
    simpa using s
  | l :: ms, [], i, r, h, xs, ls, g, s, hs, hp, hl, ho => by cases (hs _ (s.holds src (by simp [hm]))).2
  | l :: ms, y :: ys, i, r, h, xs, ls, g, s, hs, hp, hl, ho => by
    obtain ⟨ha, hf⟩ := hs _ (s.holds src (by simp [hm]))
    obtain ⟨⟨hy1, hy2⟩, -⟩ := List.forall₂_cons.mp hf
    have hln : l.weight.length = ne := hl l (by simp)
    have hp0 : sps[i]? = some (some y.1) := hp 0 y rfl
    simp only [lv] at hy1 hy2
    have s' : Sep m0 (bufP (some q) xs ls (ys.length + r + 1) :: rs) h.mem := by
      have e : (y :: ys).length + r = ys.length + r + 1 := by simp; omega
      rw [e] at s; exact s
    obtain ⟨h1, x, r1, g1, s1⟩ := put_piece g s' l hy2
    obtain ⟨h2, xs2, r2, g2, s2⟩ := copy_piece hm (i := i + 1) (o := o) g1 s1 (fun m hm => ⟨(hs m hm).1, (List.forall₂_cons.mp (hs m hm).2).2⟩)
      (fun j z hz => by rw [show i + 1 + j = i + (j + 1) by omega]; exact hp (j + 1) z hz) (fun m hm => hl m (by simp [hm])) (by simp; omega)
    refine ⟨h2, xs2, ?_, g2, by simpa using s2⟩
    rw [List.length_cons, copyLeaksM]
    have e1 : (ptrAt (some a) i).run h = some (some y.1, h) := by simp [ptrAt, run_bind, run_load, ha, hp0]
    have e2 : (load (some y.1)).run h = some (Block.leak l.coords l.dir l.elecv l.weight.length (some y.2) l.n_refl, h) := by simp only [run_load, hy1]
    rw [run_bind_some e1, run_bind_some e2]
    simp only
    rw [hln, ← ho] at r1
    rw [← r2]
    generalize hk : (fun y : Ptr × EArg => setPtrAt (some q) (o + i) y.1) = kk at r1
    rw [run_bind] at r1 ⊢
    split at r1
    · cases r1
    · rename_i z h3 hz
      rw [← hk] at r1
      exact run_bind_some r1

omit [CNum α] in
/-- the leaks of an array -/
theorem bufP_holds (q : Nat) (xs : List (Nat × Nat)) (ls : List (Leak α)) (r : Nat) :
    Holds (bufP (some q) xs ls r) q (xs.map (fun x => some x.1) ++ List.replicate r none) xs ls :=
  fun _ hm => ⟨hm.arr q rfl, hm.leaks⟩

omit [CNum α] in
/-- the leaks of a photon -/
theorem phP_holds {ne p : Nat} {b : Ph} {xs : Bool → List (Nat × Nat)} {P : Photon α} {s : Bool} {q : Nat} (hq : b.arr s = some q) :
    Holds (phP ne p b xs P) q ((xs s).map (fun x => some x.1)) (xs s) (leaksOf P s) :=
  fun _ hm => ⟨by have := (hm.arrs s).arr q hq; simpa using this, (hm.arrs s).leaks⟩

theorem ptrs_at (xs : List (Nat × Nat)) (tl : List Ptr) (j : Nat) (y : Nat × Nat) (h : xs[j]? = some y) :
    (xs.map (fun x => some x.1) ++ tl)[0 + j]? = some (some y.1) := by
  have hj : j < xs.length := by
    by_contra hn
    rw [List.getElem?_eq_none (by omega)] at h; cases h
  rw [Nat.zero_add, List.getElem?_append_left (by simpa using hj), List.getElem?_map, h]
  rfl

end Polycap.SMem
