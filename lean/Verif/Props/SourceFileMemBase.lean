import Verif.SourceFileMem
import Verif.Props.SourceNew
import Verif.Props.SourceFileProps

/-!
# Lemmas for `SourceFileMemProps`: the blocks a computation allocates, laid out behind the old memory
-/
namespace Polycap
open CNum CM Mem
set_option linter.unusedSectionVars false
set_option linter.unusedSimpArgs false

namespace FMem
section heap
variable {B : Type}

/-- memory `m` below `b`, the listed blocks (`none`: released or never granted) from there on -/
def lay (m : Nat → Option B) (b : Nat) (bs : List (Option B)) : Nat → Option B :=
  fun x => if x < b then m x else (bs[x - b]?).join

/-- the heap after `bs.length` requests for memory -/
def hp (m : Nat → Option B) (b : Nat) (bs : List (Option B)) (o : Nat → Bool) : Heap B := ⟨lay m b bs, b + bs.length, o⟩

theorem hp_nil (h : Heap B) (wf : h.WF) : h = hp h.mem h.next [] h.orc := by
  cases h with
  | mk m n o =>
    simp only [hp, List.length_nil, Nat.add_zero]
    congr 1
    funext x
    simp only [lay]
    split
    · rfl
    · rename_i hx
      simpa using wf x (by simpa using hx)

theorem lay_at (m : Nat → Option B) (b : Nat) (bs : List (Option B)) (i : Nat) : lay m b bs (b + i) = (bs[i]?).join := by
  simp [lay]
theorem lay_at0 (m : Nat → Option B) (b : Nat) (bs : List (Option B)) : lay m b bs b = (bs[0]?).join := by
  simp [lay]
theorem lay_old (m : Nat → Option B) (b : Nat) (bs : List (Option B)) {x : Nat} (hx : x < b) : lay m b bs x = m x := by
  simp [lay, hx]

theorem hp_wf (m : Nat → Option B) (b : Nat) (bs : List (Option B)) (o : Nat → Bool) : (hp m b bs o).WF := by
  intro x hx
  have hx : b + bs.length ≤ x := hx
  show lay m b bs x = none
  simp only [lay]
  rw [if_neg (by omega), List.getElem?_eq_none (by omega)]
  rfl

theorem upd_lay (m : Nat → Option B) (b : Nat) (bs : List (Option B)) {i : Nat} (hi : i < bs.length) (v : Option B) :
    upd (lay m b bs) (b + i) v = lay m b (bs.set i v) := by
  funext x
  simp only [upd, lay]
  by_cases h1 : x < b
  · rw [if_neg (by omega), if_pos h1, if_pos h1]
  · rw [if_neg h1, if_neg h1, List.getElem?_set]
    by_cases h2 : x = b + i
    · subst h2
      simp [hi]
    · rw [if_neg h2, if_neg (by omega)]

theorem upd_lay_end (m : Nat → Option B) (b : Nat) (bs : List (Option B)) (v : Option B) :
    upd (lay m b bs) (b + bs.length) v = lay m b (bs ++ [v]) := by
  funext x
  simp only [upd, lay]
  by_cases h1 : x < b
  · rw [if_neg (by omega), if_pos h1, if_pos h1]
  · rw [if_neg h1, if_neg h1]
    by_cases h2 : x = b + bs.length
    · subst h2
      simp
    · rw [if_neg h2]
      by_cases h3 : x - b < bs.length
      · rw [List.getElem?_append_left h3]
      · rw [List.getElem?_append_right (by omega), List.getElem?_eq_none (by omega)]
        have : x - b - bs.length ≠ 0 := by omega
        rw [List.getElem?_eq_none (by simp; omega)]

theorem lay_end (m : Nat → Option B) (b : Nat) (bs : List (Option B)) : lay m b (bs ++ [none]) = lay m b bs := by
  rw [← upd_lay_end]
  funext x
  simp only [upd]
  split
  · subst_vars
    simp [lay]
  · rfl

theorem malloc_hp (m : Nat → Option B) (b : Nat) (bs : List (Option B)) (o : Nat → Bool) (c : B) :
    (malloc c).run (hp m b bs o) =
      if o (b + bs.length) = true then some (some (b + bs.length), hp m b (bs ++ [some c]) o) else some (none, hp m b (bs ++ [none]) o) := by
  rw [run_malloc]
  simp only [hp, List.length_append, List.length_cons, List.length_nil]
  rw [upd_lay_end, lay_end]
  rfl

theorem load_hp (m : Nat → Option B) (b : Nat) (bs : List (Option B)) (o : Nat → Bool) (i : Nat) :
    (load (some (b + i))).run (hp m b bs o) = match (bs[i]?).join with | none => none | some c => some (c, hp m b bs o) := by
  rw [run_load]
  simp only [hp, lay_at]
  rfl
theorem load_hp0 (m : Nat → Option B) (b : Nat) (bs : List (Option B)) (o : Nat → Bool) :
    (load (some b)).run (hp m b bs o) = match (bs[0]?).join with | none => none | some c => some (c, hp m b bs o) :=
  load_hp m b bs o 0

theorem store_hp (m : Nat → Option B) (b : Nat) (bs : List (Option B)) (o : Nat → Bool) (i : Nat) (v : B) :
    (store (some (b + i)) v).run (hp m b bs o) =
      match (bs[i]?).join with | none => none | some _ => some ((), hp m b (bs.set i (some v)) o) := by
  rw [run_store]
  simp only [hp, lay_at]
  by_cases hi : i < bs.length
  · rw [upd_lay _ _ _ hi, List.length_set]; rfl
  · rw [List.getElem?_eq_none (by omega)]; rfl
theorem store_hp0 (m : Nat → Option B) (b : Nat) (bs : List (Option B)) (o : Nat → Bool) (v : B) :
    (store (some b) v).run (hp m b bs o) =
      match (bs[0]?).join with | none => none | some _ => some ((), hp m b (bs.set 0 (some v)) o) := store_hp m b bs o 0 v

theorem free_hp (m : Nat → Option B) (b : Nat) (bs : List (Option B)) (o : Nat → Bool) (i : Nat) :
    (free (some (b + i))).run (hp m b bs o) =
      match (bs[i]?).join with | none => none | some _ => some ((), hp m b (bs.set i none) o) := by
  rw [run_free]
  simp only [hp, lay_at]
  by_cases hi : i < bs.length
  · rw [upd_lay _ _ _ hi, List.length_set]; rfl
  · rw [List.getElem?_eq_none (by omega)]; rfl
theorem free_hp0 (m : Nat → Option B) (b : Nat) (bs : List (Option B)) (o : Nat → Bool) :
    (free (some b)).run (hp m b bs o) =
      match (bs[0]?).join with | none => none | some _ => some ((), hp m b (bs.set 0 none) o) := free_hp m b bs o 0
end heap

variable {α : Type} [CNum α]

/-- `polycap_profile_new`, with any allocator: a refusal leaves nothing, an object is four blocks -/
theorem profileNew_nil (fit : Fit α) (a : ProfArgs α) (e : EArg) (m : Nat → Option (Block α)) (b : Nat) (o : Nat → Bool) :
    (∃ k e', (profileNew fit a e).run (hp m b [] o) = some ((none, e'), hp m b (List.replicate k none) o) ∧
      (e' = e.set .invalidArgument ∧ profileValue fit a = none ∨ e' = e.set .memory ∧ ∃ n, o n = false)) ∨
    (∃ p, profileValue fit a = some p ∧ (profileNew fit a e).run (hp m b [] o) = some ((some b, e), hp m b
      [some (.profile p.nmax (some (b + 1)) (some (b + 2)) (some (b + 3))), some (.doubles (arr p.nmax p.z)),
        some (.doubles (arr p.nmax p.cap)), some (.doubles (arr p.nmax p.ext))] o)) := by
  unfold profileNew profileValue
  by_cases hr : profRejects a = true
  · exact Or.inl ⟨0, _, by simp [hr], Or.inl ⟨rfl, by simp [hr]⟩⟩
  simp only [Bool.not_eq_true] at hr
  simp only [hr, Bool.false_eq_true, if_false]
  cases o0 : o b with
  | false => exact Or.inl ⟨1, e.set .memory, by simp [run_bind, malloc_hp, o0], Or.inr ⟨rfl, _, o0⟩⟩
  | true =>
  cases o1 : o (b + 1) with
  | false => exact Or.inl ⟨2, e.set .memory, by simp [run_bind, malloc_hp, o0, o1, free_hp0, free_hp], Or.inr ⟨rfl, _, o1⟩⟩
  | true =>
  cases o2 : o (b + 2) with
  | false => exact Or.inl ⟨3, e.set .memory, by simp [run_bind, malloc_hp, o0, o1, o2, free_hp0, free_hp], Or.inr ⟨rfl, _, o2⟩⟩
  | true =>
  cases o3 : o (b + 3) with
  | false => exact Or.inl ⟨4, e.set .memory, by simp [run_bind, malloc_hp, o0, o1, o2, o3, free_hp0, free_hp], Or.inr ⟨rfl, _, o3⟩⟩
  | true =>
  cases hp' : profExt fit a with
  | none => exact Or.inl ⟨4, e.set .invalidArgument, by simp [run_bind, malloc_hp, o0, o1, o2, o3, free_hp0, free_hp], Or.inl ⟨rfl, rfl⟩⟩
  | some f =>
    exact Or.inr ⟨_, rfl, by simp [run_bind, malloc_hp, o0, o1, o2, o3, free_hp0, free_hp, storeArr, load_hp, load_hp0, store_hp, store_hp0]⟩

theorem hp_app (m : Nat → Option (Block α)) (b : Nat) (bs ex : List (Option (Block α))) (o : Nat → Bool) :
    hp (lay m b bs) (b + bs.length) ex o = hp m b (bs ++ ex) o := by
  simp only [hp, List.length_append, Nat.add_assoc]
  congr 1
  funext x
  simp only [lay]
  by_cases h1 : x < b
  · rw [if_pos (by omega), if_pos h1, if_pos h1]
  · by_cases h2 : x < b + bs.length
    · rw [if_pos h2, if_neg h1, if_neg h1, List.getElem?_append_left (by omega)]
    · rw [if_neg h2, if_neg h1, List.getElem?_append_right (by omega), Nat.sub_sub]

theorem profileNew_hp (fit : Fit α) (a : ProfArgs α) (e : EArg) (m : Nat → Option (Block α)) (b : Nat) (bs : List (Option (Block α)))
    (o : Nat → Bool) :
    (∃ k e', (profileNew fit a e).run (hp m b bs o) = some ((none, e'), hp m b (bs ++ List.replicate k none) o) ∧
      (e' = e.set .invalidArgument ∧ profileValue fit a = none ∨ e' = e.set .memory ∧ ∃ n, o n = false)) ∨
    (∃ p, profileValue fit a = some p ∧ (profileNew fit a e).run (hp m b bs o) = some ((some (b + bs.length), e), hp m b (bs ++
      [some (.profile p.nmax (some (b + (bs.length + 1))) (some (b + (bs.length + 2))) (some (b + (bs.length + 3)))), some (.doubles (arr p.nmax p.z)),
        some (.doubles (arr p.nmax p.cap)), some (.doubles (arr p.nmax p.ext))]) o)) := by
  have := profileNew_nil fit a e (lay m b bs) (b + bs.length) o
  simp only [hp_app, List.append_nil, Nat.add_assoc] at this
  exact this
end FMem
end Polycap
