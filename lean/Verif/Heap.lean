import Mathlib.Tactic.Common

/-!
# Heap and undefined behaviour

A small model of C dynamic memory.  `none` as the outcome of a computation is *undefined
behaviour*: NULL dereference, access to or `free` of a block that is not live.
`malloc` number `n` succeeds iff `orc n`; a returned address is never reused.
-/

namespace Polycap

/-- A C pointer: `none` is `NULL`. -/
abbrev Ptr := Option Nat

/-- Dynamic memory.  `mem a = some b`: block `a` is live with content `b`.
`next` counts the allocation requests so far; the next request (if `orc next`) gets address
`next`. -/
structure Heap (B : Type) where
  mem : Nat → Option B
  next : Nat
  orc : Nat → Bool

/-- Nothing is live at or beyond the next fresh address. -/
def Heap.WF {B} (h : Heap B) : Prop := ∀ a, h.next ≤ a → h.mem a = none

/-- `mem` with address `a` set to `v`. -/
def upd {B} (m : Nat → Option B) (a : Nat) (v : Option B) : Nat → Option B :=
  fun x => if x = a then v else m x

@[simp] theorem upd_same {B} (m : Nat → Option B) (a : Nat) (v : Option B) : upd m a v a = v := by
  simp [upd]
theorem upd_other {B} (m : Nat → Option B) {a x : Nat} (v : Option B) (h : x ≠ a) :
    upd m a v x = m x := by
  simp [upd, h]
theorem upd_upd {B} (m : Nat → Option B) (a : Nat) (v w : Option B) :
    upd (upd m a v) a w = upd m a w := by
  funext x; by_cases h : x = a <;> simp [upd, h]

/-- Computations on the heap; result `none` is undefined behaviour. -/
structure CM (B A : Type) where
  run : Heap B → Option (A × Heap B)

namespace CM
variable {B A C : Type}
protected def pure (a : A) : CM B A := ⟨fun h => some (a, h)⟩
protected def bind (x : CM B A) (f : A → CM B C) : CM B C := ⟨fun h =>
  match x.run h with
  | none => none
  | some (a, h') => (f a).run h'⟩
instance : Monad (CM B) where
  pure := CM.pure
  bind := CM.bind

@[simp] theorem run_pure (a : A) (h : Heap B) : (Pure.pure a : CM B A).run h = some (a, h) := rfl
theorem run_bind (x : CM B A) (f : A → CM B C) (h : Heap B) :
    (x >>= f).run h = match x.run h with | none => none | some (a, h') => (f a).run h' := rfl
theorem run_bind_some {x : CM B A} {f : A → CM B C} {h h' : Heap B} {a : A}
    (e : x.run h = some (a, h')) : (x >>= f).run h = (f a).run h' := by rw [run_bind, e]
theorem run_bind_none {x : CM B A} {f : A → CM B C} {h : Heap B}
    (e : x.run h = none) : (x >>= f).run h = none := by rw [run_bind, e]

/-- undefined behaviour -/
def ub : CM B A := ⟨fun _ => none⟩

/-- `malloc`, with the content the block has when first read. -/
def malloc (b : B) : CM B Ptr := ⟨fun h =>
  if h.orc h.next then some (some h.next, { h with mem := upd h.mem h.next (some b), next := h.next + 1 })
  else some (none, { h with next := h.next + 1 })⟩

/-- `free`: NULL is accepted, a dead block is undefined behaviour. -/
def free (p : Ptr) : CM B Unit := ⟨fun h =>
  match p with
  | none => some ((), h)
  | some a =>
    match h.mem a with
    | none => none
    | some _ => some ((), { h with mem := upd h.mem a none })⟩

/-- read the block a pointer points to -/
def load (p : Ptr) : CM B B := ⟨fun h =>
  match p with
  | none => none
  | some a =>
    match h.mem a with
    | none => none
    | some b => some (b, h)⟩

/-- overwrite the block a pointer points to -/
def store (p : Ptr) (b : B) : CM B Unit := ⟨fun h =>
  match p with
  | none => none
  | some a =>
    match h.mem a with
    | none => none
    | some _ => some ((), { h with mem := upd h.mem a (some b) })⟩

@[simp] theorem run_ub (h : Heap B) : (ub : CM B A).run h = none := rfl
theorem run_malloc (b : B) (h : Heap B) :
    (malloc b).run h = if h.orc h.next then some (some h.next, { h with mem := upd h.mem h.next (some b), next := h.next + 1 })
      else some (none, { h with next := h.next + 1 }) := rfl
@[simp] theorem run_free_null (h : Heap B) : (free (none : Ptr)).run h = some ((), h) := rfl
theorem run_free {a : Nat} {h : Heap B} : (free (some a)).run h =
    match h.mem a with
    | none => none
    | some _ => some ((), { h with mem := upd h.mem a none }) := rfl
theorem run_free_ok {a : Nat} {h : Heap B} {b : B} (e : h.mem a = some b) :
    (free (some a)).run h = some ((), { h with mem := upd h.mem a none }) := by
  simp [run_free, e]
@[simp] theorem run_load_null (h : Heap B) : (load (none : Ptr)).run h = none := rfl
theorem run_load {a : Nat} {h : Heap B} : (load (some a)).run h =
    match h.mem a with
    | none => none
    | some b => some (b, h) := rfl
@[simp] theorem run_store_null (b : B) (h : Heap B) : (store (none : Ptr) b).run h = none := rfl
theorem run_store {a : Nat} {b : B} {h : Heap B} : (store (some a) b).run h =
    match h.mem a with
    | none => none
    | some _ => some ((), { h with mem := upd h.mem a (some b) }) := rfl
end CM
end Polycap
