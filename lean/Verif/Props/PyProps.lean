import Verif.PyApi
import Verif.Props.ErrProps

/-!
# C64, C65, C66: exceptions, profile arrays and numpy arrays of the Python bindings
-/
namespace Polycap.Py
open CM

/-! ## C64: exceptions -/

/-- documented exception class of each error code (polycap-error.h:35-43, names of the Python classes) -/
def Documented : Code → Exc → Prop
  | .memory, e => e = .memoryError
  | .invalidArgument, e => e = .valueError
  | .io, e => e = .ioError
  | .openmp, e => e = .ioError
  | .type, e => e = .typeError
  | .unsupported, e => e = .notImplementedError
  | .runtime, e => e = .runtimeError

/-- an error object at `a` with its message at `b` -/
def ErrAt (h : Heap EBlock) (a b : Nat) (c : Code) (t : String) : Prop :=
  h.mem a = some (.err c (some b)) ∧ h.mem b = some (.str t)

/-- **C64.**  No error object: no exception, nothing changes.  An error object: exactly one exception, of the documented class and with the
message of the error, and the object and its message are released, nothing else. -/
theorem set_exception_correct (h : Heap EBlock) :
    (setException none).run h = some (none, h) ∧
    ∀ a b c t, ErrAt h a b c t → ∃ ex, Documented c ex ∧
      (setException (some a)).run h = some (some (ex, t), { h with mem := fun x => if x = a ∨ x = b then none else h.mem x }) := by
  refine ⟨rfl, fun a b c t ⟨h1, h2⟩ => ⟨excOf c, by cases c <;> rfl, ?_⟩⟩
  have hne : b ≠ a := by rintro rfl; rw [h1] at h2; cases h2
  simp [setException, ErrApi.errorFree, ErrApi.loadErr, run_bind, run_load, h1, h2, run_free, upd, hne.symm]
  funext x; simp only [upd]; grind

/-- **C64.**  The life of an error from the C call that reports it to the Python exception: the message arrives, and memory is as it was. -/
theorem error_becomes_exception (h : Heap EBlock) (wf : h.WF) (h1 : h.orc h.next = true) (h2 : h.orc (h.next + 1) = true) (c : Code) (t : String) :
    ∃ ex h', Documented c ex ∧
      (do match ← ErrApi.setError (some none) c (some t) with
          | some p => setException p
          | none => pure none : CM EBlock _).run h = some (some (ex, t), h') ∧ h'.mem = h.mem := by
  refine ⟨excOf c, { mem := h.mem, next := h.next + 2, orc := h.orc }, by cases c <;> rfl, ?_, rfl⟩
  have m0 : h.mem h.next = none := wf _ le_rfl
  have m1 : h.mem (h.next + 1) = none := wf _ (by omega)
  simp [setException, ErrApi.setError, ErrApi.errorNew, ErrApi.errorFree, ErrApi.loadErr, run_bind, run_malloc, run_store, run_load, run_free, upd, h1, h2]
  funext x; simp only [upd]; grind

/-- distinct error codes give distinct classes, except that OpenMP errors look like input/output errors -/
theorem exceptions_distinct (c d : Code) : excOf c = excOf d ↔ c = d ∨ (c = .io ∧ d = .openmp) ∨ (c = .openmp ∧ d = .io) := by
  cases c <;> cases d <;> simp [excOf]

/-- FINDING (C64): an error whose message could not be allocated (`strdup` failed) crashes the interpreter -/
theorem set_exception_no_message_ub (h : Heap EBlock) (a : Nat) (c : Code) (h1 : h.mem a = some (.err c none)) :
    (setException (some a)).run h = none := by
  simp [setException, ErrApi.loadErr, run_bind, run_load, h1]

/-- the hypotheses are met -/
example : ErrAt ⟨fun x => if x = 3 then some (.err .io (some 5)) else if x = 5 then some (.str "no such file") else none, 6, fun _ => true⟩ 3 5 .io "no such file" := by
  simp [ErrAt]

/-! ## C65: arrays of a profile -/

theorem bytesOf_length (ws : List Word) : (bytesOf ws).length = 8 * ws.length := by
  induction ws with
  | nil => rfl
  | cons w ws ih => simp [bytesOf] at ih ⊢; omega

theorem bytesOf_get : ∀ (ws : List Word) (i : Nat) (w : Word) (k : Fin 8), ws[i]? = some w → (bytesOf ws)[8 * i + k]? = some (w k)
  | [], i, w, k, h => by simp at h
  | v :: ws, 0, w, k, h => by
    simp at h; subst h
    have : bytesOf (v :: ws) = List.ofFn v ++ bytesOf ws := rfl
    rw [this, List.getElem?_append_left (by simp)]
    rw [List.getElem?_ofFn]
    simp
  | v :: ws, i + 1, w, k, h => by
    have : bytesOf (v :: ws) = List.ofFn v ++ bytesOf ws := rfl
    rw [this, List.getElem?_append_right (by simp; omega), List.length_ofFn, show 8 * (i + 1) + (k : Nat) - 8 = 8 * i + k by omega]
    exact bytesOf_get ws i w k (by simpa using h)

/-- element `i` of an array given by its bytes is `w` -/
def Holds (b : List UInt8) (i : Nat) (w : Word) : Prop := ∀ k : Fin 8, b[8 * i + k]? = some (w k)

/-- **C65 (partial).**  The copy is within bounds, and every element but the last is the profile's.  Missing: the last element, see
`profile_array_last_wrong`. -/
theorem profile_array_prefix_partial (nid : Nat) (src fresh : List Word) (h1 : src.length = nid + 1) (h2 : fresh.length = nid + 1) :
    ∃ b, copyProfileArray nid src fresh = some b ∧ b.length = 8 * (nid + 1) ∧
      ∀ i < nid, ∀ w, src[i]? = some w → Holds b i w := by
  have l1 := bytesOf_length src
  have l2 := bytesOf_length fresh
  refine ⟨(bytesOf src).take (8 * nid + 1) ++ (bytesOf fresh).drop (8 * nid + 1), ?_, ?_, ?_⟩
  · simp only [copyProfileArray, memcpy]; rw [if_pos (by omega)]
  · simp [l1, l2, h1, h2]
  · intro i hi w hw k
    rw [List.getElem?_append_left (by simp [l1, h1]; omega), List.getElem?_take, if_pos (by omega)]
    exact bytesOf_get src i w k hw

/-- FINDING (C65): of the last element only the byte at the lowest address is copied, the other seven keep what the memory held before -/
theorem profile_array_last_byte (nid : Nat) (src fresh : List Word) (h1 : src.length = nid + 1) (h2 : fresh.length = nid + 1)
    (w g : Word) (hw : src[nid]? = some w) (hg : fresh[nid]? = some g) (b : List UInt8) (hb : copyProfileArray nid src fresh = some b) :
    Holds b nid (fun k => if k = 0 then w k else g k) := by
  have l1 := bytesOf_length src
  have l2 := bytesOf_length fresh
  simp only [copyProfileArray, memcpy] at hb
  rw [if_pos (by omega)] at hb
  cases hb
  intro k
  by_cases hk : k = 0
  · subst hk
    rw [List.getElem?_append_left (by simp [l1, h1]), List.getElem?_take, if_pos (by simp)]
    simpa using bytesOf_get src nid w 0 hw
  · have hk' : (k : Nat) ≠ 0 := fun h => hk (Fin.ext h)
    rw [List.getElem?_append_right (by simp [l1]; omega), List.getElem?_drop]
    have : 8 * nid + 1 + (8 * nid + (k : Nat) - (List.take (8 * nid + 1) (bytesOf src)).length) = 8 * nid + k := by simp [l1, h1]; omega
    rw [this]
    simpa [hk] using bytesOf_get fresh nid g k hg

/-- FINDING (C65): for every profile there is a content of the new array's memory with which Python sees a wrong last element -/
theorem profile_array_last_wrong (nid : Nat) (src : List Word) (h1 : src.length = nid + 1) (w : Word) (hw : src[nid]? = some w) :
    ∃ fresh : List Word, fresh.length = nid + 1 ∧ ∀ b, copyProfileArray nid src fresh = some b → ¬ Holds b nid w := by
  refine ⟨List.replicate (nid + 1) (fun k => w k + 1), by simp, fun b hb hold => ?_⟩
  have := profile_array_last_byte nid src _ h1 (by simp) w (fun k => w k + 1) hw (by simp) b hb 1
  rw [hold 1] at this
  simp at this

example : (copyProfileArray 1 [fun _ => 7, fun _ => 9] [fun _ => 0, fun _ => 0]).map (·.drop 8) = some [9, 0, 0, 0, 0, 0, 0, 0] := by
  simp [copyProfileArray, memcpy, bytesOf, List.ofFn_succ]

/-! ## C66: numpy arrays -/

variable {α : Type}

/-- neighbouring elements are neighbours in memory (or there is at most one element) -/
def NdArr.Contiguous (a : NdArr α) : Prop := a.step = 1 ∨ a.size ≤ 1

theorem NdArr.elem_contiguous {a : NdArr α} (c : a.Contiguous) {i : Nat} (hi : i < a.size) : a.elem i = a.buf[a.first + i]? := by
  have : (a.first : Int) + i * a.step = ((a.first + i : Nat) : Int) := by
    rcases c with c | c
    · rw [c]; push_cast; ring
    · have : i = 0 := by omega
      subst this; simp
  rw [NdArr.elem, this, if_pos (by positivity), Int.toNat_natCast]

/-- **C66 (partial).**  For an array whose elements are neighbours in memory the C library reads exactly the elements, whatever their number.  Missing: other arrays,
see `strided_array_misread`. -/
theorem contiguous_array_partial (a : NdArr α) (v : a.Valid) (c : a.Contiguous) : a.raw a.size = some a.values ∧ a.values.length = a.size := by
  have key : ∀ n ≤ a.size, (List.range n).filterMap a.elem = (a.buf.drop a.first).take n ∧ n ≤ (a.buf.drop a.first).length := by
    intro n
    induction n with
    | zero => simp
    | succ n ih =>
      intro hn
      obtain ⟨i1, i2⟩ := ih (by omega)
      have hv := v n (by omega)
      rw [a.elem_contiguous c (by omega), Option.isSome_iff_exists] at hv
      obtain ⟨y, hy⟩ := hv
      have hlt : a.first + n < a.buf.length := (List.getElem?_eq_some_iff.1 hy).1
      refine ⟨?_, by simp; omega⟩
      rw [List.range_succ, List.filterMap_append, i1, List.take_add_one, List.getElem?_drop, hy]
      simp [a.elem_contiguous c (show n < a.size by omega), hy]
  obtain ⟨k1, k2⟩ := key a.size le_rfl
  refine ⟨?_, ?_⟩
  · rw [NdArr.raw, NdArr.tail, if_pos k2, NdArr.values, k1]
  · rw [NdArr.values, k1]; simp at k2 ⊢; omega

/-- FINDING (C66): every second element of an array with more than that: the C library reads other numbers than Python shows -/
theorem strided_array_misread (x y z w : α) (h : y ≠ z) :
    let a : NdArr α := ⟨[x, y, z, w], 0, 2, 2⟩
    a.Valid ∧ a.values = [x, z] ∧ a.raw a.size = some [x, y] ∧ a.raw a.size ≠ some a.values := by
  refine ⟨?_, ?_, ?_, ?_⟩
  · intro i hi
    have : i = 0 ∨ i = 1 := by simp at hi; omega
    rcases this with rfl | rfl <;> simp [NdArr.elem]
  · simp [NdArr.values, NdArr.elem, List.range_succ]
  · simp [NdArr.raw, NdArr.tail]
  · simp [NdArr.raw, NdArr.tail, NdArr.values, NdArr.elem, List.range_succ, h]

/-- FINDING (C66): a reversed array: the C library reads past the end of the array's memory -/
theorem reversed_array_out_of_bounds (x y : α) :
    let a : NdArr α := ⟨[x, y], 1, -1, 2⟩
    a.Valid ∧ a.values = [y, x] ∧ a.raw a.size = none := by
  refine ⟨?_, ?_, ?_⟩
  · intro i hi
    have : i = 0 ∨ i = 1 := by simp at hi; omega
    rcases this with rfl | rfl <;> simp [NdArr.elem]
  · simp [NdArr.values, NdArr.elem, List.range_succ]
  · simp [NdArr.raw, NdArr.tail]

/-- vectors are read element by element: any valid array of three elements will do -/
theorem vector_any_stride [CNum α] (a : NdArr α) (x y z : α) (h : a.values = [x, y, z]) : vec3 a = some ⟨x, y, z⟩ := by
  simp [vec3, h]

end Polycap.Py
