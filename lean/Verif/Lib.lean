import Verif.Num
import Verif.Heap
import Verif.Err

/-!
# Library objects

Value-level view of the library structs (polycap-private.h:85-150) and the memory blocks they live
in.
-/
namespace Polycap

/-- `polycap_vector3` (include/polycap-photon.h). -/
structure V3 (α : Type) where
  x : α
  y : α
  z : α

/-- A `polycap_error **` argument seen from inside the library: NULL, pointing to an empty variable,
or pointing to a variable holding an error (of which only the code is kept here).  That the real
API behaves like this is theorem `ErrApi.error_history_correct`. -/
abbrev EArg := Option (Option Code)

/-- `polycap_set_error` / `polycap_set_error_literal` on an `EArg` (polycap-error.c:125-153). -/
def EArg.set (e : EArg) (c : Code) : EArg :=
  match e with
  | none => none
  | some none => some (some c)
  | some (some d) => some (some d)

/-- `polycap_clear_error` (polycap-error.c:177-182). -/
def EArg.clear (e : EArg) : EArg :=
  match e with
  | none => none
  | some _ => some none

@[simp] theorem EArg.set_empty (c : Code) : EArg.set (some none) c = some (some c) := rfl
@[simp] theorem EArg.set_null (c : Code) : EArg.set none c = none := rfl
@[simp] theorem EArg.set_full (c d : Code) : EArg.set (some (some d)) c = some (some d) := rfl

/-- `struct _polycap_profile` as a value (polycap-private.h:88-94): arrays have `nmax+1` entries
`0..nmax`; entries beyond are not allocated in C and never consulted by the model without a check. -/
structure Profile (α : Type) where
  nmax : Nat
  z : Nat → α
  cap : Nat → α
  ext : Nat → α

/-- Memory blocks of library objects.  `raw n`: an uninitialised array of `n` elements (or an
uninitialised struct, `n = 0`). -/
inductive Block (α : Type) where
  | raw (n : Nat)
  | doubles (xs : List α)
  | ints (xs : List Int)
  /-- `struct _polycap_profile` -/
  | profile (nmax : Nat) (z cap ext : Ptr)
  /-- `struct _polycap_description` -/
  | descr (sig_rough : α) (n_cap : Int) (open_area : α) (nelem : Nat) (iz wi : Ptr) (density : α)
      (profile : Ptr)
  /-- `struct _polycap_source` (`rng` is the pointer to the generator object) -/
  | source (description rng : Ptr) (d_source src_x src_y src_sigx src_sigy src_shiftx src_shifty
      hor_pol : α) (n_energies : Nat) (energies : Ptr)
  /-- an opaque `polycap_rng` -/
  | rng
  /-- `polycap_leak` (include/polycap-photon.h): the three vectors, `n_energies`, `weight`, `n_refl` -/
  | leak (coords direction elecv : V3 α) (n_energies : Nat) (weight : Ptr) (n_refl : Int)
  /-- an array of pointers -/
  | ptrs (ps : List Ptr)
  /-- `struct _polycap_photon`: only its pointer members and the counters that describe them -/
  | photon (extleak intleak : Ptr) (n_extleak n_intleak : Nat) (energies weight amu scatf : Ptr)

namespace Mem
open CM
variable {α : Type}

/-- Write a whole `double` array that was allocated with room for it (a loop over all elements or a
`memcpy`); writing more elements than allocated is undefined behaviour. -/
def storeArr (p : Ptr) (xs : List α) : CM (Block α) Unit := do
  match ← load p with
  | .raw n => if xs.length ≤ n then store p (.doubles xs) else ub
  | .doubles ys => if xs.length ≤ ys.length then store p (.doubles xs) else ub
  | _ => ub

def storeInts (p : Ptr) (xs : List Int) : CM (Block α) Unit := do
  match ← load p with
  | .raw n => if xs.length ≤ n then store p (.ints xs) else ub
  | .ints ys => if xs.length ≤ ys.length then store p (.ints xs) else ub
  | _ => ub

/-- Read the first `n` elements of a `double` array; reading past its end is undefined behaviour. -/
def loadArr (p : Ptr) (n : Nat) : CM (Block α) (List α) := do
  match ← load p with
  | .doubles xs => if n ≤ xs.length then pure (xs.take n) else ub
  | _ => ub

def loadInts (p : Ptr) (n : Nat) : CM (Block α) (List Int) := do
  match ← load p with
  | .ints xs => if n ≤ xs.length then pure (xs.take n) else ub
  | _ => ub
end Mem
end Polycap
