import Verif.Heap

/-!
# The error API (`/repo/src/polycap-error.c`)
-/
namespace Polycap

/-- `enum polycap_error_code`, include/polycap-error.h:35-43. -/
inductive Code where
  | memory | invalidArgument | io | openmp | type | unsupported | runtime
  deriving DecidableEq, Repr

/-- Blocks used by the error API: a `polycap_error` struct (include/polycap-error.h:47-50) or a
C string. -/
inductive EBlock where
  | err (code : Code) (message : Ptr)
  | str (s : String)
  deriving DecidableEq

namespace ErrApi
open CM

/-- A well-typed access to an error struct (a string block there is undefined behaviour). -/
def loadErr (p : Ptr) : CM EBlock (Code × Ptr) := do
  match ← load p with
  | .err c m => pure (c, m)
  | .str _ => ub

/-- `polycap_error_new_valist` (polycap-error.c:44-57) and `polycap_error_new_literal` (75-88).
Both: NULL text → NULL; else struct + text are allocated.  The formatted message is taken as the
`String` that `vasprintf` would produce.  The struct `malloc` is unchecked in C, so its failure is
`error->code = code` on NULL: undefined behaviour (`store none`). -/
def errorNew (code : Code) (text : Option String) : CM EBlock Ptr :=
  match text with
  | none => pure none
  | some s => do
    let e ← malloc (.err code none)
    store e (.err code none)
    let m ← malloc (.str s)
    store e (.err code m)
    pure e

/-- `polycap_error_free`, polycap-error.c:90-98. -/
def errorFree (p : Ptr) : CM EBlock Unit :=
  match p with
  | none => pure ()
  | some a => do
    let (_, m) ← loadErr (some a)
    match m with
    | none => pure ()
    | some s => free (some s)
    free (some a)

/-- `polycap_error_copy`, polycap-error.c:100-115 (struct copy, then a fresh copy of the text;
struct `malloc` unchecked). -/
def errorCopy (p : Ptr) : CM EBlock Ptr :=
  match p with
  | none => pure none
  | some a => do
    let e ← malloc (.err .memory none)
    let (c, m) ← loadErr (some a)
    store e (.err c none)
    match m with
    | none => pure e
    | some s => do
      match ← load (some s) with
      | .str t => do
        let m' ← malloc (.str t)
        store e (.err c m')
        pure e
      | .err _ _ => ub

/-- `polycap_error_matches`, polycap-error.c:117-119. -/
def errorMatches (p : Ptr) (code : Code) : CM EBlock Bool :=
  match p with
  | none => pure false
  | some a => do
    let (c, _) ← loadErr (some a)
    pure (c == code)

/-- A `polycap_error **` argument: `none` is a NULL pointer, `some cur` points to a variable
currently holding `cur`.  Functions that may assign through it return the new content of the
variable. -/
abbrev Slot := Option Ptr

/-- `polycap_set_error`, polycap-error.c:125-143.  The new object is made first even if the slot is
occupied; the warning reads `new->message`, so a NULL format with an occupied slot is undefined
behaviour. -/
def setError (err : Slot) (code : Code) (text : Option String) : CM EBlock Slot :=
  match err with
  | none => pure none
  | some cur => do
    let n ← errorNew code text
    match cur with
    | none => pure (some n)
    | some c => do
      let _ ← loadErr n
      errorFree n
      pure (some (some c))

/-- `polycap_set_error_literal`, polycap-error.c:145-153. -/
def setErrorLiteral (err : Slot) (code : Code) (text : Option String) : CM EBlock Slot :=
  match err with
  | none => pure none
  | some none => do
    let n ← errorNew code text
    pure (some n)
  | some (some c) => pure (some (some c))

/-- `polycap_propagate_error`, polycap-error.c:155-175. -/
def propagateError (dest : Slot) (src : Ptr) : CM EBlock Slot :=
  match src with
  | none => pure dest
  | some s =>
    match dest with
    | none => do
      errorFree (some s)
      pure none
    | some none => pure (some (some s))
    | some (some d) => do
      let _ ← loadErr (some s)
      errorFree (some s)
      pure (some (some d))

/-- `polycap_clear_error`, polycap-error.c:177-182. -/
def clearError (err : Slot) : CM EBlock Slot :=
  match err with
  | none => pure none
  | some none => pure (some none)
  | some (some c) => do
    errorFree (some c)
    pure (some none)

end ErrApi
end Polycap
