import Verif.SourceFileMem
import Verif.ProfileFile

/-!
# `polycap_profile_new_from_file` as called by `polycap_source_new_from_file`

`/repo/src/polycap-profile.c:209-317` once more, now on the memory of `SourceFileMem` (`ProfileFile` has its own kind of blocks), so that the
two readers can be put together.  Difference to `ProfileFile`: an array element that is never written holds `junk` (C: whatever was in
memory).  The reading of the tables itself (`readPairs`, `readTriples`) is shared with `ProfileFile`.
-/
namespace Polycap
namespace PFile
open CNum CM Mem
variable {α : Type} [CNum α]

/-- `fopen`, polycap-profile.c:233,281,299 -/
def openM (fs : String → Option (Content α)) (name : String) : CM (Block α) (Option (Ptr × Content α)) :=
  match fs name with
  | none => pure none
  | some c => do
    let f ← malloc (.raw 0)
    if f = none then pure none else pure (some (f, c))

/-- what is in an array of doubles afterwards -/
def filled (junk : α) (xs : List (Option α)) : List α := xs.map fun x => x.getD junk

/-- external shape file, polycap-profile.c:298-316 -/
def shapeM (fs : String → Option (Content α)) (junk : α) (name : String) (p z ext : Ptr) (nmax : Nat) (e : EArg) : CM (Block α) (Ptr × EArg) := do
  match ← openM fs name with
  | none => do profileFree p; pure (none, e.set .io)
  | some (f, c) =>
    if c.count.getD nmax ≠ nmax then do profileFree p; pure (none, e.set .io)
    else do
      let zs ← Mem.loadArr z (nmax + 1)
      let es ← Mem.loadArr ext (nmax + 1)
      let r := readPairs c.words (zs.map some) (es.map some)
      storeArr z (filled junk r.1)
      storeArr ext (filled junk r.2)
      free f
      pure (p, e)

/-- central axis file, polycap-profile.c:280-296 -/
def axisM (fs : String → Option (Content α)) (junk : α) (name shape : String) (p z ext : Ptr) (nmax : Nat) (e : EArg) : CM (Block α) (Ptr × EArg) := do
  match ← openM fs name with
  | none => do profileFree p; pure (none, e.set .io)
  | some (f, c) =>
    if c.count.getD nmax ≠ nmax then do profileFree p; pure (none, e.set .io)
    else do
      let zs ← Mem.loadArr z (nmax + 1)
      storeArr z (filled junk (readTriples c.words (zs.map some)))
      free f
      shapeM fs junk shape p z ext nmax e

/-- polycap-profile.c:245-278: the profile and the single capillary data -/
def capM (fs : String → Option (Content α)) (junk : α) (axis shape : String) (f : Ptr) (c : Content α) (n : Nat) (e : EArg) :
    CM (Block α) (Ptr × EArg) := do
  let p ← malloc (.raw 0)
  if p = none then pure (none, e.set .memory) else
  if n = 2147483647 then ub else do
  let z ← malloc (.doubles (List.replicate (n + 1) junk))
  if z = none then do free p; pure (none, e.set .memory) else do
  let cap ← malloc (.doubles (List.replicate (n + 1) junk))
  if cap = none then do free z; free p; pure (none, e.set .memory) else do
  let ext ← malloc (.doubles (List.replicate (n + 1) junk))
  if ext = none then do free cap; free z; free p; pure (none, e.set .memory) else do
  store p (.profile n z cap ext)
  let zs ← Mem.loadArr z (n + 1)
  let cs ← Mem.loadArr cap (n + 1)
  let r := readPairs c.words (zs.map some) (cs.map some)
  storeArr z (filled junk r.1)
  storeArr cap (filled junk r.2)
  free f
  axisM fs junk axis shape p z ext n e

/-- `polycap_profile_new_from_file`, polycap-profile.c:211-317, for three names that are not NULL (polycap-source.c:355-359 passes the lines it
has read) -/
def pffM (fs : String → Option (Content α)) (junk : α) (nm : String × String × String) (e : EArg) : CM (Block α) (Ptr × EArg) := do
  match ← openM fs nm.1 with
  | none => pure (none, e.set .io)
  | some (f, c) =>
    match c.count with
    | none => ub
    | some n => if n ≤ 100 then pure (none, e.set .invalidArgument) else capM fs junk nm.2.1 nm.2.2 f c n.toNat e

/-- the environment of `polycap_source_new_from_file` with real profile files: `nm`: the three names at the start of the input -/
def filesEnv (trunc : α → Nat) (fit : Fit α) (names : List (Tok α) → List (Tok α)) (nm : List (Tok α) → String × String × String)
    (fs : String → Option (Content α)) (junk : α) : FileEnvM α :=
  ⟨trunc, fit, names, fun ts e => pffM fs junk (nm ts) e⟩

end PFile
end Polycap
