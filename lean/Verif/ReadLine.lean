import Verif.Lib

/-!
# `polycap_read_input_line`, `/repo/src/polycap-description.c:24-56`

`unsigned int` counters are 32 bit and wrap; the buffer has an explicit capacity and writing past it (or
through the NULL pointer an unchecked `realloc` may return) is undefined behaviour.
-/
namespace Polycap.ReadLine

/-- `UINT_MAX + 1` -/
def W : Nat := 2 ^ 32

/-- A `char` buffer of `cap` bytes; `data i = none`: uninitialised. -/
structure Buf where
  cap : Nat
  data : Nat → Option UInt8

/-- `strPtr[i] = c` on a possibly NULL buffer; `none` = undefined behaviour. -/
def Buf.write (b : Option Buf) (i : Nat) (c : UInt8) : Option (Option Buf) :=
  match b with
  | none => none
  | some b => if i < b.cap then some (some { b with data := fun k => if k = i then some c else b.data k }) else none

/-- `realloc(b, n)`: succeeds iff `ok` and `n ≠ 0` (size 0 returns NULL after freeing, as glibc does);
the result keeps the bytes that fit. -/
def Buf.realloc (b : Option Buf) (n : Nat) (ok : Bool) : Option Buf :=
  if ok && n != 0 then
    match b with
    | none => some ⟨n, fun _ => none⟩
    | some b => some ⟨n, fun k => if k < b.cap ∧ k < n then b.data k else none⟩
  else none

/-- Loop state: `j`, `str_current_size`, the buffer, and how many `realloc`s were made so far. -/
structure St where
  j : Nat
  size : Nat
  buf : Option Buf
  k : Nat

/-- `'\n'` -/
def nl : UInt8 := 10

/-- The `while` loop, polycap-description.c:46-53; `input` is what `fgetc` will deliver (end of the list
= EOF).  Returns the state and the remaining input; `none` = undefined behaviour. -/
def loop (orc : Nat → Bool) : List UInt8 → St → Option (St × List UInt8)
  | [], s => some (s, [])
  | c :: cs, s =>
    if c = nl then some (s, cs)
    else
      match Buf.write s.buf s.j c with
      | none => none
      | some b =>
        let j := (s.j + 1) % W
        if j = s.size then
          let size := (j + 128) % W
          loop orc cs { j := j, size := size, buf := Buf.realloc b size (orc s.k), k := s.k + 1 }
        else loop orc cs { j := j, size := s.size, buf := b, k := s.k }

/-- Outcome of a call: returned buffer (`none` = NULL), remaining input, error slot. -/
structure Result where
  ret : Option Buf
  rest : List UInt8
  err : EArg

/-- `polycap_read_input_line`, polycap-description.c:24-56. `file = none`: NULL `fptr`; `m`: does the
initial `malloc(128)` succeed; `orc`: which `realloc`s succeed.  The whole result is `none` on
undefined behaviour. -/
def readInputLine (file : Option (List UInt8)) (m : Bool) (orc : Nat → Bool) (e : EArg) : Option Result :=
  match file with
  | none => some ⟨none, [], e.set .invalidArgument⟩
  | some input =>
    if !m then some ⟨none, input, e.set .memory⟩
    else
      match loop orc input { j := 0, size := 128, buf := some ⟨128, fun _ => none⟩, k := 0 } with
      | none => none
      | some (s, rest) =>
        match Buf.write s.buf s.j 0 with
        | none => none
        | some b => some ⟨Buf.realloc b ((s.j + 1) % W) (orc s.k), rest, e⟩

end Polycap.ReadLine
