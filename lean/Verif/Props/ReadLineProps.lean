import Verif.ReadLine

/-!
# C41: input lines are read completely and safely
-/
namespace Polycap.ReadLine

/-- The C string held by a buffer is the bytes `l` followed by a terminating 0, and the buffer is exactly
that long. -/
def Holds (b : Buf) (l : List UInt8) : Prop :=
  b.cap = l.length + 1 ∧ (∀ i (h : i < l.length), b.data i = some l[i]) ∧ b.data l.length = some 0

/-- first line of the input and what follows its newline -/
def firstLine (input : List UInt8) : List UInt8 := input.takeWhile (· ≠ nl)
def afterLine (input : List UInt8) : List UInt8 := (input.dropWhile (· ≠ nl)).drop 1

/-- Loop invariant after reading `pre`. -/
structure Inv (pre : List UInt8) (s : St) : Prop where
  j : s.j = pre.length
  size : s.size = 128 * (pre.length / 128 + 1)
  buf : ∃ b, s.buf = some b ∧ b.cap = s.size ∧ ∀ i (h : i < pre.length), b.data i = some pre[i]

theorem loop_ok (orc : Nat → Bool) (ok : ∀ k, orc k = true) : ∀ (input pre : List UInt8) (s : St), Inv pre s →
    pre.length + (firstLine input).length < W - 128 →
    ∃ s', loop orc input s = some (s', afterLine input) ∧ Inv (pre ++ firstLine input) s'
  | [], pre, s, inv, _ => ⟨s, rfl, by simpa [firstLine] using inv⟩
  | c :: cs, pre, s, inv, hlen => by
    by_cases hc : c = nl
    · refine ⟨s, by simp [loop, hc, afterLine], ?_⟩
      simpa [firstLine, hc] using inv
    · have fl : firstLine (c :: cs) = c :: firstLine cs := by simp [firstLine, hc]
      have al : afterLine (c :: cs) = afterLine cs := by simp [afterLine, hc]
      obtain ⟨b, hb, hcap, hd⟩ := inv.buf
      rw [fl] at hlen
      simp only [List.length_cons] at hlen
      have hjlt : s.j < b.cap := by rw [hcap, inv.size, inv.j]; omega
      have hW : W = 2 ^ 32 := rfl
      have hmod : (s.j + 1) % W = pre.length + 1 := by
        rw [inv.j, Nat.mod_eq_of_lt]; omega
      have hlen' : (pre ++ [c]).length + (firstLine cs).length < W - 128 := by
        simp only [List.length_append, List.length_cons, List.length_nil]; omega
      have hdata : ∀ i (h : i < (pre ++ [c]).length), (if i = s.j then some c else b.data i) = some (pre ++ [c])[i] := by
        intro i h
        rw [inv.j]
        by_cases hi : i = pre.length
        · subst hi; simp
        · have : i < pre.length := by simp at h; omega
          rw [if_neg hi, hd i this, List.getElem_append_left this]
      rw [fl, al, show pre ++ c :: firstLine cs = (pre ++ [c]) ++ firstLine cs by simp]
      simp only [loop, hc, if_false, hb, Buf.write, hjlt, if_true, hmod]
      by_cases hsz : pre.length + 1 = s.size
      · simp only [hsz, if_true]
        have hmod2 : (s.size + 128) % W = s.size + 128 := Nat.mod_eq_of_lt (by omega)
        refine loop_ok orc ok cs (pre ++ [c]) _ ⟨?_, ?_, ?_⟩ hlen'
        · simp [← hsz]
        · rw [hmod2]
          have := inv.size
          simp only [List.length_append, List.length_cons, List.length_nil]
          omega
        · rw [hmod2, ok]
          refine ⟨_, by simp [Buf.realloc]; rfl, by simp, ?_⟩
          intro i h
          have h' : i < pre.length + 1 := by simpa using h
          simp only
          rw [if_pos ⟨by rw [hcap]; omega, by omega⟩]
          exact hdata i h
      · simp only [hsz, if_false]
        refine loop_ok orc ok cs (pre ++ [c]) _ ⟨?_, ?_, ?_⟩ hlen'
        · simp
        · have := inv.size
          simp only [List.length_append, List.length_cons, List.length_nil]
          omega
        · exact ⟨_, rfl, hcap, hdata⟩

theorem inv_init : Inv [] { j := 0, size := 128, buf := some ⟨128, fun _ => none⟩, k := 0 } :=
  ⟨rfl, rfl, _, rfl, rfl, fun i h => by simp at h⟩

/-- **C41.**  Memory permitting, for every input whose next line is shorter than 2³²-128 bytes, the call
returns exactly the bytes up to the next newline or end of file as a 0-terminated string in a buffer of
exactly the right size, consumes exactly these bytes and the newline, reports no error and never
writes outside its buffer. -/
theorem read_line_correct (input : List UInt8) (orc : Nat → Bool) (ok : ∀ k, orc k = true) (e : EArg)
    (hlen : (firstLine input).length < W - 128) :
    ∃ b, readInputLine (some input) true orc e = some ⟨some b, afterLine input, e⟩ ∧
      Holds b (firstLine input) := by
  obtain ⟨s, hl, inv⟩ := loop_ok orc ok input [] _ inv_init (by simpa using hlen)
  simp only [List.nil_append] at inv
  obtain ⟨b, hb, hcap, hd⟩ := inv.buf
  have hW : W = 2 ^ 32 := rfl
  have hj : s.j < b.cap := by rw [hcap, inv.size, inv.j]; omega
  have hmod : (s.j + 1) % W = (firstLine input).length + 1 := by
    rw [inv.j, Nat.mod_eq_of_lt]; omega
  have hcb : (firstLine input).length + 1 ≤ b.cap := by rw [← inv.j]; omega
  simp only [readInputLine, Bool.not_true, Bool.false_eq_true, if_false, hl, hb, Buf.write, hj, if_true, hmod,
    Buf.realloc, ok]
  refine ⟨_, rfl, rfl, ?_, ?_⟩
  · intro i h
    simp only
    rw [if_pos ⟨by omega, by omega⟩, if_neg (by rw [inv.j]; omega), hd i h]
  · simp only
    rw [if_pos ⟨by omega, by omega⟩, if_pos inv.j.symm]

/-- **C41.**  Reading line after line: `k` consecutive calls on a file whose lines are all short enough
return its first `k` lines. -/
def nthRest (input : List UInt8) : Nat → List UInt8
  | 0 => input
  | k + 1 => nthRest (afterLine input) k

theorem read_lines_correct (orc : Nat → Bool) (ok : ∀ k, orc k = true) (e : EArg) (k : Nat) : ∀ (input : List UInt8),
    (∀ i ≤ k, (firstLine (nthRest input i)).length < W - 128) →
    ∃ b, readInputLine (some (nthRest input k)) true orc e = some ⟨some b, nthRest input (k+1), e⟩ ∧
      Holds b (firstLine (nthRest input k)) := by
  intro input h
  have : nthRest input (k+1) = afterLine (nthRest input k) := by
    clear h
    induction k generalizing input with
    | zero => rfl
    | succ k ih => exact ih (afterLine input)
  rw [this]
  exact read_line_correct _ orc ok e (h k (le_refl _))

/-- The lines and the newlines between them are exactly the input: nothing is lost. -/
theorem line_split (input : List UInt8) (h : nl ∈ input) : firstLine input ++ nl :: afterLine input = input := by
  induction input with
  | nil => simp at h
  | cons c cs ih =>
    by_cases hc : c = nl
    · simp [firstLine, afterLine, hc]
    · have hm : nl ∈ cs := by
        rcases List.mem_cons.mp h with h | h
        · exact absurd h.symm hc
        · exact h
      have := ih hm
      simp [firstLine, afterLine, hc] at this ⊢
      exact this

/-- **C41.**  NULL file and failing first allocation. -/
theorem read_line_errors (input : List UInt8) (m : Bool) (orc : Nat → Bool) (e : EArg) :
    readInputLine none m orc e = some ⟨none, [], e.set .invalidArgument⟩ ∧
    readInputLine (some input) false orc e = some ⟨none, input, e.set .memory⟩ := ⟨rfl, rfl⟩

/-- helper: from an invariant state of exactly `128 k` bytes more … the loop on a null buffer is undefined
if another byte or the terminator has to be written -/
theorem loop_null (orc : Nat → Bool) (input : List UInt8) (s : St) (hs : s.buf = none) :
    loop orc input s = none ∨ ∃ s' r, loop orc input s = some (s', r) ∧ s'.buf = none := by
  cases input with
  | nil => exact Or.inr ⟨s, [], rfl, hs⟩
  | cons c cs =>
    by_cases hc : c = nl
    · exact Or.inr ⟨s, cs, by simp [loop, hc], hs⟩
    · left; simp [loop, hc, hs, Buf.write]

theorem loop_ub (orc : Nat → Bool) (bad : ∀ k, orc k = true) : ∀ (input pre : List UInt8) (s : St), Inv pre s →
    pre.length < W - 128 → W - 128 ≤ pre.length + (firstLine input).length →
    loop orc input s = none ∨ ∃ s' r, loop orc input s = some (s', r) ∧ s'.buf = none
  | [], pre, s, inv, h1, h2 => by simp [firstLine] at h2; omega
  | c :: cs, pre, s, inv, h1, h2 => by
    have hW : W = 2 ^ 32 := rfl
    by_cases hc : c = nl
    · simp [firstLine, hc] at h2; omega
    · have fl : firstLine (c :: cs) = c :: firstLine cs := by simp [firstLine, hc]
      obtain ⟨b, hb, hcap, hd⟩ := inv.buf
      rw [fl] at h2
      simp only [List.length_cons] at h2
      have hjlt : s.j < b.cap := by rw [hcap, inv.size, inv.j]; omega
      have hmod : (s.j + 1) % W = pre.length + 1 := by
        rw [inv.j, Nat.mod_eq_of_lt]; omega
      have hdata : ∀ i (h : i < (pre ++ [c]).length), (if i = s.j then some c else b.data i) = some (pre ++ [c])[i] := by
        intro i h
        rw [inv.j]
        by_cases hi : i = pre.length
        · subst hi; simp
        · have : i < pre.length := by simp at h; omega
          rw [if_neg hi, hd i this, List.getElem_append_left this]
      simp only [loop, hc, if_false, hb, Buf.write, hjlt, if_true, hmod]
      by_cases hlast : pre.length + 1 = W - 128
      · have hsz : pre.length + 1 = s.size := by
          have := inv.size; omega
        simp only [hsz, if_true]
        apply loop_null
        have : (s.size + 128) % W = 0 := by rw [← hsz, hlast, hW]; norm_num
        simp [Buf.realloc, this]
      · have h1' : (pre ++ [c]).length < W - 128 := by simp; omega
        have h2' : W - 128 ≤ (pre ++ [c]).length + (firstLine cs).length := by simp; omega
        by_cases hsz : pre.length + 1 = s.size
        · simp only [hsz, if_true]
          have hmod2 : (s.size + 128) % W = s.size + 128 := by
            apply Nat.mod_eq_of_lt
            have := inv.size; omega
          refine loop_ub orc bad cs (pre ++ [c]) _ ⟨?_, ?_, ?_⟩ h1' h2'
          · simp [← hsz]
          · rw [hmod2]
            have := inv.size
            simp only [List.length_append, List.length_cons, List.length_nil]
            omega
          · rw [hmod2, bad]
            refine ⟨_, by simp [Buf.realloc]; rfl, by simp, ?_⟩
            intro i h
            have h' : i < pre.length + 1 := by simpa using h
            simp only
            rw [if_pos ⟨by rw [hcap]; omega, by omega⟩]
            exact hdata i h
        · simp only [hsz, if_false]
          refine loop_ub orc bad cs (pre ++ [c]) _ ⟨?_, ?_, ?_⟩ h1' h2'
          · simp
          · have := inv.size
            simp only [List.length_append, List.length_cons, List.length_nil]
            omega
          · exact ⟨_, rfl, hcap, hdata⟩

/-- Finding (C41): the length bound is sharp.  For a line of 2³²-128 bytes or more the 32-bit size
counter wraps to 0, the buffer is reallocated to nothing and written through: undefined behaviour. -/
theorem read_line_overflow_ub (input : List UInt8) (orc : Nat → Bool) (ok : ∀ k, orc k = true) (e : EArg)
    (hlen : W - 128 ≤ (firstLine input).length) : readInputLine (some input) true orc e = none := by
  have := loop_ub orc ok input [] _ inv_init (by simp [W]) (by simpa using hlen)
  simp only [readInputLine, Bool.not_true, Bool.false_eq_true, if_false]
  rcases this with h | ⟨s', r, h, hs⟩
  · rw [h]
  · rw [h]; simp [hs, Buf.write]

/-- Finding (C41): a failing `realloc` is not checked; with a line of at least 128 bytes the first one
failing is undefined behaviour. -/
theorem loop_take : ∀ (orc : Nat → Bool) (hk : orc 0 = false) (input pre : List UInt8) (s : St), Inv pre s → s.k = 0 →
    pre.length < 128 → 128 ≤ pre.length + (firstLine input).length →
    loop orc input s = none ∨ ∃ s' r, loop orc input s = some (s', r) ∧ s'.buf = none
  | orc, hk, [], pre, s, inv, _, h1, h2 => by simp [firstLine] at h2; omega
  | orc, hk, c :: cs, pre, s, inv, sk, h1, h2 => by
    by_cases hc : c = nl
    · simp [firstLine, hc] at h2; omega
    · have fl : firstLine (c :: cs) = c :: firstLine cs := by simp [firstLine, hc]
      obtain ⟨b, hb, hcap, hd⟩ := inv.buf
      rw [fl] at h2
      simp only [List.length_cons] at h2
      have hjlt : s.j < b.cap := by rw [hcap, inv.size, inv.j]; omega
      have hmod : (s.j + 1) % W = pre.length + 1 := by
        rw [inv.j, Nat.mod_eq_of_lt]; have : W = 2 ^ 32 := rfl; omega
      simp only [loop, hc, if_false, hb, Buf.write, hjlt, if_true, hmod]
      have hs128 : s.size = 128 := by have := inv.size; omega
      by_cases hsz : pre.length + 1 = s.size
      · simp only [hsz, if_true]
        apply loop_null
        simp [Buf.realloc, sk, hk]
      · simp only [hsz, if_false]
        refine loop_take orc hk cs (pre ++ [c]) _ ⟨?_, ?_, ?_⟩ sk (by simp; omega) (by simp; omega)
        · simp
        · have := inv.size
          simp only [List.length_append, List.length_cons, List.length_nil]
          omega
        · refine ⟨_, rfl, hcap, ?_⟩
          intro i h
          simp only
          rw [inv.j]
          by_cases hi : i = pre.length
          · subst hi; simp
          · have : i < pre.length := by simp at h; omega
            rw [if_neg hi, hd i this, List.getElem_append_left this]

theorem read_line_realloc_ub (input : List UInt8) (orc : Nat → Bool) (hk : orc 0 = false) (e : EArg)
    (hlen : 128 ≤ (firstLine input).length) : readInputLine (some input) true orc e = none := by
  have := loop_take orc hk input [] _ inv_init rfl (by simp) (by simpa using hlen)
  simp only [readInputLine, Bool.not_true, Bool.false_eq_true, if_false]
  rcases this with h | ⟨s', r, h, hs⟩
  · rw [h]
  · rw [h]; simp [hs, Buf.write]

/-- One pass of the loop for every behaviour of `realloc`: the loop ends with the line in the buffer iff
the line is short enough and every `realloc` made on the way succeeded; otherwise the buffer is gone. -/
theorem loop_any (orc : Nat → Bool) : ∀ (input pre : List UInt8) (s : St), Inv pre s → s.k = pre.length / 128 →
    pre.length < W - 128 →
    ((pre.length + (firstLine input).length < W - 128 ∧
        (∀ k, pre.length / 128 ≤ k → k < (pre.length + (firstLine input).length) / 128 → orc k = true)) →
      ∃ s', loop orc input s = some (s', afterLine input) ∧ Inv (pre ++ firstLine input) s' ∧
        s'.k = (pre ++ firstLine input).length / 128) ∧
    (¬ (pre.length + (firstLine input).length < W - 128 ∧
        (∀ k, pre.length / 128 ≤ k → k < (pre.length + (firstLine input).length) / 128 → orc k = true)) →
      loop orc input s = none ∨ ∃ s' r, loop orc input s = some (s', r) ∧ s'.buf = none)
  | [], pre, s, inv, sk, h1 => by
    refine ⟨fun _ => ⟨s, rfl, by simpa [firstLine] using inv, by simpa [firstLine] using sk⟩, fun h => absurd ⟨by simpa [firstLine] using h1, ?_⟩ h⟩
    intro k a b
    simp [firstLine] at b
    omega
  | c :: cs, pre, s, inv, sk, h1 => by
    have hW : W = 2 ^ 32 := rfl
    by_cases hc : c = nl
    · have fl : firstLine (c :: cs) = [] := by simp [firstLine, hc]
      refine ⟨fun _ => ⟨s, by simp [loop, hc, afterLine], by simpa [fl] using inv, by simpa [fl] using sk⟩, fun h => absurd ⟨by simpa [fl] using h1, ?_⟩ h⟩
      intro k a b
      simp [fl] at b
      omega
    · have fl : firstLine (c :: cs) = c :: firstLine cs := by simp [firstLine, hc]
      have al : afterLine (c :: cs) = afterLine cs := by simp [afterLine, hc]
      obtain ⟨b, hb, hcap, hd⟩ := inv.buf
      have hjlt : s.j < b.cap := by rw [hcap, inv.size, inv.j]; omega
      have hmod : (s.j + 1) % W = pre.length + 1 := by
        rw [inv.j, Nat.mod_eq_of_lt]; omega
      have hdata : ∀ i (h : i < (pre ++ [c]).length), (if i = s.j then some c else b.data i) = some (pre ++ [c])[i] := by
        intro i h
        rw [inv.j]
        by_cases hi : i = pre.length
        · subst hi; simp
        · have : i < pre.length := by simp at h; omega
          rw [if_neg hi, hd i this, List.getElem_append_left this]
      rw [fl, al, show pre ++ c :: firstLine cs = (pre ++ [c]) ++ firstLine cs by simp]
      have hlc : (pre ++ [c]).length = pre.length + 1 := by simp
      have hsum : pre.length + (c :: firstLine cs).length = (pre ++ [c]).length + (firstLine cs).length := by simp; omega
      rw [hsum]
      simp only [loop, hc, if_false, hb, Buf.write, hjlt, if_true, hmod]
      have hsz' := inv.size
      by_cases hsz : pre.length + 1 = s.size
      · simp only [hsz, if_true]
        have hq : (pre.length + 1) / 128 = pre.length / 128 + 1 := by omega
        by_cases hlast : pre.length + 1 = W - 128
        · have h0 : (s.size + 128) % W = 0 := by rw [← hsz, hlast, hW]; norm_num
          refine ⟨fun h => absurd h.1 (by rw [hlc]; omega), fun _ => loop_null _ _ _ ?_⟩
          simp [Buf.realloc, h0]
        · have hmod2 : (s.size + 128) % W = s.size + 128 := Nat.mod_eq_of_lt (by omega)
          by_cases hk : orc s.k = true
          · have ih := loop_any orc cs (pre ++ [c]) ⟨s.size, (s.size + 128) % W,
              Buf.realloc (some { b with data := fun k => if k = s.j then some c else b.data k }) ((s.size + 128) % W) (orc s.k), s.k + 1⟩
              ⟨by simp [← hsz], ?_, ?_⟩ (by simp only [hlc]; omega) (by rw [hlc]; omega)
            · refine ⟨fun h => ih.1 ⟨h.1, fun k a b => h.2 k (by rw [hlc] at a; omega) b⟩, fun h => ih.2 fun h' => h ⟨h'.1, fun k a b => ?_⟩⟩
              by_cases hks : k = s.k
              · rw [hks]; exact hk
              · exact h'.2 k (by rw [hlc]; omega) b
            · rw [hmod2, hlc]; show s.size + 128 = _; omega
            · rw [hmod2, hk]
              refine ⟨_, by simp [Buf.realloc]; rfl, by simp, ?_⟩
              intro i h
              have h' : i < pre.length + 1 := by simpa using h
              simp only
              rw [if_pos ⟨by rw [hcap]; omega, by omega⟩]
              exact hdata i h
          · refine ⟨fun h => absurd (h.2 s.k (by omega) (by rw [hlc]; omega)) hk, fun _ => loop_null _ _ _ ?_⟩
            simp [Buf.realloc, hk]
      · simp only [hsz, if_false]
        have hq : (pre.length + 1) / 128 = pre.length / 128 := by omega
        have ih := loop_any orc cs (pre ++ [c]) ⟨pre.length + 1, s.size, some { b with data := fun k => if k = s.j then some c else b.data k }, s.k⟩
          ⟨by simp, by rw [hlc]; show s.size = _; omega, ⟨_, rfl, hcap, hdata⟩⟩ (by rw [hlc]; show s.k = _; omega) (by rw [hlc]; omega)
        refine ⟨fun h => ih.1 ⟨h.1, fun k a b => h.2 k (by rw [hlc] at a; omega) b⟩, fun h => ih.2 fun h' => h ⟨h'.1, fun k a b => ?_⟩⟩
        exact h'.2 k (by rw [hlc]; omega) b

/-- **C41.**  The call for every file and every behaviour of the allocator.  It is undefined exactly when
the line has 2³²-128 bytes or more or one of the reallocations made while it grows fails (neither is checked);
otherwise it consumes the line and its newline and reports no error, and it returns the line if the last,
shrinking reallocation succeeds and NULL, still without an error, if that one fails. -/
theorem read_line_exact (input : List UInt8) (orc : Nat → Bool) (e : EArg) :
    (readInputLine (some input) true orc e = none ↔
      W - 128 ≤ (firstLine input).length ∨ ∃ k < (firstLine input).length / 128, orc k = false) ∧
    ((firstLine input).length < W - 128 → (∀ k < (firstLine input).length / 128, orc k = true) →
      (orc ((firstLine input).length / 128) = true →
        ∃ b, readInputLine (some input) true orc e = some ⟨some b, afterLine input, e⟩ ∧ Holds b (firstLine input)) ∧
      (orc ((firstLine input).length / 128) = false →
        readInputLine (some input) true orc e = some ⟨none, afterLine input, e⟩)) := by
  have hW : W = 2 ^ 32 := rfl
  have key := loop_any orc input [] _ inv_init rfl (by simp [W])
  simp only [List.length_nil, Nat.zero_add, List.nil_append, Nat.zero_div] at key
  have good : (firstLine input).length < W - 128 → (∀ k < (firstLine input).length / 128, orc k = true) →
      (orc ((firstLine input).length / 128) = true →
        ∃ b, readInputLine (some input) true orc e = some ⟨some b, afterLine input, e⟩ ∧ Holds b (firstLine input)) ∧
      (orc ((firstLine input).length / 128) = false →
        readInputLine (some input) true orc e = some ⟨none, afterLine input, e⟩) := by
    intro h1 h2
    obtain ⟨s, hl, inv, sk⟩ := key.1 ⟨h1, fun k _ => h2 k⟩
    obtain ⟨b, hb, hcap, hd⟩ := inv.buf
    have hj : s.j < b.cap := by rw [hcap, inv.size, inv.j]; omega
    have hmod : (s.j + 1) % W = (firstLine input).length + 1 := by
      rw [inv.j, Nat.mod_eq_of_lt]; omega
    have hcb : (firstLine input).length + 1 ≤ b.cap := by rw [← inv.j]; omega
    constructor
    · intro hk
      simp only [readInputLine, Bool.not_true, Bool.false_eq_true, if_false, hl, hb, Buf.write, hj, if_true, hmod,
        Buf.realloc, sk, hk]
      refine ⟨_, rfl, rfl, ?_, ?_⟩
      · intro i h
        simp only
        rw [if_pos ⟨by omega, by omega⟩, if_neg (by rw [inv.j]; omega), hd i h]
      · simp only
        rw [if_pos ⟨by omega, by omega⟩, if_pos inv.j.symm]
    · intro hk
      simp [readInputLine, hl, hb, Buf.write, hj, Buf.realloc, sk, hk]
  refine ⟨⟨fun h => ?_, fun h => ?_⟩, good⟩
  · by_contra hn
    push Not at hn
    have h2 : ∀ k < (firstLine input).length / 128, orc k = true := fun k hk => by
      have := hn.2 k hk
      simpa using this
    have g := good hn.1 h2
    cases ho : orc ((firstLine input).length / 128) with
    | true => obtain ⟨b, hb, _⟩ := g.1 ho; rw [hb] at h; simp at h
    | false => rw [g.2 ho] at h; simp at h
  · have := key.2 (fun h' => by
      rcases h with h | ⟨k, hk, ho⟩
      · omega
      · rw [h'.2 k (Nat.zero_le k) hk] at ho; simp at ho)
    simp only [readInputLine, Bool.not_true, Bool.false_eq_true, if_false]
    rcases this with h | ⟨s', r, h, hs⟩
    · rw [h]
    · rw [h]; simp [hs, Buf.write]

/-- a line of 300 bytes meets the hypotheses -/
example : (firstLine (List.replicate 300 (65:UInt8) ++ [nl, 66])).length < W - 128 := by
  have h : (firstLine (List.replicate 300 (65:UInt8) ++ [nl, 66])).length ≤ (List.replicate 300 (65:UInt8) ++ [nl, 66]).length :=
    (List.takeWhile_sublist _).length_le
  rw [List.length_append, List.length_replicate] at h
  have : W = 2 ^ 32 := rfl
  have h2 : [nl, 66].length = 2 := rfl
  omega

end Polycap.ReadLine
