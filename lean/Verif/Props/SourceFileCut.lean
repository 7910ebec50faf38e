import Mathlib.Tactic.IntervalCases
import Verif.Props.SourceFileProps

/-!
# C60: where a malformed input file is reported and where it is not

A file is cut after its first `k` values (`ts = []`) or holds a word in place of the next one (`ts = .junk :: r`).
-/
namespace Polycap
open CNum
variable {α : Type} [CNum α]
set_option linter.unusedSimpArgs false

/-- what is left of the input once it stops making sense: nothing, or something that starts with a word -/
def Stop (ts : List (Tok α)) : Prop := ts = [] ∨ ∃ r, ts = .junk :: r

theorem Stop.lf {A : Type} {ts : List (Tok α)} (h : Stop ts) (inj : α → A) (v : A) :
    (scanLf inj ts v).1 ≠ 1 ∧ (scanLf inj ts v).2 = (v, ts) := by
  rcases h with rfl | ⟨r, rfl⟩ <;> simp [scanLf]

omit [CNum α] in
theorem Stop.int {A : Type} {ts : List (Tok α)} (h : Stop ts) (inj : Int → A) (v : A) :
    ∃ c, c ≠ 1 ∧ scanInt inj ts v = some (c, v, ts) := by
  rcases h with rfl | ⟨r, rfl⟩ <;> simp [scanInt]

theorem Stop.many {ts : List (Tok α)} (h : Stop ts) (n : Nat) : scanMany n ts = (List.replicate n none, ts) := by
  cases n with
  | zero => rfl
  | succ n =>
    obtain ⟨h1, h2⟩ := h.lf (A := Option α) some none
    simp only [scanMany, h1, if_false, h2]

theorem scanElems_cut (ts : List (Tok α)) (hs : Stop ts) : ∀ (el : List (Int × α)) (k : Nat), k < 2 * el.length →
    scanElems el.length ((el.flatMap (fun zw => [.int zw.1, .real zw.2])).take k ++ ts) = .ub
  | [], k, h => by simp at h
  | zw :: el, 0, _ => by
    obtain ⟨c, hc, h⟩ := hs.int (A := Option Int) some none
    simp only [List.length_cons, List.take_zero, List.nil_append, scanElems, h, outside, Out.bind_ok, hc, if_false, useVar]
    rfl
  | zw :: el, 1, _ => by
    obtain ⟨h1, h2⟩ := hs.lf (A := Option α) some none
    simp only [List.length_cons, List.flatMap_cons, List.cons_append, List.take_succ_cons, List.take_zero, List.nil_append, scanElems, scanInt, outside,
      Out.bind_ok, if_true, h2, useVar]
    rfl
  | zw :: el, k + 2, h => by
    have ih := scanElems_cut ts hs el k (by simp at h; omega)
    simp only [List.length_cons, List.flatMap_cons, List.cons_append, List.take_succ_cons, List.nil_append, scanElems, scanInt, outside,
      Out.bind_ok, if_true, scanLf, useVar]
    rw [ih]
    rfl

/-- the input after the composition -/
def FileVals.tail (v : FileVals α) : List (Tok α) :=
  [.real v.density, .real v.e_start, .real v.e_final, .real v.delta_e, .int v.n_photons, .int v.shape.type,
   .real v.shape.length, .real v.shape.rad_ext_upstream, .real v.shape.rad_ext_downstream, .real v.shape.rad_int_upstream,
   .real v.shape.rad_int_downstream, .real v.shape.focal_dist_upstream, .real v.shape.focal_dist_downstream, .int v.n_cap]

/-- the input before the composition -/
def FileVals.head (v : FileVals α) : List (Tok α) :=
  [.real v.sig_rough, .real v.d_source, .real v.src_x, .real v.src_y, .real v.src_sigx, .real v.src_sigy, .real v.src_shiftx,
   .real v.src_shifty, .real v.hor_pol, .int v.elems.length]

theorem file_tail_cut (env : FileEnv α) (v : FileVals α) (ht : v.shape.type = 0 ∨ v.shape.type = 1 ∨ v.shape.type = 2)
    (S : Src α) (sig : α) (el : List (Int × α)) (e : EArg) (ts : List (Tok α)) (hs : Stop ts) (k : Nat) (hk : k < 13) :
    fileBody env S sig el.length (el.flatMap (fun zw => [.int zw.1, .real zw.2]) ++ (v.tail.take k ++ ts)) e = .ub := by
  simp only [fileBody]
  rw [scanElems_all]
  simp only [Out.bind_ok]
  rcases hs with rfl | ⟨r, rfl⟩ <;> interval_cases k <;>
    simp only [FileVals.tail, List.take_succ_cons, List.take_zero, List.cons_append, List.nil_append, scanLf, scanMany, if_true, if_false,
      useAll, useVar, Out.bind_ok, scanInt, outside, id, scanProfile, if_pos ht, List.replicate] <;> rfl

theorem file_tail_last (env : FileEnv α) (v : FileVals α) (ht : v.shape.type = 0 ∨ v.shape.type = 1 ∨ v.shape.type = 2)
    (S : Src α) (sig : α) (el : List (Int × α)) (ts : List (Tok α)) (hs : Stop ts) :
    fileBody env S sig el.length (el.flatMap (fun zw => [.int zw.1, .real zw.2]) ++ (v.tail.take 13 ++ ts)) (some none) =
      .ok (none, some (some .invalidArgument)) := by
  simp only [fileBody]
  rw [scanElems_all]
  simp only [Out.bind_ok]
  rcases hs with rfl | ⟨r, rfl⟩
  all_goals
   simp only [FileVals.tail, List.take_succ_cons, List.take_zero, List.cons_append, List.nil_append, scanLf, scanMany, if_true, if_false,
     useAll, useVar, Out.bind_ok, scanInt, outside, id, scanProfile, if_pos ht]
   generalize profileValue env.fit _ = q
   cases q with
   | none => rfl
   | some p =>
     have hset : ∀ wi : List α, ((checkWeight wi (some none)).2).set .invalidArgument = some (some .invalidArgument) := by
       intro wi
       unfold checkWeight
       simp only
       repeat' split
       all_goals rfl
     have hrej : ∀ (S : Src α) (D : Descr α) (oa : α), D.n_cap = 0 → fileRejects S D oa = true := by
       intro S D oa h
       simp [fileRejects, h]
     simp only [Option.isNone_some, Bool.false_eq_true, if_false, scanInt, fileFinish, Out.bind_ok, id]
     rw [if_pos (hrej _ _ _ rfl), hset]

/-- the source members as read by the reader -/
def FileVals.src0 (v : FileVals α) : Src α :=
  ⟨v.d_source, v.src_x, v.src_y, v.src_sigx, v.src_sigy, v.src_shiftx, v.src_shifty, v.hor_pol, []⟩

theorem file_head (env : FileEnv α) (v : FileVals α) (hl : v.elems.length < 4294967296) (r : List (Tok α)) (e : EArg) :
    sourceFromTokens env (v.head ++ r) e = fileBody env v.src0 v.sig_rough v.elems.length r e := by
  have hm : ((v.elems.length : Int) % 4294967296).toNat = v.elems.length := by omega
  simp only [sourceFromTokens, FileVals.head, List.cons_append, List.nil_append, scanLf, scanLf2, id, scanInt, outside, Out.bind_ok,
    if_true, one_ne_zero, if_false, Int.reduceEq, OfNat.ofNat_ne_zero, OfNat.ofNat_ne_one, hm, FileVals.src0]

theorem file_tokens (v : FileVals α) :
    v.tokens = v.head ++ (v.elems.flatMap (fun zw => [.int zw.1, .real zw.2]) ++ v.tail) := by
  simp [FileVals.tokens, FileVals.head, FileVals.tail]

omit [CNum α] in
theorem elems_length (el : List (Int × α)) : (el.flatMap (fun zw => ([.int zw.1, .real zw.2] : List (Tok α)))).length = 2 * el.length := by
  induction el with
  | nil => rfl
  | cons a l ih => simp only [List.flatMap_cons, List.length_append, ih, List.length_cons, List.length_nil]; omega

theorem tokens_length (v : FileVals α) : v.tokens.length = 24 + 2 * v.elems.length := by
  rw [file_tokens]
  simp only [List.length_append, elems_length]
  simp only [FileVals.head, FileVals.tail, List.length_cons, List.length_nil]
  omega

/-- past the first ten values -/
theorem file_cut_late (env : FileEnv α) (v : FileVals α) (hl : v.elems.length < 4294967296)
    (ht : v.shape.type = 0 ∨ v.shape.type = 1 ∨ v.shape.type = 2) (ts : List (Tok α)) (hs : Stop ts) (k : Nat) (h10 : 10 ≤ k) :
    (k + 1 < v.tokens.length → ∀ e, sourceFromTokens env (v.tokens.take k ++ ts) e = .ub) ∧
    (k + 1 = v.tokens.length → sourceFromTokens env (v.tokens.take k ++ ts) (some none) = .ok (none, some (some .invalidArgument))) := by
  have e1 : v.tokens.take k ++ ts = v.head ++ ((v.elems.flatMap (fun zw => ([.int zw.1, .real zw.2] : List (Tok α)))).take (k - 10) ++
      (v.tail.take (k - 10 - 2 * v.elems.length) ++ ts)) := by
    rw [file_tokens, List.take_append, List.take_append, elems_length, show v.head.length = 10 from rfl,
      List.take_of_length_le (show v.head.length ≤ k from h10)]
    simp
  rw [e1, tokens_length]
  rcases Nat.lt_or_ge (k - 10) (2 * v.elems.length) with h | h
  · refine ⟨fun _ e => ?_, fun hk => by omega⟩
    rw [file_head env v hl, show k - 10 - 2 * v.elems.length = 0 by omega, List.take_zero, List.nil_append]
    simp only [fileBody]
    rw [scanElems_cut ts hs _ _ h]
    rfl
  · rw [List.take_of_length_le (by rw [elems_length]; exact h)]
    refine ⟨fun hk e => ?_, fun hk => ?_⟩
    · rw [file_head env v hl]
      exact file_tail_cut env v ht _ _ _ e ts hs _ (by omega)
    · rw [file_head env v hl, show k - 10 - 2 * v.elems.length = 13 by omega]
      exact file_tail_last env v ht _ _ _ ts hs

/-- **C60 (cut files, finding).**  For every complete input file with an analytic shape: cut anywhere before its last value it makes the
reader use uninitialised variables; only the file that lacks nothing but the number of capillaries is refused with
INVALID_ARGUMENT. -/
theorem file_cut (env : FileEnv α) (v : FileVals α) (hl : v.elems.length < 4294967296)
    (ht : v.shape.type = 0 ∨ v.shape.type = 1 ∨ v.shape.type = 2) (k : Nat) :
    (k + 1 < v.tokens.length → ∀ e, sourceFromTokens env (v.tokens.take k) e = .ub) ∧
    (k + 1 = v.tokens.length → sourceFromTokens env (v.tokens.take k) (some none) = .ok (none, some (some .invalidArgument))) := by
  rcases Nat.lt_or_ge k 10 with h | h
  · refine ⟨fun _ e => ?_, fun hk => by rw [tokens_length] at hk; omega⟩
    interval_cases k <;> rfl
  · have := file_cut_late env v hl ht [] (Or.inl rfl) k h
    simpa using this

/-- **C60 (words, finding and the part that holds).**  For every complete input file with an analytic shape and every position: a word
in place of one of the first ten values is reported as IO; in place of the last value (the number of capillaries) it is refused with
INVALID_ARGUMENT; anywhere else the reader goes on with uninitialised variables. -/
theorem file_word_partial (env : FileEnv α) (v : FileVals α) (hl : v.elems.length < 4294967296)
    (ht : v.shape.type = 0 ∨ v.shape.type = 1 ∨ v.shape.type = 2) (k : Nat) (r : List (Tok α)) :
    (k < 10 → sourceFromTokens env (v.tokens.take k ++ .junk :: r) (some none) = .ok (none, some (some .io))) ∧
    (10 ≤ k → k + 1 < v.tokens.length → ∀ e, sourceFromTokens env (v.tokens.take k ++ .junk :: r) e = .ub) ∧
    (k + 1 = v.tokens.length → sourceFromTokens env (v.tokens.take k ++ .junk :: r) (some none) = .ok (none, some (some .invalidArgument))) := by
  refine ⟨fun h => ?_, fun h10 hk => (file_cut_late env v hl ht _ (Or.inr ⟨r, rfl⟩) k h10).1 hk, fun hk => ?_⟩
  · interval_cases k <;> rfl
  · exact (file_cut_late env v hl ht _ (Or.inr ⟨r, rfl⟩) k (by rw [tokens_length] at hk; omega)).2 hk

/-- the example file of `file_contract_false` has 26 values -/
example : (exFile 100).tokens.length = 26 ∧ (exFile 100).elems.length < 4294967296 ∧ (exFile 100).shape.type = 0 := by
  rw [tokens_length]
  simp [exFile]

end Polycap
