import Verif.Profile

/-!
# C03, C06, C07, C08, C47: profile constructors, getters and free on the heap
-/
namespace Polycap
open CNum CM Mem
variable {α : Type} [CNum α]
set_option linter.unusedSectionVars false

/-! ## Specification vocabulary -/

/-- Reading a profile object through its pointer: number of intervals, `z`, `cap`, `ext` arrays.
`none` if the object or one of its arrays is not there. -/
def readProfile (h : Heap (Block α)) (p : Ptr) : Option (Nat × List α × List α × List α) :=
  match p with
  | none => none
  | some a =>
    match h.mem a with
    | some (.profile n (some z) (some c) (some e)) =>
      match h.mem z, h.mem c, h.mem e with
      | some (.doubles zs), some (.doubles cs), some (.doubles es) => some (n, zs, cs, es)
      | _, _, _ => none
    | _ => none

/-- every allocation request succeeds -/
def AllocOk {B} (h : Heap B) : Prop := ∀ n, h.orc n = true

/-- the blocks live in `h'` but not in `h` are exactly the listed ones, everything else is unchanged -/
def Extends {B} (h h' : Heap B) (new : List Nat) : Prop :=
  (∀ a, a ∉ new → h'.mem a = h.mem a) ∧ (∀ a ∈ new, h.mem a = none ∧ h'.mem a ≠ none)

@[simp] theorem arr_length (n : Nat) (f : Nat → α) : (arr n f).length = n + 1 := by
  simp [arr]
theorem arr_get (n : Nat) (f : Nat → α) (i : Nat) (h : i ≤ n) : (arr n f)[i]? = some (f i) := by
  simp [arr, List.getElem?_map, List.getElem?_range (Nat.lt_succ_of_le h)]

/-! ## C03/C07 -/

/-- **C03 (rejection half), C07.** If one of the nine argument guards fires, NULL is returned,
INVALID_ARGUMENT is reported (in an empty slot) and the heap is untouched.  For any number type, so
in particular for IEEE doubles. -/
theorem profile_new_rejects (fit : Fit α) (a : ProfArgs α) (e : EArg) (h : Heap (Block α))
    (hr : (a.length <=. lit 0) = true ∨ (a.rad_ext_upstream <=. lit 0) = true ∨
      (a.rad_ext_downstream <=. lit 0) = true ∨ (a.rad_int_upstream <=. lit 0) = true ∨
      (a.rad_int_downstream <=. lit 0) = true ∨
      (a.rad_ext_upstream <=. a.rad_int_upstream) = true ∨
      (a.rad_ext_downstream <=. a.rad_int_downstream) = true ∨
      (a.focal_dist_upstream <=. lit 0) = true ∨ (a.focal_dist_downstream <=. lit 0) = true) :
    (profileNew fit a e).run h = some ((none, e.set .invalidArgument), h) := by
  have : profRejects a = true := by
    simp only [profRejects, Bool.or_eq_true, CNum.ge]
    tauto
  simp [profileNew, this]

/-- **C07.**  Whatever allocations fail and whatever the arguments, `polycap_profile_new` never
runs into undefined behaviour; if it returns NULL, no block is left behind or freed twice (memory is
exactly as before); if it returns an object, exactly four new blocks exist and nothing else changed;
the error slot is untouched in that case. -/
theorem profile_new_clean (fit : Fit α) (a : ProfArgs α) (e : EArg) (h : Heap (Block α)) (wf : h.WF) :
    ∃ p e' h', (profileNew fit a e).run h = some ((p, e'), h') ∧ h'.WF ∧
      ((p = none ∧ h'.mem = h.mem ∧ (e' = e.set .memory ∨ e' = e.set .invalidArgument)) ∨
       (∃ b, p = some b ∧ e' = e ∧ h.next = b ∧ Extends h h' [b, b+1, b+2, b+3])) := by
  have w0 := wf h.next (le_refl _)
  have w1 := wf (h.next+1) (by omega)
  have w2 := wf (h.next+2) (by omega)
  have w3 := wf (h.next+3) (by omega)
  have u : ∀ x, h.next ≤ x → h.mem x = none := wf
  by_cases hr : profRejects a = true
  · exact ⟨none, _, h, by simp [profileNew, hr], wf, Or.inl ⟨rfl, rfl, Or.inr rfl⟩⟩
  simp only [Bool.not_eq_true] at hr
  simp only [profileNew, hr, Bool.false_eq_true, if_false]
  cases o0 : h.orc h.next with
  | false =>
    refine ⟨none, e.set .memory, { h with next := h.next + 1 }, ?_, ?_, Or.inl ⟨rfl, rfl, Or.inl rfl⟩⟩
    · simp [run_bind, run_malloc, o0]
    · intro x hx; exact wf x (by simp at hx; omega)
  | true =>
  cases o1 : h.orc (h.next+1) with
  | false =>
    refine ⟨none, e.set .memory, { h with next := h.next + 2 }, ?_, ?_, Or.inl ⟨rfl, rfl, Or.inl rfl⟩⟩
    · simp [run_bind, run_malloc, run_free, o0, o1]
      funext x; grind [Heap.WF, upd]
    · intro x hx; exact wf x (by simp at hx; omega)
  | true =>
  cases o2 : h.orc (h.next+2) with
  | false =>
    refine ⟨none, e.set .memory, { h with next := h.next + 3 }, ?_, ?_, Or.inl ⟨rfl, rfl, Or.inl rfl⟩⟩
    · simp [run_bind, run_malloc, run_free, o0, o1, o2, upd, Nat.add_assoc]
      funext x; grind [Heap.WF, upd]
    · intro x hx; exact wf x (by simp at hx; omega)
  | true =>
  cases o3 : h.orc (h.next+3) with
  | false =>
    refine ⟨none, e.set .memory, { h with next := h.next + 4 }, ?_, ?_, Or.inl ⟨rfl, rfl, Or.inl rfl⟩⟩
    · simp [run_bind, run_malloc, run_free, o0, o1, o2, o3, upd, Nat.add_assoc]
      funext x; grind [Heap.WF, upd]
    · intro x hx; exact wf x (by simp at hx; omega)
  | true =>
  cases hp : profExt fit a with
  | none =>
    refine ⟨none, e.set .invalidArgument, { h with next := h.next + 4 }, ?_, ?_, Or.inl ⟨rfl, rfl, Or.inr rfl⟩⟩
    · simp [run_bind, run_malloc, run_free, o0, o1, o2, o3, upd, Nat.add_assoc]
      funext x; grind [Heap.WF, upd]
    · intro x hx; exact wf x (by simp at hx; omega)
  | some f =>
    refine ⟨some h.next, e, { h with next := h.next + 4, mem := upd (upd (upd (upd h.mem h.next (some (.profile profNmax (some (h.next+1)) (some (h.next+2)) (some (h.next+3))))) (h.next+1) (some (.doubles (arr profNmax (profZ a))))) (h.next+2) (some (.doubles (arr profNmax (profCap a))))) (h.next+3) (some (.doubles (arr profNmax f))) }, ?_, ?_, Or.inr ⟨h.next, rfl, rfl, rfl, ?_, ?_⟩⟩
    · simp [run_bind, run_malloc, run_load, run_store, storeArr, o0, o1, o2, o3, upd, Nat.add_assoc]
      funext x; grind [Heap.WF, upd]
    · intro x hx
      simp at hx
      simp only [upd]
      rw [if_neg (by omega), if_neg (by omega), if_neg (by omega), if_neg (by omega)]
      exact wf x (by omega)
    · intro x hx
      simp at hx
      obtain ⟨x0, x1, x2, x3⟩ := hx
      simp [upd, x0, x1, x2, x3]
    · intro x hx
      simp at hx
      rcases hx with rfl | rfl | rfl | rfl <;> simp [upd, w0, w1, w2, w3]

/-- Exact value of a successful call (helper). -/
theorem profile_new_run (fit : Fit α) (a : ProfArgs α) (e : EArg) (h : Heap (Block α))
    (ok : AllocOk h) (hr : profRejects a = false) {f : Nat → α} (hp : profExt fit a = some f) :
    ∃ h', (profileNew fit a e).run h = some ((some h.next, e), h') ∧
      readProfile h' (some h.next) =
        some (profNmax, arr profNmax (profZ a), arr profNmax (profCap a), arr profNmax f) := by
  have : ∃ h', (profileNew fit a e).run h = some ((some h.next, e), h') ∧
      h'.mem = upd (upd (upd (upd h.mem h.next (some (.profile profNmax (some (h.next+1)) (some (h.next+2)) (some (h.next+3))))) (h.next+1) (some (.doubles (arr profNmax (profZ a))))) (h.next+2) (some (.doubles (arr profNmax (profCap a))))) (h.next+3) (some (.doubles (arr profNmax f))) := by
    simp only [profileNew, hr, hp, Bool.false_eq_true, if_false]
    simp [run_bind, run_malloc, run_load, run_store, storeArr, ok _, upd, Nat.add_assoc]
    funext x; grind [upd]
  obtain ⟨h', r, hm⟩ := this
  refine ⟨h', r, ?_⟩
  simp [readProfile, hm, upd]

/-- **C03 (acceptance half).**  If none of the nine guards fires and the type is one of the three
documented ones, then (memory permitting) a profile object with 1000 points is returned and the error
slot is untouched.  For any number type. -/
theorem profile_new_accepts (fit : Fit α) (a : ProfArgs α) (e : EArg) (h : Heap (Block α))
    (ok : AllocOk h)
    (hr : (a.length <=. lit 0) = false ∧ (a.rad_ext_upstream <=. lit 0) = false ∧
      (a.rad_ext_downstream <=. lit 0) = false ∧ (a.rad_int_upstream <=. lit 0) = false ∧
      (a.rad_int_downstream <=. lit 0) = false ∧
      (a.rad_ext_upstream <=. a.rad_int_upstream) = false ∧
      (a.rad_ext_downstream <=. a.rad_int_downstream) = false ∧
      (a.focal_dist_upstream <=. lit 0) = false ∧ (a.focal_dist_downstream <=. lit 0) = false)
    (ht : a.type = 0 ∨ a.type = 1 ∨ a.type = 2) :
    ∃ b h' zs cs es, (profileNew fit a e).run h = some ((some b, e), h') ∧
      readProfile h' (some b) = some (999, zs, cs, es) ∧
      zs.length = 1000 ∧ cs.length = 1000 ∧ es.length = 1000 := by
  have hr' : profRejects a = false := by
    simp only [profRejects, Bool.or_eq_false_iff, CNum.ge]; tauto
  obtain ⟨f, hp⟩ : ∃ f, profExt fit a = some f := by
    rcases ht with h1 | h1 | h1 <;> simp [profExt, h1]
  obtain ⟨h', r, rd⟩ := profile_new_run fit a e h ok hr' hp
  exact ⟨_, h', _, _, _, r, rd, by simp [profNmax], by simp [profNmax], by simp [profNmax]⟩

/-- **C03 (unknown type).**  Any other type value is rejected with INVALID_ARGUMENT. -/
theorem profile_new_unknown_type (fit : Fit α) (a : ProfArgs α) (e : EArg) (h : Heap (Block α))
    (wf : h.WF) (ok : AllocOk h) (ht : ¬ (a.type = 0 ∨ a.type = 1 ∨ a.type = 2)) :
    ∃ h', (profileNew fit a e).run h = some ((none, e.set .invalidArgument), h') ∧ h'.mem = h.mem := by
  push Not at ht
  have hp : profExt fit a = none := by simp [profExt, ht]
  by_cases hr : profRejects a = true
  · exact ⟨h, by simp [profileNew, hr], rfl⟩
  simp only [Bool.not_eq_true] at hr
  refine ⟨{ h with next := h.next + 4 }, ?_, rfl⟩
  simp only [profileNew, hr, hp, Bool.false_eq_true, if_false]
  simp [run_bind, run_malloc, run_free, ok _, upd, Nat.add_assoc]
  funext x; grind [Heap.WF, upd]

/-- The documented argument domain (include/polycap-profile.h, polycap_profile_new). -/
structure ProfDomain (a : ProfArgs ℝ) : Prop where
  len : 0 < a.length
  iu : 0 < a.rad_int_upstream
  id : 0 < a.rad_int_downstream
  eu : a.rad_int_upstream < a.rad_ext_upstream
  ed : a.rad_int_downstream < a.rad_ext_downstream
  fu : 0 < a.focal_dist_upstream
  fd : 0 < a.focal_dist_downstream
  ty : a.type = 0 ∨ a.type = 1 ∨ a.type = 2

theorem profRejects_real (a : ProfArgs ℝ) : profRejects a = false ↔
    0 < a.length ∧ 0 < a.rad_int_upstream ∧ 0 < a.rad_int_downstream ∧
    a.rad_int_upstream < a.rad_ext_upstream ∧ a.rad_int_downstream < a.rad_ext_downstream ∧
    0 < a.focal_dist_upstream ∧ 0 < a.focal_dist_downstream := by
  simp only [profRejects, CNum.ge, real_le, real_lit, Bool.or_eq_false_iff, decide_eq_false_iff_not,
    not_le, Rat.cast_zero]
  constructor
  · rintro ⟨⟨⟨⟨⟨⟨⟨⟨h1, h2⟩, h3⟩, h4⟩, h5⟩, h6⟩, h7⟩, h8⟩, h9⟩
    exact ⟨h1, h4, h5, h6, h7, h8, h9⟩
  · rintro ⟨h1, h4, h5, h6, h7, h8, h9⟩
    exact ⟨⟨⟨⟨⟨⟨⟨⟨h1, h4.trans h6⟩, h5.trans h7⟩, h4⟩, h5⟩, h6⟩, h7⟩, h8⟩, h9⟩

/-- **C03.**  On finite arguments: an object is returned exactly on the documented domain; outside it
the result is NULL with INVALID_ARGUMENT. -/
theorem profile_new_domain (fit : Fit ℝ) (a : ProfArgs ℝ) (e : EArg) (h : Heap (Block ℝ)) (wf : h.WF)
    (ok : AllocOk h) :
    (ProfDomain a → ∃ b h', (profileNew fit a e).run h = some ((some b, e), h')) ∧
    (¬ ProfDomain a → ∃ h', (profileNew fit a e).run h = some ((none, e.set .invalidArgument), h') ∧
      h'.mem = h.mem) := by
  constructor
  · intro d
    have hr := (profRejects_real a).mpr ⟨d.len, d.iu, d.id, d.eu, d.ed, d.fu, d.fd⟩
    obtain ⟨f, hp⟩ : ∃ f, profExt fit a = some f := by
      rcases d.ty with h1 | h1 | h1 <;> simp [profExt, h1]
    obtain ⟨h', r, _⟩ := profile_new_run fit a e h ok hr hp
    exact ⟨_, h', r⟩
  · intro nd
    by_cases ht : a.type = 0 ∨ a.type = 1 ∨ a.type = 2
    · have hr : profRejects a = true := by
        by_contra hc
        simp only [Bool.not_eq_true] at hc
        obtain ⟨h1, h2, h3, h4, h5, h6, h7⟩ := (profRejects_real a).mp hc
        exact nd ⟨h1, h2, h3, h4, h5, h6, h7, ht⟩
      exact ⟨h, by simp [profileNew, hr], rfl⟩
    · exact profile_new_unknown_type fit a e h wf ok ht

/-- Finding (C03): NaN passes every guard: with *all seven* numbers NaN a profile object is returned
and no error is reported. -/
theorem profile_new_accepts_nan (fit : Fit XR) (e : EArg) (h : Heap (Block XR)) (ok : AllocOk h) :
    ∃ b h', (profileNew fit ⟨0, .nan, .nan, .nan, .nan, .nan, .nan, .nan⟩ e).run h
      = some ((some b, e), h') := by
  obtain ⟨h', r, _⟩ := profile_new_run fit ⟨0, .nan, .nan, .nan, .nan, .nan, .nan, .nan⟩ e h ok
    (by simp [profRejects, CNum.ge]) (f := _) rfl
  exact ⟨_, h', r⟩

/-- **C06.**  For every accepted call the object read back has the z grid and capillary radii given
by the same two formulas whatever the type and focal distances: `z[i] = i·length/999` and
`cap[i]` the linear interpolation of the two internal radii. -/
theorem profile_z_cap_independent_of_type (fit : Fit ℝ) (a : ProfArgs ℝ) (e : EArg)
    (h : Heap (Block ℝ)) (ok : AllocOk h) (d : ProfDomain a) :
    ∃ b h' zs cs es, (profileNew fit a e).run h = some ((some b, e), h') ∧
      readProfile h' (some b) = some (999, zs, cs, es) ∧
      (∀ i : ℕ, i ≤ 999 → zs[i]? = some (a.length * (i / 999))) ∧
      (∀ i : ℕ, i ≤ 999 → cs[i]? = some (a.rad_int_upstream +
        (a.rad_int_downstream - a.rad_int_upstream) * (i / 999))) := by
  have hr := (profRejects_real a).mpr ⟨d.len, d.iu, d.id, d.eu, d.ed, d.fu, d.fd⟩
  obtain ⟨f, hp⟩ : ∃ f, profExt fit a = some f := by
    rcases d.ty with h1 | h1 | h1 <;> simp [profExt, h1]
  obtain ⟨h', r, rd⟩ := profile_new_run fit a e h ok hr hp
  have hl := d.len.ne'
  refine ⟨_, h', _, _, _, r, rd, ?_, ?_⟩
  · intro i hi
    rw [arr_get _ _ _ (by simpa [profNmax] using hi)]
    simp [profZ, profNmax]; ring
  · intro i hi
    rw [arr_get _ _ _ (by simpa [profNmax] using hi)]
    simp [profCap, profZ, profNmax]; field_simp; ring

example : ProfDomain ⟨2, 9, 0.2065, 0.0585, 0.00035, 0.000099, 1000, 0.5⟩ := by
  constructor <;> norm_num

/-! ## C08, C47: arrays round trip, getters, free -/

/-- an array of the caller -/
def UserArr (h : Heap (Block α)) (p : Ptr) (xs : List α) : Prop :=
  ∃ a, p = some a ∧ h.mem a = some (.doubles xs)

/-- **C08 (argument checks).** NULL arrays or fewer than two intervals are refused, nothing is
allocated. -/
theorem new_from_arrays_rejects (nid : Int) (ext cap z : Ptr) (e : EArg) (h : Heap (Block α))
    (hr : ext = none ∨ cap = none ∨ z = none ∨ nid ≤ 1) :
    (profileNewFromArrays nid ext cap z e).run h = some ((none, e.set .invalidArgument), h) := by
  unfold profileNewFromArrays
  split
  · rfl
  split
  · rfl
  split
  · rfl
  split
  · rfl
  · tauto

/-- **C08.**  Round trip: arrays of at least `nid+1` elements go in, and the object read back has
`nid` intervals and element-wise the same first `nid+1` values; the caller's blocks are untouched and
not part of the object (four fresh blocks). -/
theorem new_from_arrays_roundtrip (nid : Nat) (hn : 2 ≤ nid) (ext cap z : Ptr) (es cs zs : List α)
    (e : EArg) (h : Heap (Block α)) (wf : h.WF) (ok : AllocOk h)
    (he : UserArr h ext es) (hc : UserArr h cap cs) (hz : UserArr h z zs)
    (le : nid + 1 ≤ es.length) (lc : nid + 1 ≤ cs.length) (lz : nid + 1 ≤ zs.length) :
    ∃ b h', (profileNewFromArrays nid ext cap z e).run h = some ((some b, e), h') ∧
      readProfile h' (some b) = some (nid, zs.take (nid+1), cs.take (nid+1), es.take (nid+1)) ∧
      Extends h h' [b, b+1, b+2, b+3] ∧ h'.WF ∧ h'.orc = h.orc := by
  obtain ⟨ae, rfl, me⟩ := he
  obtain ⟨ac, rfl, mc⟩ := hc
  obtain ⟨az, rfl, mz⟩ := hz
  have e1 : ae < h.next := by by_contra hh; rw [wf _ (by omega)] at me; cases me
  have c1 : ac < h.next := by by_contra hh; rw [wf _ (by omega)] at mc; cases mc
  have z1 : az < h.next := by by_contra hh; rw [wf _ (by omega)] at mz; cases mz
  have hnid : ¬ ((nid : Int) ≤ 1) := by omega
  have w0 := wf h.next (le_refl _)
  have w1 := wf (h.next+1) (by omega)
  have w2 := wf (h.next+2) (by omega)
  have w3 := wf (h.next+3) (by omega)
  refine ⟨h.next, { h with next := h.next + 4, mem := upd (upd (upd (upd h.mem h.next (some (.profile nid (some (h.next+3)) (some (h.next+2)) (some (h.next+1))))) (h.next+1) (some (.doubles (es.take (nid+1))))) (h.next+2) (some (.doubles (cs.take (nid+1))))) (h.next+3) (some (.doubles (zs.take (nid+1)))) }, ?_, ?_, ⟨?_, ?_⟩, ?_, rfl⟩
  · have x : ∀ k, ae ≠ h.next + k := by intro k; omega
    have y : ∀ k, ac ≠ h.next + k := by intro k; omega
    have w : ∀ k, az ≠ h.next + k := by intro k; omega
    have x0 : ae ≠ h.next := by omega
    have y0 : ac ≠ h.next := by omega
    have z0 : az ≠ h.next := by omega
    simp [profileNewFromArrays, hnid, run_bind, run_malloc, run_load, run_store, storeArr, loadArr,
      ok _, upd, Nat.add_assoc, x, y, w, x0, y0, z0, me, mc, mz, Nat.lt_of_succ_le le, Nat.lt_of_succ_le lc, Nat.lt_of_succ_le lz]
    funext a; grind [upd]
  · simp [readProfile, upd]
  · intro x hx
    simp at hx
    obtain ⟨x0, x1, x2, x3⟩ := hx
    simp [upd, x0, x1, x2, x3]
  · intro x hx
    simp at hx
    rcases hx with rfl | rfl | rfl | rfl <;> simp [upd, w0, w1, w2, w3]
  · intro x hx
    simp at hx
    simp only [upd]
    rw [if_neg (by omega), if_neg (by omega), if_neg (by omega), if_neg (by omega)]
    exact wf x (by omega)

def fieldOf (fld : ProfField) (zs cs es : List α) : List α :=
  match fld with | .ext => es | .cap => cs | .z => zs

/-- **C08.**  The getters return the stored data: on a readable profile with full arrays,
`get_ext`/`get_cap`/`get_z` return true, the interval count, and a freshly allocated array holding
exactly the stored one; all other memory (in particular the profile) is unchanged. -/
theorem profile_get_correct (fld : ProfField) (h : Heap (Block α)) (wf : h.WF) (ok : AllocOk h)
    (p : Ptr) (n : Nat) (zs cs es : List α) (hp : readProfile h p = some (n, zs, cs, es))
    (lz : zs.length = n + 1) (lc : cs.length = n + 1) (le : es.length = n + 1) :
    ∃ b h', (profileGet fld p false).run h = some ((true, n, some b), h') ∧
      h'.mem b = some (.doubles (fieldOf fld zs cs es)) ∧ Extends h h' [b] ∧ h'.WF ∧
      h'.orc = h.orc := by
  cases p with
  | none => simp [readProfile] at hp
  | some a =>
    simp only [readProfile] at hp
    split at hp <;> try contradiction
    rename_i n' z c e hm
    split at hp <;> try contradiction
    rename_i zs' cs' es' hz hc he
    simp at hp
    obtain ⟨rfl, rfl, rfl, rfl⟩ := hp
    have w0 := wf h.next (le_refl _)
    have z1 : z ≠ h.next := by rintro rfl; rw [w0] at hz; cases hz
    have c1 : c ≠ h.next := by rintro rfl; rw [w0] at hc; cases hc
    have e1 : e ≠ h.next := by rintro rfl; rw [w0] at he; cases he
    refine ⟨h.next, { h with next := h.next + 1, mem := upd h.mem h.next (some (.doubles (fieldOf fld zs' cs' es'))) }, ?_, by simp, ⟨?_, ?_⟩, ?_, rfl⟩
    · cases fld <;> simp [profileGet, loadProfile, run_bind, run_load, hm, run_malloc, ok _, loadArr,
        storeArr, run_store, upd, z1, c1, e1, hz, hc, he, lz, lc, le, fieldOf] <;>
        (rw [List.take_of_length_le (by omega)]; funext x; grind [upd])
    · intro x hx; simp at hx; simp [upd, hx]
    · intro x hx; simp at hx; subst hx; simp [w0]
    · intro x hx; simp at hx; show upd _ _ _ x = none; rw [upd_other _ _ (by omega)]; exact wf x (by omega)

/-- **C08.** A NULL profile or NULL `nid` makes the getters return false (they do not report an
error, see DESIGN). -/
theorem profile_get_null (fld : ProfField) (h : Heap (Block α)) (p : Ptr) :
    (profileGet fld none true).run h = some ((false, 0, none), h) ∧
    (profileGet fld none false).run h = some ((false, 0, none), h) ∧
    (profileGet fld p true).run h = some ((false, 0, none), h) := by
  refine ⟨rfl, rfl, ?_⟩
  cases p <;> rfl

/-- **C47 (profile).**  Freeing a readable profile whose four blocks are distinct releases exactly
these four blocks; NULL is accepted. -/
theorem profile_free_correct (h : Heap (Block α)) (a n z c e : Nat) (zs cs es : List α)
    (hm : h.mem a = some (.profile n (some z) (some c) (some e)))
    (hz : h.mem z = some (.doubles zs)) (hc : h.mem c = some (.doubles cs))
    (he : h.mem e = some (.doubles es)) (d1 : z ≠ c) (d2 : z ≠ e) (d3 : c ≠ e) :
    ∃ h', (profileFree (some a)).run h = some ((), h') ∧
      (∀ x, h'.mem x = if x ∈ [a, z, c, e] then none else h.mem x) := by
  have a1 : a ≠ z := by rintro rfl; rw [hm] at hz; cases hz
  have a2 : a ≠ c := by rintro rfl; rw [hm] at hc; cases hc
  have a3 : a ≠ e := by rintro rfl; rw [hm] at he; cases he
  refine ⟨{ h with mem := upd (upd (upd (upd h.mem z none) c none) e none) a none }, ?_, ?_⟩
  · simp [profileFree, loadProfile, run_bind, run_load, hm, run_free, hz, upd, Ne.symm d1, hc,
      Ne.symm d2, Ne.symm d3, he, a1, a2, a3]
  · intro x
    simp only [upd, List.mem_cons, List.not_mem_nil, or_false]
    by_cases h1 : x = a <;> by_cases h2 : x = e <;> by_cases h3 : x = c <;> by_cases h4 : x = z <;> simp [h1, h2, h3, h4]

theorem profile_free_null (h : Heap (Block α)) : (profileFree none).run h = some ((), h) := rfl

/-- **C47/C07.** A profile that was just constructed can be freed, and then the memory is exactly as
before the construction. -/
theorem profile_new_free_identity (fit : Fit α) (a : ProfArgs α) (e e' : EArg)
    (h h' : Heap (Block α)) (b : Nat) (wf : h.WF)
    (r : (profileNew fit a e).run h = some ((some b, e'), h')) :
    ∃ h'', (profileFree (some b)).run h' = some ((), h'') ∧ h''.mem = h.mem := by
  have w0 := wf h.next (le_refl _)
  have w1 := wf (h.next+1) (by omega)
  have w2 := wf (h.next+2) (by omega)
  have w3 := wf (h.next+3) (by omega)
  by_cases hr : profRejects a = true
  · simp [profileNew, hr] at r
  simp only [Bool.not_eq_true] at hr
  simp only [profileNew, hr, Bool.false_eq_true, if_false] at r
  cases o0 : h.orc h.next with
  | false => simp [run_bind, run_malloc, o0] at r
  | true =>
  cases o1 : h.orc (h.next+1) with
  | false => simp [run_bind, run_malloc, run_free, o0, o1] at r
  | true =>
  cases o2 : h.orc (h.next+2) with
  | false => simp [run_bind, run_malloc, run_free, o0, o1, o2, upd, Nat.add_assoc] at r
  | true =>
  cases o3 : h.orc (h.next+3) with
  | false => simp [run_bind, run_malloc, run_free, o0, o1, o2, o3, upd, Nat.add_assoc] at r
  | true =>
  cases hp : profExt fit a with
  | none => simp [run_bind, run_malloc, run_free, o0, o1, o2, o3, upd, Nat.add_assoc, hp] at r
  | some f =>
    simp [run_bind, run_malloc, run_load, run_store, storeArr, o0, o1, o2, o3, upd, Nat.add_assoc, hp] at r
    obtain ⟨⟨rfl, _⟩, rfl⟩ := r
    refine ⟨{ h with next := h.next + 4 }, ?_, rfl⟩
    simp [profileFree, loadProfile, run_bind, run_load, run_free, upd]
    funext x; simp only [upd]; grind [Heap.WF]

/-- Finding (C07): in `polycap_profile_new_from_arrays` a failing allocation of one of the arrays is
reported but then written through: undefined behaviour. -/
theorem new_from_arrays_oom_ub (nid : Nat) (hn : 2 ≤ nid) (ext cap z : Nat) (e : EArg)
    (h : Heap (Block α)) (o0 : h.orc h.next = true) (o1 : h.orc (h.next + 1) = false) :
    (profileNewFromArrays nid (some ext) (some cap) (some z) e).run h = none := by
  have hnid : ¬ ((nid : Int) ≤ 1) := by omega
  simp only [profileNewFromArrays, reduceCtorEq, if_false, hnid]
  simp only [run_bind, run_malloc, o0, if_true, reduceCtorEq, if_false, o1, Bool.false_eq_true]
  split
  · rename_i heq; split at heq <;> cases heq
  · rename_i heq1; split
    · rfl
    · rename_i heq2; split
      · rfl
      · simp [storeArr, run_bind]

example : ∃ (h : Heap (Block ℝ)) (p : Ptr), h.WF ∧ AllocOk h ∧ UserArr h p [1, 2, 3] ∧
    2 + 1 ≤ [(1:ℝ), 2, 3].length :=
  ⟨{ mem := upd (fun _ => none) 0 (some (.doubles [1, 2, 3])), next := 1, orc := fun _ => true }, some 0,
   fun a ha => by simp at ha; simp [upd, Nat.ne_of_gt ha], fun _ => rfl, ⟨0, rfl, by simp⟩, by simp⟩

end Polycap
