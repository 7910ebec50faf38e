import Verif.H5Tables
import Mathlib.Data.List.Nodup
import Mathlib.Tactic.Common
import Mathlib.Tactic.Linarith

/-!
# C40: the code reported for an HDF5 failure
-/
namespace Polycap.H5

theorem append_ok {ε : Type} (t : Tab ε) (x : ε) (h0 : 0 < t.cap) (h : t.items.length ≤ t.cap) :
    ∃ cap, t.append x = .ok ⟨t.items ++ [x], cap⟩ ∧ 0 < cap ∧ (t.items ++ [x]).length ≤ cap := by
  unfold Tab.append
  by_cases hc : t.items.length = t.cap
  · exact ⟨t.cap * 2, by simp only [hc, if_true]; rw [if_pos (by omega)], by omega, by simp; omega⟩
  · exact ⟨t.cap, by simp only [hc, if_false]; rw [if_pos (by omega)], h0, by simp; omega⟩

theorem appendAll_ok {ε : Type} : ∀ (xs : List ε) (t : Tab ε), 0 < t.cap → t.items.length ≤ t.cap →
    ∃ cap, t.appendAll xs = .ok ⟨t.items ++ xs, cap⟩ ∧ 0 < cap ∧ (t.items ++ xs).length ≤ cap
  | [], t, h0, h => ⟨t.cap, by simp [Tab.appendAll], h0, by simpa using h⟩
  | x :: xs, t, h0, h => by
    obtain ⟨c, hc, c0, c1⟩ := append_ok t x h0 h
    obtain ⟨d, hd, d0, d1⟩ := appendAll_ok xs ⟨t.items ++ [x], c⟩ c0 c1
    exact ⟨d, by simp [Tab.appendAll, hc, hd], d0, by simpa using d1⟩

/-- the tables once built -/
structure Built (I : Ids) (T : Tables) : Prop where
  minor : T.minor.items = (minorList ++ [minorLate I]).map (minorNum I)
  exact : T.exact.items = (exactList I).map (exactNum I)

theorem init_first (I : Ids) : ∃ T, tablesInit I Tables.initial = .ok T ∧ Built I T := by
  obtain ⟨c, hc, c0, c1⟩ := appendAll_ok (minorList.map (minorNum I)) ⟨[], 1⟩ (by simp) (by simp)
  obtain ⟨d, hd, d0, d1⟩ := appendAll_ok ((exactList I).map (exactNum I)) ⟨[], 1⟩ (by simp) (by simp)
  simp only [List.nil_append] at hc hd c1
  obtain ⟨f, hf, -, -⟩ := append_ok ⟨minorList.map (minorNum I), c⟩ (minorNum I (minorLate I)) c0 c1
  refine ⟨⟨⟨minorList.map (minorNum I) ++ [minorNum I (minorLate I)], f⟩, ⟨(exactList I).map (exactNum I), d⟩⟩, ?_, ?_, rfl⟩
  · simp only [tablesInit, Tables.initial, List.length_nil, if_true, hc, Out.bind_ok, hd, hf]
  · simp

/-- **C40**: building the tables never writes past their capacity, and building them again changes nothing — for any number of
initialisations. -/
theorem tables_init_safe (I : Ids) : ∃ T, Built I T ∧ tablesInit I T = .ok T ∧ ∀ k, initTimes I (k + 1) = .ok T := by
  obtain ⟨T, hT, hB⟩ := init_first I
  have again : tablesInit I T = .ok T := by
    unfold tablesInit
    rw [if_neg (by rw [hB.minor]; simp [minorList]), Out.bind_ok]
    exact if_neg (by rw [hB.exact]; simp [exactList])
  refine ⟨T, hB, again, fun k => ?_⟩
  induction k with
  | zero => simpa [initTimes] using hT
  | succ k ih => rw [initTimes, ih, Out.bind_ok, again]

/-! ## Lookup -/

theorem findCode_mem {κ : Type} [DecidableEq κ] {l : List (κ × Code)} (hn : (l.map Prod.fst).Nodup) {k : κ} {c : Code} (h : (k, c) ∈ l) :
    findCode k l = some c := by
  induction l with
  | nil => cases h
  | cons x xs ih =>
    simp only [List.map_cons, List.nodup_cons] at hn
    unfold findCode
    rcases List.mem_cons.mp h with rfl | h
    · simp
    · rw [if_neg, ih hn.2 h]
      intro he
      exact hn.1 (by rw [he]; exact List.mem_map_of_mem (f := Prod.fst) h)

theorem findCode_none {κ : Type} [DecidableEq κ] {l : List (κ × Code)} {k : κ} (h : k ∉ l.map Prod.fst) : findCode k l = none := by
  induction l with
  | nil => rfl
  | cons x xs ih =>
    simp only [List.map_cons, List.mem_cons, not_or] at h
    unfold findCode
    rw [if_neg (fun e => h.1 e.symm), ih h.2]

theorem minor_nodup (I : Ids) : ((minorList ++ [minorLate I]).map Prod.fst).Nodup := by
  unfold minorLate
  cases I.le113 <;> simp <;> decide

theorem exact_nodup (I : Ids) : ((exactList I).map Prod.fst).Nodup := by
  unfold exactList
  cases I.le113 <;> cases I.ge112 <;> simp

/-- **Specification**: meaning of a minor number on its own. -/
def minorSpec (I : Ids) : Mnr → Option Code
  | .SEEKERROR | .READERROR | .WRITEERROR | .CLOSEERROR | .OVERFLOW | .FCNTL => some .io
  | .FILEEXISTS | .FILEOPEN | .CANTCREATE | .CANTOPENFILE | .CANTCLOSEFILE | .NOTHDF5 | .TRUNCATED | .MOUNT => some .io
  | .NOFILTER | .CALLBACK | .CANAPPLY | .SETLOCAL | .NOENCODER => some .io
  | .BADFILE | .BADGROUP | .BADSELECT | .UNINITIALIZED | .NOTFOUND | .CANTINSERT | .BADRANGE | .BADVALUE => some .invalidArgument
  | .EXISTS | .ALREADYEXISTS | .CANTDELETE | .CANTOPENOBJ | .CANTMOVE => some .invalidArgument
  | .UNSUPPORTED => some .unsupported
  | .BADTYPE | .CANTCONVERT => some .type
  | .CANTINIT | .SYSERRSTR => none
  | .BADATOM => if I.le113 then some .invalidArgument else none
  | .BADID => if I.le113 then none else some .invalidArgument

/-- **Specification**: pairs with a meaning of their own. -/
def exactSpec (I : Ids) : Maj → Mnr → Option Code
  | .CACHE, .BADVALUE => some .io
  | .RESOURCE, .CANTINIT => some .io
  | .INTERNAL, .SYSERRSTR => some .io
  | .DATATYPE, .CANTINIT => some .type
  | .ARGS, .CANTINIT => some .type
  | .ARGS, .BADTYPE => some .invalidArgument
  | .DATASET, .CANTINIT => some .invalidArgument
  | .REFERENCE, .CANTINIT => some .invalidArgument
  | .DATASET, .CANTCREATE => if I.ge112 then some .invalidArgument else none
  | .SYM, .CANTINIT => if I.le113 then some .invalidArgument else none
  | .SYM, .CANTCREATE => if I.le113 then none else some .invalidArgument
  | _, _ => none

theorem minorSpec_iff (I : Ids) (m : Mnr) (c : Code) : (m, c) ∈ minorList ++ [minorLate I] ↔ minorSpec I m = some c := by
  constructor
  · intro h
    have : ∀ x ∈ minorList ++ [minorLate I], minorSpec I x.1 = some x.2 := by
      unfold minorSpec minorList minorLate
      cases I.le113 <;> simp
    exact this _ h
  · unfold minorSpec minorLate
    cases I.le113 <;> cases m <;> simp [minorList] <;> rintro rfl <;> rfl

theorem exactSpec_iff (I : Ids) (M : Maj) (m : Mnr) (c : Code) : ((M, m), c) ∈ exactList I ↔ exactSpec I M m = some c := by
  constructor
  · intro h
    have : ∀ x ∈ exactList I, exactSpec I x.1.1 x.1.2 = some x.2 := by
      unfold exactSpec exactList
      cases I.le113 <;> cases I.ge112 <;> simp
    exact this _ h
  · unfold exactSpec exactList
    cases I.le113 <;> cases I.ge112 <;> split <;> simp <;> rintro rfl <;> rfl

/-- What the caller of a failed operation is told: the meaning of the (major, minor) pair if it has one of its own, else the
meaning of the minor number, else RUNTIME. -/
inductive CodeFor (I : Ids) : Int → Int → Code → Prop
  | exact {M m c} (h : exactSpec I M m = some c) : CodeFor I (I.maj M) (I.mnr m) c
  | minor {j m c} (h : minorSpec I m = some c) (hn : ∀ M, I.maj M = j → exactSpec I M m = none) : CodeFor I j (I.mnr m) c
  | other {j i} (h : ∀ m, I.mnr m = i → minorSpec I m = none)
      (hn : ∀ M m, I.maj M = j → I.mnr m = i → exactSpec I M m = none) : CodeFor I j i .runtime

/-- **C40**: the code reported for an HDF5 failure, for every record the error stack can hold and any number of initialisations.
`hM`, `hm`: HDF5's numbers are distinct. -/
theorem hdf5_code (I : Ids) (hM : Function.Injective I.maj) (hm : Function.Injective I.mnr) (T : Tables) (n : Nat)
    (hT : initTimes I (n + 1) = .ok T) (r b : ErrRec) (rs : List ErrRec) (hr : r.desc = true) (hb : b.desc = true)
    (hl : rs.getLast? = some r) (hh : rs.head? = some b) :
    ∃ c, CodeFor I r.maj r.mnr c ∧ ∀ d, setException T ⟨rs, true, true⟩ (some d) = .ok (EArg.set (some d) c) := by
  obtain ⟨T', hB, -, h⟩ := tables_init_safe I
  rw [h n] at hT
  injection hT with hT
  subst hT
  have e1 : ∀ d, setException T' ⟨rs, true, true⟩ (some d) =
      .ok (EArg.set (some d) ((findCode (r.maj, r.mnr) T'.exact.items).getD ((findCode r.mnr T'.minor.items).getD .runtime))) := by
    intro d
    simp [setException, hl, hh, hr, hb]
  have ne : (T'.exact.items.map Prod.fst).Nodup := by
    rw [hB.exact, List.map_map, show Prod.fst ∘ exactNum I = (fun p : Maj × Mnr => (I.maj p.1, I.mnr p.2)) ∘ Prod.fst from rfl, ← List.map_map]
    refine (exact_nodup I).map ?_
    rintro ⟨a, a'⟩ ⟨c, c'⟩ h
    simp only [Prod.mk.injEq] at h ⊢
    exact ⟨hM h.1, hm h.2⟩
  have nm : (T'.minor.items.map Prod.fst).Nodup := by
    rw [hB.minor, List.map_map, show Prod.fst ∘ minorNum I = I.mnr ∘ Prod.fst from rfl, ← List.map_map]
    exact (minor_nodup I).map hm
  refine ⟨_, ?_, e1⟩
  by_cases hex : ∃ M m c, I.maj M = r.maj ∧ I.mnr m = r.mnr ∧ exactSpec I M m = some c
  · obtain ⟨M, m, c, h1, h2, h3⟩ := hex
    rw [findCode_mem ne (c := c)]
    · rw [← h1, ← h2]; exact .exact h3
    · rw [hB.exact, ← h1, ← h2]; exact List.mem_map_of_mem (f := exactNum I) ((exactSpec_iff I M m c).2 h3)
  · push Not at hex
    have hex' : ∀ M m, I.maj M = r.maj → I.mnr m = r.mnr → exactSpec I M m = none := fun M m h1 h2 =>
      Option.eq_none_iff_forall_ne_some.2 (fun c => hex M m c h1 h2)
    rw [findCode_none (k := (r.maj, r.mnr))]
    · by_cases hmi : ∃ m c, I.mnr m = r.mnr ∧ minorSpec I m = some c
      · obtain ⟨m, c, h2, h3⟩ := hmi
        rw [findCode_mem nm (c := c)]
        · rw [← h2]; exact .minor h3 (fun M hM => hex' M m hM h2)
        · rw [hB.minor, ← h2]; exact List.mem_map_of_mem (f := minorNum I) ((minorSpec_iff I m c).2 h3)
      · push Not at hmi
        rw [findCode_none]
        · exact .other (fun m h => Option.eq_none_iff_forall_ne_some.2 (fun c => hmi m c h)) hex'
        · rw [hB.minor]
          intro hk
          obtain ⟨x, hx, hxk⟩ := List.mem_map.mp hk
          obtain ⟨⟨m, c⟩, hy, rfl⟩ := List.mem_map.mp hx
          exact hmi m c hxk ((minorSpec_iff I m c).1 hy)
    · rw [hB.exact]
      intro hk
      obtain ⟨x, hx, hxk⟩ := List.mem_map.mp hk
      obtain ⟨⟨⟨M, m⟩, c⟩, hy, rfl⟩ := List.mem_map.mp hx
      simp only [exactNum, Prod.mk.injEq] at hxk
      exact hex M m c hxk.1 hxk.2 ((exactSpec_iff I M m c).1 hy)

/-- the code of a failure is unique -/
theorem codeFor_unique (I : Ids) (hM : Function.Injective I.maj) (hm : Function.Injective I.mnr) {j i : Int} {c d : Code}
    (hc : CodeFor I j i c) (hd : CodeFor I j i d) : c = d := by
  generalize hj : j = j' at hd
  generalize hi : i = i' at hd
  cases hc with
  | exact h =>
    cases hd with
    | exact h' => obtain rfl := hM hj; obtain rfl := hm hi; exact Option.some.inj (h.symm.trans h')
    | minor h' hn => obtain rfl := hm hi; rw [hn _ hj] at h; cases h
    | other h' hn => rw [hn _ _ hj hi] at h; cases h
  | minor h hn =>
    cases hd with
    | exact h' => obtain rfl := hm hi; rw [hn _ hj.symm] at h'; cases h'
    | minor h' _ => obtain rfl := hm hi; exact Option.some.inj (h.symm.trans h')
    | other h' _ => rw [h' _ hi] at h; cases h
  | other h hn =>
    cases hd with
    | exact h' => rw [hn _ _ hj.symm hi.symm] at h'; cases h'
    | minor h' _ => rw [h _ hi.symm] at h'; cases h'
    | other _ _ => rfl

/-- Without an error argument nothing happens. -/
theorem hdf5_code_null (T : Tables) (s : Stack) : setException T s none = .ok none := rfl

/-- Finding: an empty HDF5 error stack makes `set_exception` read an uninitialised variable. -/
theorem hdf5_empty_stack_ub (T : Tables) (d : Option Code) : setException T ⟨[], true, true⟩ (some d) = .ub := rfl

/-- Whatever fails, an error is set, unless the stack is empty. -/
theorem setException_sets (T : Tables) (s : Stack) (h : s.recs ≠ []) (e : EArg) : ∃ c, setException T s e = .ok (e.set c) := by
  cases e with
  | none => exact ⟨.runtime, rfl⟩
  | some d =>
    have hr : s.recs.getLast? = some (s.recs.getLast h) := List.getLast?_eq_some_getLast h
    have hb : s.recs.head? = some (s.recs.head h) := List.head?_eq_some_head h
    unfold setException
    rw [hr, hb]
    cases s.walk1 <;> cases s.walk2 <;> cases h1 : (s.recs.getLast h).desc <;> cases h2 : (s.recs.head h).desc <;>
      simp only [h1, h2] <;> exact ⟨_, rfl⟩

/-- a wrong file permission: the exact entry; a failed write: the minor entry; something else: RUNTIME -/
example : CodeFor ⟨true, true, fun M => M.ctorIdx, fun m => m.ctorIdx⟩ (Maj.INTERNAL.ctorIdx) (Mnr.SYSERRSTR.ctorIdx) .io ∧
    CodeFor ⟨true, true, fun M => M.ctorIdx, fun m => m.ctorIdx⟩ 77 (Mnr.WRITEERROR.ctorIdx) .io ∧
    CodeFor ⟨true, true, fun M => M.ctorIdx, fun m => m.ctorIdx⟩ 77 88 .runtime := by
  refine ⟨.exact (M := .INTERNAL) (m := .SYSERRSTR) rfl, .minor (m := .WRITEERROR) rfl ?_, .other ?_ ?_⟩
  · intro M h; exfalso; revert h; cases M <;> decide
  · intro m h; exfalso; revert h; cases m <;> decide
  · intro M m h; exfalso; revert h; cases M <;> decide

end Polycap.H5
