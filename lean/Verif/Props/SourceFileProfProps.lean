import Verif.SourceFileProf
import Verif.Props.SourceFileMemUse
import Verif.Props.ProfileFileProps

/-!
# C96: reading a source whose profile is in files
-/
namespace Polycap
open CNum CM Mem FMem
set_option linter.unusedSectionVars false
set_option linter.unusedSimpArgs false
namespace PFile
variable {α : Type} [CNum α]

/-- what the three files say: the profile (elements for which there is no number: `junk`), or the kind of error -/
def tables (fs : String → Option (Content α)) (junk : α) (nm : String × String × String) : Except Code (Profile α) :=
  match fs nm.1 with
  | none => .error .io
  | some c =>
    let n := (c.count.getD 0).toNat
    if c.count.getD 0 ≤ 100 then .error .invalidArgument else
    match fs nm.2.1 with
    | none => .error .io
    | some c2 =>
      if c2.count.getD n ≠ n then .error .io else
      match fs nm.2.2 with
      | none => .error .io
      | some c3 =>
        if c3.count.getD n ≠ n then .error .io else
        let u : List (Option α) := (List.replicate (n + 1) junk).map some
        let r1 := readPairs c.words u u
        let z2 := readTriples c2.words ((filled junk r1.1).map some)
        let r3 := readPairs c3.words ((filled junk z2).map some) u
        .ok (listProfile n (filled junk r3.1) (filled junk r1.2) (filled junk r3.2))

/-- the value and the error variable after `polycap_profile_new_from_file` -/
def tablesE (fs : String → Option (Content α)) (junk : α) (nm : String × String × String) (e : EArg) : Option (Profile α) × EArg :=
  match tables fs junk nm with
  | .ok p => (some p, e)
  | .error c => (none, e.set c)

/-- every file starts with a number of points (not the largest `int`) -/
def Counted (fs : String → Option (Content α)) : Prop := ∀ name c, fs name = some c → ∃ n, c.count = some n ∧ n < 2147483647

theorem filled_length (junk : α) (xs : List (Option α)) : (filled junk xs).length = xs.length := by simp [filled]

theorem arr_getD_list (n : Nat) (xs : List α) (d : α) (h : xs.length = n + 1) : arr n (fun i => xs.getD i d) = xs := by
  apply List.ext_getElem
  · simp [arr, h]
  · intro i h1 h2
    simp [arr, List.getD_eq_getElem?_getD, h2]

/-- the blocks while the files are read: first `FILE` object closed -/
def built (b n : Nat) (zs cs es : List α) (ex : List (Option (Block α))) : List (Option (Block α)) :=
  [none, some (.profile n (some (b + 2)) (some (b + 3)) (some (b + 4))), some (.doubles zs), some (.doubles cs), some (.doubles es)] ++ ex

/-- a refusal: at most `FILE` objects are left; `code`: the error, if it is not for lack of memory -/
def Refused (m : Nat → Option (Block α)) (b : Nat) (o : Nat → Bool) (e : EArg) (code : Code → Prop) (x : Option ((Ptr × EArg) × Heap (Block α))) : Prop :=
  ∃ ex c, x = some ((none, e.set c), hp m b ex o) ∧ (∀ c ∈ ex, c = none ∨ c = some (.raw 0)) ∧ (code c ∨ ∃ n, o n = false)

theorem shapeM_hp (fs : String → Option (Content α)) (junk : α) (name : String) (n : Nat) (e : EArg) (m : Nat → Option (Block α)) (b : Nat) (o : Nat → Bool)
    (zs cs es : List α) (hz : zs.length = n + 1) (hc : cs.length = n + 1) (he : es.length = n + 1) :
    Refused m b o e (fun c => c = .io ∧ ∀ c3, fs name = some c3 → c3.count.getD n ≠ n)
        ((shapeM fs junk name (some (b + 1)) (some (b + 2)) (some (b + 4)) n e).run (hp m b (built b n zs cs es [none]) o)) ∨
    ∃ c3, fs name = some c3 ∧ c3.count.getD n = n ∧
      (shapeM fs junk name (some (b + 1)) (some (b + 2)) (some (b + 4)) n e).run (hp m b (built b n zs cs es [none]) o) =
        some ((some (b + 1), e), hp m b (built b n (filled junk (readPairs c3.words (zs.map some) (es.map some)).1) cs
          (filled junk (readPairs c3.words (zs.map some) (es.map some)).2) [none, none]) o) := by
  unfold shapeM built
  cases hf : fs name with
  | none =>
    left
    refine ⟨List.replicate 6 none, .io, ?_, by simp, .inl ⟨rfl, by simp⟩⟩
    simp [openM, hf, run_bind, profileFree, loadProfile, load_hp, free_hp, List.replicate]
  | some c3 =>
    cases o6 : o (b + 6) with
    | false =>
      left
      refine ⟨List.replicate 7 none, .io, ?_, by simp, .inr ⟨_, o6⟩⟩
      simp [openM, hf, run_bind, malloc_hp, o6, profileFree, loadProfile, load_hp, free_hp, List.replicate]
    | true =>
      by_cases hcnt : c3.count.getD n = n
      · right
        refine ⟨c3, rfl, hcnt, ?_⟩
        have hl := readPairs_length c3.words (zs.map some) (es.map some) (by simp [hz, he])
        have tz : zs.take (n + 1) = zs := List.take_of_length_le (by omega)
        have te : es.take (n + 1) = es := List.take_of_length_le (by omega)
        simp [openM, hf, run_bind, malloc_hp, o6, hcnt, Mem.loadArr, load_hp, free_hp, storeArr, store_hp, filled_length, hl.1, hl.2, hz, he, tz, te]
      · left
        refine ⟨List.replicate 6 none ++ [some (.raw 0)], .io, ?_, by simp, .inl ⟨rfl, ?_⟩⟩
        · simp [openM, hf, run_bind, malloc_hp, o6, hcnt, profileFree, loadProfile, load_hp, free_hp, List.replicate]
        · intro c h; cases h; exact hcnt

theorem axisM_hp (fs : String → Option (Content α)) (junk : α) (name shape : String) (n : Nat) (e : EArg) (m : Nat → Option (Block α)) (b : Nat)
    (o : Nat → Bool) (zs cs es : List α) (hz : zs.length = n + 1) (hc : cs.length = n + 1) (he : es.length = n + 1) :
    Refused m b o e (fun c => c = .io ∧ ((∀ c2, fs name = some c2 → c2.count.getD n ≠ n) ∨ ∀ c3, fs shape = some c3 → c3.count.getD n ≠ n))
        ((axisM fs junk name shape (some (b + 1)) (some (b + 2)) (some (b + 4)) n e).run (hp m b (built b n zs cs es []) o)) ∨
    ∃ c2 c3, fs name = some c2 ∧ c2.count.getD n = n ∧ fs shape = some c3 ∧ c3.count.getD n = n ∧
      (axisM fs junk name shape (some (b + 1)) (some (b + 2)) (some (b + 4)) n e).run (hp m b (built b n zs cs es []) o) =
        some ((some (b + 1), e), hp m b (built b n
          (filled junk (readPairs c3.words ((filled junk (readTriples c2.words (zs.map some))).map some) (es.map some)).1) cs
          (filled junk (readPairs c3.words ((filled junk (readTriples c2.words (zs.map some))).map some) (es.map some)).2) [none, none]) o) := by
  cases hf : fs name with
  | none =>
    left
    refine ⟨List.replicate 5 none, .io, ?_, by simp, .inl ⟨rfl, .inl (by simp)⟩⟩
    simp [axisM, built, openM, hf, run_bind, profileFree, loadProfile, load_hp, free_hp, List.replicate]
  | some c2 =>
    cases o5 : o (b + 5) with
    | false =>
      left
      refine ⟨List.replicate 6 none, .io, ?_, by simp, .inr ⟨_, o5⟩⟩
      simp [axisM, built, openM, hf, run_bind, malloc_hp, o5, profileFree, loadProfile, load_hp, free_hp, List.replicate]
    | true =>
      by_cases hcnt : c2.count.getD n = n
      · have tz : zs.take (n + 1) = zs := List.take_of_length_le (by omega)
        have hl := readTriples_length c2.words (zs.map some)
        have key : (axisM fs junk name shape (some (b + 1)) (some (b + 2)) (some (b + 4)) n e).run (hp m b (built b n zs cs es []) o) =
            (shapeM fs junk shape (some (b + 1)) (some (b + 2)) (some (b + 4)) n e).run
              (hp m b (built b n (filled junk (readTriples c2.words (zs.map some))) cs es [none]) o) := by
          simp [axisM, built, openM, hf, run_bind, malloc_hp, o5, hcnt, Mem.loadArr, load_hp, free_hp, storeArr, store_hp, filled_length, hl, hz, tz]
        rw [key]
        rcases shapeM_hp fs junk shape n e m b o (filled junk (readTriples c2.words (zs.map some))) cs es (by simp [filled_length, hl, hz]) hc he with
          ⟨ex, c, h1, h2, h3⟩ | ⟨c3, h1, h2, h3⟩
        · left
          refine ⟨ex, c, h1, h2, ?_⟩
          rcases h3 with ⟨h3, h4⟩ | h3
          · exact .inl ⟨h3, .inr h4⟩
          · exact .inr h3
        · exact .inr ⟨c2, c3, rfl, hcnt, h1, h2, h3⟩
      · left
        refine ⟨List.replicate 5 none ++ [some (.raw 0)], .io, ?_, by simp, .inl ⟨rfl, .inl ?_⟩⟩
        · simp [axisM, built, openM, hf, run_bind, malloc_hp, o5, hcnt, profileFree, loadProfile, load_hp, free_hp, List.replicate]
        · intro c h; cases h; exact hcnt

theorem pffM_hp (fs : String → Option (Content α)) (hfs : Counted fs) (junk : α) (nm : String × String × String) (e : EArg) (m : Nat → Option (Block α))
    (b : Nat) (o : Nat → Bool) :
    Refused m b o e (fun c => tables fs junk nm = .error c) ((pffM fs junk nm e).run (hp m b [] o)) ∨
    ∃ p, tables fs junk nm = .ok p ∧ (pffM fs junk nm e).run (hp m b [] o) = some ((some (b + 1), e), hp m b
      (built b p.nmax (arr p.nmax p.z) (arr p.nmax p.cap) (arr p.nmax p.ext) [none, none]) o) := by
  unfold pffM
  cases hf : fs nm.1 with
  | none =>
    left
    exact ⟨[], .io, by simp [openM, hf, run_bind], by simp, .inl (by simp [tables, hf])⟩
  | some c =>
    obtain ⟨n, hn, hmax⟩ := hfs _ _ hf
    cases o0 : o b with
    | false =>
      left
      exact ⟨[none], .io, by simp [openM, hf, run_bind, malloc_hp, o0], by simp, .inr ⟨_, o0⟩⟩
    | true =>
      by_cases hs : n ≤ 100
      · left
        exact ⟨[some (.raw 0)], .invalidArgument, by simp [openM, hf, run_bind, malloc_hp, o0, hn, hs], by simp, .inl (by simp [tables, hf, hn, hs])⟩
      obtain ⟨n, rfl⟩ : ∃ k : Nat, n = k := ⟨n.toNat, by omega⟩
      have hne : n ≠ 2147483647 := by omega
      cases o1 : o (b + 1) with
      | false =>
        left
        exact ⟨[some (.raw 0), none], .memory, by simp [openM, hf, run_bind, malloc_hp, o0, hn, hs, capM, o1], by simp, .inr ⟨_, o1⟩⟩
      | true =>
      cases o2 : o (b + 2) with
      | false =>
        left
        exact ⟨[some (.raw 0), none, none], .memory, by simp [openM, hf, run_bind, malloc_hp, o0, hn, hs, capM, o1, o2, hne, free_hp], by simp, .inr ⟨_, o2⟩⟩
      | true =>
      cases o3 : o (b + 3) with
      | false =>
        left
        exact ⟨[some (.raw 0), none, none, none], .memory, by simp [openM, hf, run_bind, malloc_hp, o0, hn, hs, capM, o1, o2, o3, hne, free_hp], by simp, .inr ⟨_, o3⟩⟩
      | true =>
      cases o4 : o (b + 4) with
      | false =>
        left
        exact ⟨[some (.raw 0), none, none, none, none], .memory, by simp [openM, hf, run_bind, malloc_hp, o0, hn, hs, capM, o1, o2, o3, o4, hne, free_hp], by simp, .inr ⟨_, o4⟩⟩
      | true =>
        have hl := readPairs_length c.words ((List.replicate (n + 1) junk).map some) ((List.replicate (n + 1) junk).map some) rfl
        generalize hr1 : readPairs c.words ((List.replicate (n + 1) junk).map some) ((List.replicate (n + 1) junk).map some) = r1 at hl
        have l1 : r1.1.length = n + 1 := by rw [hl.1]; simp
        have l2 : r1.2.length = n + 1 := by rw [hl.2]; simp
        have key : (pffM fs junk nm e).run (hp m b [] o) = (axisM fs junk nm.2.1 nm.2.2 (some (b + 1)) (some (b + 2)) (some (b + 4)) n e).run
            (hp m b (built b n (filled junk r1.1) (filled junk r1.2) (List.replicate (n + 1) junk) []) o) := by
          rw [List.map_replicate] at hr1
          simp [pffM, openM, hf, run_bind, malloc_hp, o0, hn, hs, capM, o1, o2, o3, o4, hne, free_hp, free_hp0, Mem.loadArr, load_hp, storeArr, store_hp,
            filled_length, hr1, l1, l2, built]
        unfold pffM at key
        rw [key]
        rcases axisM_hp fs junk nm.2.1 nm.2.2 n e m b o (filled junk r1.1) (filled junk r1.2) (List.replicate (n + 1) junk) (by simp [filled_length, l1])
          (by simp [filled_length, l2]) (by simp) with ⟨ex, cc, h1, h2, h3⟩ | ⟨c2, c3, f2, e2, f3, e3, h1⟩
        · left
          refine ⟨ex, cc, h1, h2, ?_⟩
          rcases h3 with ⟨rfl, h3⟩ | h3
          · left
            have hnn : ¬ (c.count.getD 0 ≤ 100) := by rw [hn]; exact hs
            have hnt : (c.count.getD 0).toNat = n := by rw [hn]; rfl
            simp only [tables, hf, hnn, if_false, hnt]
            cases g2 : fs nm.2.1 with
            | none => rfl
            | some c2 =>
              dsimp only
              split
              · rfl
              · next q2 =>
                cases g3 : fs nm.2.2 with
                | none => rfl
                | some c3 =>
                  dsimp only
                  split
                  · rfl
                  · next q3 =>
                    rcases h3 with h3 | h3
                    · exact absurd (not_not.mp q2) (h3 c2 g2)
                    · exact absurd (not_not.mp q3) (h3 c3 g3)
          · exact .inr h3
        · right
          have hnn : ¬ (c.count.getD 0 ≤ 100) := by rw [hn]; exact hs
          have hnt : (c.count.getD 0).toNat = n := by rw [hn]; rfl
          have ht : tables fs junk nm = .ok (listProfile n
              (filled junk (readPairs c3.words ((filled junk (readTriples c2.words ((filled junk r1.1).map some))).map some) ((List.replicate (n + 1) junk).map some)).1)
              (filled junk r1.2)
              (filled junk (readPairs c3.words ((filled junk (readTriples c2.words ((filled junk r1.1).map some))).map some) ((List.replicate (n + 1) junk).map some)).2)) := by
            simp only [tables, hf, hnn, if_false, hnt, f2, e2, f3, e3, not_true, ne_eq, hr1]
          refine ⟨_, ht, ?_⟩
          have hl3 := readPairs_length c3.words ((filled junk (readTriples c2.words ((filled junk r1.1).map some))).map some) ((List.replicate (n + 1) junk).map some)
            (by simp [filled_length, readTriples_length, l1])
          rw [h1]
          simp only [listProfile]
          rw [arr_getD_list _ _ _ (by rw [filled_length, hl3.1]; simp [filled_length, readTriples_length, l1]), arr_getD_list _ _ _ (by simp [filled_length, l2]),
            arr_getD_list _ _ _ (by rw [filled_length, hl3.2]; simp)]

/-- **The assumption of C96 about profile files holds of the reader of profile files**, whatever is in them (as long as they start with a number
of points). -/
theorem files_ok (trunc : α → Nat) (fit : Fit α) (names : List (Tok α) → List (Tok α)) (nm : List (Tok α) → String × String × String)
    (fs : String → Option (Content α)) (hfs : Counted fs) (junk : α) :
    FilesOk (filesEnv trunc fit names nm fs junk) (fun ts e => tablesE fs junk (nm ts) e) := by
  intro ts e m b o
  rcases pffM_hp fs hfs junk (nm ts) e m b o with ⟨ex, c, h1, h2, h3⟩ | ⟨p, h1, h2⟩
  · left
    refine ⟨ex, e.set c, h1, h2, set_reports e c, ?_⟩
    rcases h3 with h3 | h3
    · left; simp [tablesE, h3]
    · exact .inr h3
  · right
    exact ⟨p, by simp [tablesE, h1], h2⟩

/-! ## Complete tables -/

theorem filled_some (junk : α) (xs : List α) : filled junk (xs.map some) = xs := by simp [filled, Function.comp_def]

/-- **Complete files**: the profile holds the `z` and external radius columns of the shape file and the radius column of the single capillary
file, whatever was in memory. -/
theorem tables_complete (fs : String → Option (Content α)) (junk : α) (f1 f2 f3 : String) (n : Nat) (hn : 100 < n) {c1 c2 c3 : Content α}
    (h1 : fs f1 = some c1) (h2 : fs f2 = some c2) (h3 : fs f3 = some c3) {z1 r z2 z3 x : List α} {xy : List (α × α)} (p1 : IsPairFile c1 n z1 r)
    (p2 : IsTripleFile c2 n z2 xy) (p3 : IsPairFile c3 n z3 x) : tables fs junk (f1, f2, f3) = .ok (listProfile n z3 r x) := by
  obtain ⟨k1, l1, m1, w1, r1⟩ := p1
  obtain ⟨k2, l2, m2, w2, r2⟩ := p2
  obtain ⟨k3, l3, m3, w3, r3⟩ := p3
  have q1 : readPairs c1.words ((List.replicate (n + 1) junk).map some) ((List.replicate (n + 1) junk).map some) = (z1.map some, r.map some) := by
    rw [r1]; exact readPairs_table _ _ _ _ _ (by simp [l1]) (by simp [m1]) rfl
  have q2 : readTriples c2.words (z1.map some) = z2.map some := by
    rw [r2]; exact readTriples_table _ _ _ _ (by simp [l1, l2]) (by simp [l1, m2])
  have q3 : readPairs c3.words (z2.map some) ((List.replicate (n + 1) junk).map some) = (z3.map some, x.map some) := by
    rw [r3]; exact readPairs_table _ _ _ _ _ (by simp [l2, l3]) (by simp [m3]) (by simp [l2])
  have hi : ¬ ((n : Int) ≤ 100) := by omega
  simp only [tables, h1, h2, h3, k1, k2, k3, Option.getD_some, hi, if_false, Int.toNat_natCast, ne_eq, not_true, q1, filled_some, q2, q3]

/-- **C96, C50, C55 put together**: `polycap_source_new_from_file` on a description that names three complete profile files reads the profile in them. -/
theorem source_reads_tables (trunc : α → Nat) (fit : Fit α) (names : List (Tok α) → List (Tok α)) (nm : List (Tok α) → String × String × String)
    (fs : String → Option (Content α)) (junk : α) (type : Int) (ht : ¬ (type = 0 ∨ type = 1 ∨ type = 2)) (ts : List (Tok α)) (e : EArg) (f1 f2 f3 : String)
    (hnm : nm ts = (f1, f2, f3)) (n : Nat) (hn : 100 < n) {c1 c2 c3 : Content α}
    (h1 : fs f1 = some c1) (h2 : fs f2 = some c2) (h3 : fs f3 = some c3) {z1 r z2 z3 x : List α} {xy : List (α × α)} (p1 : IsPairFile c1 n z1 r)
    (p2 : IsTripleFile c2 n z2 xy) (p3 : IsPairFile c3 n z3 x) :
    scanProfile ((filesEnv trunc fit names nm fs junk).value (fun ts e => tablesE fs junk (nm ts) e)) type ts e =
      .ok (some (listProfile n z3 r x), e, names ts) := by
  simp only [scanProfile, if_neg ht, FileEnvM.value, filesEnv, tablesE, hnm, tables_complete fs junk f1 f2 f3 n hn h1 h2 h3 p1 p2 p3]

/-- **C96 with real profile files, accepted**: every source made reads back as the value reader says, nothing else is changed, and releasing it
restores memory - whatever the files hold and whichever allocations failed on the way. -/
theorem source_and_profile_files_accepted (trunc : α → Nat) (fit : Fit α) (names : List (Tok α) → List (Tok α)) (nm : List (Tok α) → String × String × String)
    (pfs : String → Option (Content α)) (hfs : Counted pfs) (junk : α) (filename : Option String) (fs : String → Option (List (Tok α)))
    (e e' : EArg) (h h' : Heap (Block α)) (wf : h.WF) (s : Nat)
    (r : (sourceFromFileM (filesEnv trunc fit names nm pfs junk) filename fs e).run h = some ((some s, e'), h')) :
    ∃ v, sourceFromFile ((filesEnv trunc fit names nm pfs junk).value (fun ts e => tablesE pfs junk (nm ts) e)) filename fs e = .ok (some v, e') ∧
      readSource h' (some s) = some (viewOf v) ∧
      (∀ x, h.mem x ≠ none → h'.mem x = h.mem x) ∧ ∃ h'', (sourceFree (some s)).run h' = some ((), h'') ∧ h''.mem = h.mem :=
  source_file_accepted _ _ (files_ok trunc fit names nm pfs hfs junk) filename fs e e' h h' wf s r

/-- …and refused: the error is reported, and what is left are blocks that hold nothing (`FILE` objects, names). -/
theorem source_and_profile_files_refused_partial (trunc : α → Nat) (fit : Fit α) (names : List (Tok α) → List (Tok α))
    (nm : List (Tok α) → String × String × String) (pfs : String → Option (Content α)) (hfs : Counted pfs) (junk : α) (filename : Option String)
    (fs : String → Option (List (Tok α))) (e e' : EArg) (h h' : Heap (Block α)) (wf : h.WF)
    (r : (sourceFromFileM (filesEnv trunc fit names nm pfs junk) filename fs e).run h = some ((none, e'), h')) :
    (e = some none → e' ≠ some none) ∧ ∀ x, h'.mem x = h.mem x ∨ h.mem x = none ∧ h'.mem x = some (.raw 0) :=
  have q := source_file_refused_partial _ _ (files_ok trunc fit names nm pfs hfs junk) filename fs e e' h h' wf r
  ⟨q.1, q.2.1⟩

/-! ## The hypotheses can be met -/

/-- three consistent files of 102 points and one that is too short -/
noncomputable def exTables : String → Option (Content ℝ) := fun name =>
  if name = "cap" then some ⟨some 101, pairWords ((List.range 102).map (fun (i : Nat) => (i : ℝ))) (List.replicate 102 (1/10))⟩
  else if name = "axs" then some ⟨some 101, tripleWords ((List.range 102).map (fun (i : Nat) => (i : ℝ))) (List.replicate 102 (0, 0))⟩
  else if name = "ext" then some ⟨some 101, pairWords ((List.range 102).map (fun (i : Nat) => (i : ℝ))) (List.replicate 102 1)⟩
  else if name = "small" then some ⟨some 100, []⟩
  else none

theorem exTables_counted : Counted exTables := by
  intro name c h
  unfold exTables at h
  split at h
  · cases h; exact ⟨101, rfl, by norm_num⟩
  split at h
  · cases h; exact ⟨101, rfl, by norm_num⟩
  split at h
  · cases h; exact ⟨101, rfl, by norm_num⟩
  split at h
  · cases h; exact ⟨100, rfl, by norm_num⟩
  · cases h

example (junk : ℝ) : tables exTables junk ("cap", "axs", "ext") =
    .ok (listProfile 101 ((List.range 102).map (fun (i : Nat) => (i : ℝ))) (List.replicate 102 (1/10)) (List.replicate 102 1)) :=
  tables_complete (z1 := (List.range 102).map (fun (i : Nat) => (i : ℝ))) (z2 := (List.range 102).map (fun (i : Nat) => (i : ℝ)))
    (xy := List.replicate 102 (0, 0)) exTables junk "cap" "axs" "ext" 101 (by norm_num) (by simp only [exTables]; rfl) (by simp only [exTables]; rfl) (by simp only [exTables]; rfl)
    ⟨rfl, by simp, by simp, [], (List.append_nil _).symm⟩ ⟨rfl, by simp, by simp, [], (List.append_nil _).symm⟩
    ⟨rfl, by simp, by simp, [], (List.append_nil _).symm⟩

end PFile
end Polycap
