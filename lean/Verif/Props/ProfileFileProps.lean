import Verif.ProfileFile
import Mathlib.Tactic

/-!
# Profiles read from files

Specification: a *pair file* with count `n` holding the columns `a`, `b` starts with the integer `n`, followed by the numbers
`a₀ b₀ a₁ b₁ … aₙ bₙ`; a *triple file* has three columns.
-/
set_option linter.unusedSimpArgs false
namespace Polycap
namespace PFile
open CM
variable {α : Type}

/-- the words of a two-column table -/
def pairWords : List α → List α → List (Option α)
  | a :: as, b :: bs => some a :: some b :: pairWords as bs
  | _, _ => []

/-- the words of a three-column table -/
def tripleWords : List α → List (α × α) → List (Option α)
  | a :: as, b :: bs => some a :: some b.1 :: some b.2 :: tripleWords as bs
  | _, _ => []

/-- `f` starts with the count `n` and holds `n+1` rows of two columns; anything may follow. -/
def IsPairFile (f : Content α) (n : Nat) (a b : List α) : Prop :=
  f.count = some (n : Int) ∧ a.length = n + 1 ∧ b.length = n + 1 ∧ ∃ r, f.words = pairWords a b ++ r

/-- the same with three columns, of which the last two are ignored -/
def IsTripleFile (f : Content α) (n : Nat) (a : List α) (b : List (α × α)) : Prop :=
  f.count = some (n : Int) ∧ a.length = n + 1 ∧ b.length = n + 1 ∧ ∃ r, f.words = tripleWords a b ++ r

theorem readPairs_table (a b : List α) (r zs cs : List (Option α)) (ha : a.length = zs.length) (hb : b.length = cs.length)
    (hz : zs.length = cs.length) : readPairs (pairWords a b ++ r) zs cs = (a.map some, b.map some) := by
  induction a generalizing b zs cs with
  | nil =>
    have : zs = [] := List.length_eq_zero_iff.1 (by simpa using ha.symm)
    subst this
    have : cs = [] := List.length_eq_zero_iff.1 (by simpa using hz.symm)
    subst this
    have : b = [] := List.length_eq_zero_iff.1 (by simpa using hb)
    subst this
    rfl
  | cons x a ih =>
    cases zs with
    | nil => simp at ha
    | cons z zs =>
      cases cs with
      | nil => simp at hz
      | cons c cs =>
        cases b with
        | nil => simp at hb
        | cons y b =>
          have := ih b zs cs (by simpa using ha) (by simpa using hb) (by simpa using hz)
          simp [pairWords, readPairs, scan2, scan1, this]

theorem readTriples_table (a : List α) (b : List (α × α)) (r zs : List (Option α)) (ha : a.length = zs.length)
    (hb : b.length = zs.length) : readTriples (tripleWords a b ++ r) zs = a.map some := by
  induction a generalizing b zs with
  | nil =>
    have : zs = [] := List.length_eq_zero_iff.1 (by simpa using ha.symm)
    subst this
    cases b with
    | nil => rfl
    | cons y b => simp at hb
  | cons x a ih =>
    cases zs with
    | nil => simp at ha
    | cons z zs =>
      cases b with
      | nil => simp at hb
      | cons y b =>
        have := ih b zs (by simpa using ha) (by simpa using hb)
        simp [tripleWords, readTriples, scan3, scan2, scan1, this]

theorem readPairs_length (ws zs cs : List (Option α)) (h : zs.length = cs.length) :
    (readPairs ws zs cs).1.length = zs.length ∧ (readPairs ws zs cs).2.length = cs.length := by
  induction zs generalizing ws cs with
  | nil => cases cs <;> simp_all [readPairs]
  | cons z zs ih =>
    cases cs with
    | nil => simp at h
    | cons c cs =>
      have := ih (scan2 ws z c).2.2 cs (by simpa using h)
      simp [readPairs, this]

theorem readTriples_length (ws zs : List (Option α)) : (readTriples ws zs).length = zs.length := by
  induction zs generalizing ws with
  | nil => simp [readTriples]
  | cons z zs ih => simp [readTriples, ih]

/-- the three arrays of a profile being built, at addresses `z`, `cap`, `ext` of the heap `h` -/
structure Built (h : Heap (Blk α)) (p z cap ext n : Nat) (zs cs es : List (Option α)) : Prop where
  hp : h.mem p = some (.prof n (some z) (some cap) (some ext))
  hz : h.mem z = some (.arr zs)
  hc : h.mem cap = some (.arr cs)
  he : h.mem ext = some (.arr es)
  d1 : p ≠ z
  d2 : p ≠ cap
  d3 : p ≠ ext
  d4 : z ≠ cap
  d5 : z ≠ ext
  d6 : cap ≠ ext
  lz : zs.length = n + 1
  lc : cs.length = n + 1
  le : es.length = n + 1

/-- what is left of the heap when the four blocks of the profile are released -/
def dropped (h : Heap (Blk α)) (p z cap ext : Nat) : Nat → Option (Blk α) :=
  upd (upd (upd (upd h.mem z none) cap none) ext none) p none

theorem profFree_run {h : Heap (Blk α)} {p z cap ext n : Nat} {zs cs es : List (Option α)}
    (B : Built h p z cap ext n zs cs es) :
    (profFree (some p)).run h = some ((), { h with mem := dropped h p z cap ext }) := by
  obtain ⟨hp, hz, hc, he, d1, d2, d3, d4, d5, d6, -, -, -⟩ := B
  simp [profFree, run_bind, run_load, hp, run_free, hz, hc, he, upd, dropped, d1, d2, d3, d4, d5, d6,
    d1.symm, d2.symm, d3.symm, d4.symm, d5.symm, d6.symm]

theorem fopen_run (fs : String → Option (Content α)) (name : String) (h : Heap (Blk α)) :
    (∃ h', h'.mem = h.mem ∧ h'.orc = h.orc ∧ (h'.next = h.next ∨ h'.next = h.next + 1) ∧ (fopen fs name).run h = some (none, h') ∧
      (fs name = none ∨ h.orc h.next = false)) ∨
    (∃ c, fs name = some c ∧ h.orc h.next = true ∧ (fopen fs name).run h =
      some (some (some h.next, c), { h with mem := upd h.mem h.next (some .file), next := h.next + 1 })) := by
  unfold fopen
  cases hf : fs name with
  | none => exact Or.inl ⟨h, rfl, rfl, Or.inl rfl, by simp⟩
  | some c =>
    cases ho : h.orc h.next with
    | false => exact Or.inl ⟨{ h with next := h.next + 1 }, rfl, rfl, Or.inr rfl, by simp [run_bind, run_malloc, ho]⟩
    | true => exact Or.inr ⟨c, rfl, rfl, by simp [run_bind, run_malloc, ho]⟩

/-- outcome of a failing stage: NULL, an error, and the heap `base` -/
def FailClean (code : Code) (base : Nat → Option (Blk α)) (e : EArg) (x : Ptr × EArg) (h' : Heap (Blk α)) : Prop :=
  x = (none, e.set code) ∧ h'.mem = base

/-- outcome of a failing stage: NULL, an error, and the heap `base` with one `FILE` object left open -/
def FailOpen (code : Code) (next : Nat) (base : Nat → Option (Blk α)) (e : EArg) (x : Ptr × EArg) (h' : Heap (Blk α)) : Prop :=
  x = (none, e.set code) ∧ ∃ k, next ≤ k ∧ h'.mem = upd base k (some .file)

/-- the file does not exist or is not readable, or the allocation number `k` fails -/
def NotOpened (fs : String → Option (Content α)) (name : String) (ok : Nat → Bool) (k : Nat) : Prop :=
  fs name = none ∨ ok k = false

/-- the file starts with an integer that is not `n` -/
def WrongCount (fs : String → Option (Content α)) (name : String) (n : Nat) : Prop :=
  ∃ c m, fs name = some c ∧ c.count = some m ∧ m ≠ n

theorem wrong_of {fs : String → Option (Content α)} {name : String} {n : Nat} {c : Content α} (hc : fs name = some c)
    (hn : c.count.getD n ≠ n) : WrongCount fs name n := by
  cases hm : c.count with
  | none => simp [hm] at hn
  | some m => exact ⟨c, m, hc, hm, by simpa [hm] using hn⟩

theorem not_wrong {fs : String → Option (Content α)} {name : String} {n : Nat} {c : Content α} (hc : fs name = some c)
    (hn : c.count.getD n = n) : ¬ WrongCount fs name n := by
  rintro ⟨d, m, hd, hm, hne⟩
  rw [hc] at hd
  cases hd
  rw [hm] at hn
  exact hne hn

theorem built_fresh {h : Heap (Blk α)} {p z cap ext n : Nat} {zs cs es : List (Option α)}
    (B : Built h p z cap ext n zs cs es) (hw : h.WF) : p < h.next ∧ z < h.next ∧ cap < h.next ∧ ext < h.next := by
  have key : ∀ a b, h.mem a = some b → a < h.next := by
    intro a b hb
    by_contra hc
    rw [hw a (not_lt.1 hc)] at hb
    cases hb
  exact ⟨key _ _ B.hp, key _ _ B.hz, key _ _ B.hc, key _ _ B.he⟩

theorem built_open {h : Heap (Blk α)} {p z cap ext n : Nat} {zs cs es : List (Option α)}
    (B : Built h p z cap ext n zs cs es) (hw : h.WF) :
    Built { h with mem := upd h.mem h.next (some .file), next := h.next + 1 } p z cap ext n zs cs es := by
  obtain ⟨a, b, c, d⟩ := built_fresh B hw
  obtain ⟨hp, hz, hc, he, d1, d2, d3, d4, d5, d6, lz, lc, le⟩ := B
  exact ⟨by simp [upd, a.ne, hp], by simp [upd, b.ne, hz], by simp [upd, c.ne, hc], by simp [upd, d.ne, he], d1, d2, d3, d4, d5, d6,
    lz, lc, le⟩

theorem readShape_run (fs : String → Option (Content α)) (name : String) {h : Heap (Blk α)} {p z cap ext n : Nat}
    {zs cs es : List (Option α)} (B : Built h p z cap ext n zs cs es) (hw : h.WF) (e : EArg) :
    ∃ x h', (readShape fs name (some p) (some z) (some ext) n n e).run h = some (x, h') ∧
      (NotOpened fs name h.orc h.next ∧ FailClean .io (dropped h p z cap ext) e x h' ∨
       WrongCount fs name n ∧ FailOpen .io h.next (dropped h p z cap ext) e x h' ∨
       ∃ c, fs name = some c ∧ h.orc h.next = true ∧ c.count.getD n = n ∧ x = (some p, e) ∧
         h'.mem = upd (upd h.mem z (some (.arr (readPairs c.words zs es).1))) ext (some (.arr (readPairs c.words zs es).2))) := by
  obtain ⟨fp, fz, fc, fe⟩ := built_fresh B hw
  unfold readShape
  rcases fopen_run fs name h with ⟨h1, m1, -, -, r1, why⟩ | ⟨c, hc, ho, r1⟩
  · have B1 : Built h1 p z cap ext n zs cs es := by
      obtain ⟨hp, hz, hc, he, d1, d2, d3, d4, d5, d6, lz, lc, le⟩ := B
      exact ⟨by rw [m1, hp], by rw [m1, hz], by rw [m1, hc], by rw [m1, he], d1, d2, d3, d4, d5, d6, lz, lc, le⟩
    refine ⟨(none, e.set .io), { h1 with mem := dropped h1 p z cap ext }, ?_, Or.inl ⟨why, rfl, by simp [dropped, m1]⟩⟩
    rw [run_bind_some r1]
    simp only
    rw [run_bind_some (profFree_run B1)]
    rfl
  · rw [run_bind_some r1]
    have B1 := built_open B hw
    by_cases hn : c.count.getD n = n
    · refine ⟨(some p, e), ⟨upd (upd h.mem z (some (.arr (readPairs c.words zs es).1))) ext
        (some (.arr (readPairs c.words zs es).2)), h.next + 1, h.orc⟩, ?_, Or.inr (Or.inr ⟨c, hc, ho, hn, rfl, rfl⟩)⟩
      simp only [hn, ne_eq, not_true_eq_false, if_false]
      obtain ⟨hp, hz, hcc, he, d1, d2, d3, d4, d5, d6, lz, lc, le⟩ := B
      have := hw h.next (le_refl _)
      simp [loadArr, run_bind, run_load, run_store, upd, fz.ne, fz.ne', fe.ne, fe.ne', hz, he, d5, d5.symm, run_free]
      funext a
      simp only [upd]
      grind
    · refine ⟨(none, e.set .io), ⟨dropped ⟨upd h.mem h.next (some .file), h.next + 1, h.orc⟩ p z cap ext, h.next + 1, h.orc⟩, ?_,
        Or.inr (Or.inl ⟨wrong_of hc hn, rfl, h.next, le_refl _, ?_⟩)⟩
      · simp only [ne_eq, hn, not_false_eq_true, if_true]
        rw [run_bind_some (profFree_run B1)]
        rfl
      · funext a
        simp only [dropped, upd]
        grind

theorem readAxis_run (fs : String → Option (Content α)) (name shape : String) {h : Heap (Blk α)} {p z cap ext n : Nat}
    {zs cs es : List (Option α)} (B : Built h p z cap ext n zs cs es) (hw : h.WF) (e : EArg) :
    ∃ x h', (readAxis fs name shape (some p) (some z) (some ext) n n e).run h = some (x, h') ∧
      ((NotOpened fs name h.orc h.next ∨ ¬ WrongCount fs name n ∧ NotOpened fs shape h.orc (h.next + 1)) ∧ FailClean .io (dropped h p z cap ext) e x h' ∨
       (WrongCount fs name n ∨ WrongCount fs shape n) ∧ FailOpen .io h.next (dropped h p z cap ext) e x h' ∨
       ∃ c d, fs name = some c ∧ fs shape = some d ∧ h.orc h.next = true ∧ h.orc (h.next + 1) = true ∧
         c.count.getD n = n ∧ d.count.getD n = n ∧ x = (some p, e) ∧
         h'.mem = upd (upd h.mem z (some (.arr (readPairs d.words (readTriples c.words zs) es).1))) ext
           (some (.arr (readPairs d.words (readTriples c.words zs) es).2))) := by
  obtain ⟨fp, fz, fc, fe⟩ := built_fresh B hw
  unfold readAxis
  rcases fopen_run fs name h with ⟨h1, m1, -, -, r1, why⟩ | ⟨c, hc, ho, r1⟩
  · have B1 : Built h1 p z cap ext n zs cs es := by
      obtain ⟨hp, hz, hc, he, d1, d2, d3, d4, d5, d6, lz, lc, le⟩ := B
      exact ⟨by rw [m1, hp], by rw [m1, hz], by rw [m1, hc], by rw [m1, he], d1, d2, d3, d4, d5, d6, lz, lc, le⟩
    refine ⟨(none, e.set .io), { h1 with mem := dropped h1 p z cap ext }, ?_, Or.inl ⟨Or.inl why, rfl, by simp [dropped, m1]⟩⟩
    rw [run_bind_some r1]
    simp only
    rw [run_bind_some (profFree_run B1)]
    rfl
  · rw [run_bind_some r1]
    have B1 := built_open B hw
    by_cases hn : c.count.getD n = n
    · let g : Heap (Blk α) := ⟨upd h.mem z (some (.arr (readTriples c.words zs))), h.next + 1, h.orc⟩
      have Bg : Built g p z cap ext n (readTriples c.words zs) cs es := by
        obtain ⟨hp, hz, hcc, he, d1, d2, d3, d4, d5, d6, lz, lc, le⟩ := B
        exact ⟨by simp [g, upd, d1, hp], by simp [g, upd], by simp [g, upd, d4.symm, hcc], by simp [g, upd, d5.symm, he],
          d1, d2, d3, d4, d5, d6, by rw [readTriples_length, lz], lc, le⟩
      have wg : g.WF := by
        intro a ha
        have h1 : h.next + 1 ≤ a := ha
        have : a ≠ z := by omega
        simp only [g, upd, this, if_false]
        exact hw a (by omega)
      have hrun : (readShape fs shape (some p) (some z) (some ext) n n e).run g =
          ((do
            let zs ← loadArr (some z)
            store (some z) (.arr (readTriples c.words zs))
            free (some h.next)
            readShape fs shape (some p) (some z) (some ext) n n e : CM (Blk α) (Ptr × EArg))).run
            ⟨upd h.mem h.next (some .file), h.next + 1, h.orc⟩ := by
        obtain ⟨hp, hz, hcc, he, d1, d2, d3, d4, d5, d6, lz, lc, le⟩ := B
        have := hw h.next (le_refl _)
        simp [loadArr, run_bind, run_load, run_store, upd, fz.ne, fz.ne', hz, run_free]
        congr 1
        simp only [g, Heap.mk.injEq, and_true]
        funext a
        simp only [upd]
        grind
      obtain ⟨x, h', hr, hx⟩ := readShape_run fs shape Bg wg e
      refine ⟨x, h', ?_, ?_⟩
      · simp only [hn, ne_eq, not_true_eq_false, if_false]
        rw [← hrun, hr]
      · have hdrop : dropped g p z cap ext = dropped h p z cap ext := by
          funext a
          simp only [dropped, g, upd]
          grind
        rcases hx with ⟨hw1, hx, hm⟩ | ⟨hw1, hx, k, hk, hm⟩ | ⟨d, hd, hod, hdn, hx, hm⟩
        · rw [hdrop] at hm
          exact Or.inl ⟨Or.inr ⟨not_wrong hc hn, hw1⟩, hx, hm⟩
        · rw [hdrop] at hm
          exact Or.inr (Or.inl ⟨Or.inr hw1, hx, k, le_trans (Nat.le_succ _) hk, hm⟩)
        · right; right
          refine ⟨c, d, hc, hd, ho, hod, hn, hdn, hx, ?_⟩
          rw [hm]
          funext a
          simp only [g, upd]
          grind
    · refine ⟨(none, e.set .io), ⟨dropped ⟨upd h.mem h.next (some .file), h.next + 1, h.orc⟩ p z cap ext, h.next + 1, h.orc⟩, ?_,
        Or.inr (Or.inl ⟨Or.inl (wrong_of hc hn), rfl, h.next, le_refl _, ?_⟩)⟩
      · simp only [ne_eq, hn, not_false_eq_true, if_true]
        rw [run_bind_some (profFree_run B1)]
        rfl
      · funext a
        simp only [dropped, upd]
        grind

/-- the heap with the blocks of a finished profile at the four addresses behind `k` -/
def withProfile (h : Heap (Blk α)) (k n : Nat) (zs cs es : List (Option α)) : Nat → Option (Blk α) :=
  upd (upd (upd (upd h.mem (k + 1) (some (.prof n (some (k + 2)) (some (k + 3)) (some (k + 4))))) (k + 2) (some (.arr zs)))
    (k + 3) (some (.arr cs))) (k + 4) (some (.arr es))

theorem readCap_run (fs : String → Option (Content α)) (axis shape : String) (h : Heap (Blk α)) (hw : h.WF) (c : Content α)
    (n : Nat) (hn : n ≠ 2147483647) (e : EArg) :
    ∃ x h', (readCap fs axis shape (some h.next) c n e).run ⟨upd h.mem h.next (some .file), h.next + 1, h.orc⟩ = some (x, h') ∧
      ((∃ j, 1 ≤ j ∧ j ≤ 4 ∧ h.orc (h.next + j) = false) ∧ FailOpen .memory h.next h.mem e x h' ∨
       (NotOpened fs axis h.orc (h.next + 5) ∨ ¬ WrongCount fs axis n ∧ NotOpened fs shape h.orc (h.next + 6)) ∧ FailClean .io h.mem e x h' ∨
       (WrongCount fs axis n ∨ WrongCount fs shape n) ∧ FailOpen .io h.next h.mem e x h' ∨
       ∃ c2 c3, fs axis = some c2 ∧ fs shape = some c3 ∧ (∀ j, 1 ≤ j → j ≤ 6 → h.orc (h.next + j) = true) ∧
         c2.count.getD n = n ∧ c3.count.getD n = n ∧ x = (some (h.next + 1), e) ∧
         h'.mem = withProfile h h.next n
           (readPairs c3.words (readTriples c2.words (readPairs c.words (unset (n + 1)) (unset (n + 1))).1) (unset (n + 1))).1
           (readPairs c.words (unset (n + 1)) (unset (n + 1))).2
           (readPairs c3.words (readTriples c2.words (readPairs c.words (unset (n + 1)) (unset (n + 1))).1) (unset (n + 1))).2) := by
  have e0 := hw h.next (le_refl _)
  have e1 := hw (h.next + 1) (by omega)
  have e2 := hw (h.next + 2) (by omega)
  have e3 := hw (h.next + 3) (by omega)
  have e4 := hw (h.next + 4) (by omega)
  unfold readCap
  cases o1 : h.orc (h.next + 1) with
  | false =>
    refine ⟨(none, e.set .memory), ⟨upd h.mem h.next (some .file), h.next + 2, h.orc⟩, ?_, Or.inl ⟨⟨1, by omega, by omega, o1⟩, rfl, h.next,
      le_refl _, rfl⟩⟩
    simp [run_bind, run_malloc, o1]
  | true =>
  cases o2 : h.orc (h.next + 2) with
  | false =>
    refine ⟨(none, e.set .memory), ⟨upd h.mem h.next (some .file), h.next + 3, h.orc⟩, ?_, Or.inl ⟨⟨2, by omega, by omega, o2⟩, rfl, h.next,
      le_refl _, rfl⟩⟩
    simp [run_bind, run_malloc, run_free, o1, o2, hn, Nat.add_assoc, upd]
    funext a; simp only [upd]; grind
  | true =>
  cases o3 : h.orc (h.next + 3) with
  | false =>
    refine ⟨(none, e.set .memory), ⟨upd h.mem h.next (some .file), h.next + 4, h.orc⟩, ?_, Or.inl ⟨⟨3, by omega, by omega, o3⟩, rfl, h.next,
      le_refl _, rfl⟩⟩
    simp [run_bind, run_malloc, run_free, o1, o2, o3, hn, Nat.add_assoc, upd]
    funext a; simp only [upd]; grind
  | true =>
  cases o4 : h.orc (h.next + 4) with
  | false =>
    refine ⟨(none, e.set .memory), ⟨upd h.mem h.next (some .file), h.next + 5, h.orc⟩, ?_, Or.inl ⟨⟨4, by omega, by omega, o4⟩, rfl, h.next,
      le_refl _, rfl⟩⟩
    simp [run_bind, run_malloc, run_free, o1, o2, o3, o4, hn, Nat.add_assoc, upd]
    funext a; simp only [upd]; grind
  | true =>
  let r := readPairs c.words (unset (n + 1)) (unset (n + 1))
  let g : Heap (Blk α) := ⟨withProfile h h.next n r.1 r.2 (unset (n + 1)), h.next + 5, h.orc⟩
  have hl := readPairs_length c.words (unset (α := α) (n + 1)) (unset (n + 1)) rfl
  have Bg : Built g (h.next + 1) (h.next + 2) (h.next + 3) (h.next + 4) n r.1 r.2 (unset (n + 1)) :=
    ⟨by simp [g, withProfile, upd], by simp [g, withProfile, upd], by simp [g, withProfile, upd], by simp [g, withProfile, upd],
      by omega, by omega, by omega, by omega, by omega, by omega, by rw [hl.1]; simp [unset], by rw [hl.2]; simp [unset],
      by simp [unset]⟩
  have wg : g.WF := by
    intro a ha
    have ha : h.next + 5 ≤ a := ha
    have := hw a (by omega)
    simp only [g, withProfile, upd]
    grind
  have hdrop : dropped g (h.next + 1) (h.next + 2) (h.next + 3) (h.next + 4) = h.mem := by
    funext a
    simp only [dropped, g, withProfile, upd]
    grind
  obtain ⟨x, h', hr, hx⟩ := readAxis_run fs axis shape Bg wg e
  refine ⟨x, h', ?_, ?_⟩
  · rw [← hr]
    simp [run_bind, run_malloc, run_free, run_load, run_store, loadArr, o1, o2, o3, o4, hn, Nat.add_assoc, upd]
    congr 1
    simp only [g, Heap.mk.injEq, and_true]
    funext a
    simp only [withProfile, upd]
    grind
  · rw [hdrop] at hx
    right
    rcases hx with ⟨hw1, hx⟩ | ⟨hw1, hx, k, hk, hm⟩ | ⟨c2, c3, h2, h3, o5, o6, n2, n3, hx, hm⟩
    · exact Or.inl ⟨hw1, hx⟩
    · exact Or.inr (Or.inl ⟨hw1, hx, k, le_trans (by omega) (show h.next + 5 ≤ k from hk), hm⟩)
    · refine Or.inr (Or.inr ⟨c2, c3, h2, h3, ?_, n2, n3, hx, ?_⟩)
      · intro j h1 h6
        have : j = 1 ∨ j = 2 ∨ j = 3 ∨ j = 4 ∨ j = 5 ∨ j = 6 := by omega
        rcases this with rfl | rfl | rfl | rfl | rfl | rfl <;> assumption
      · rw [hm]
        funext a
        simp only [g, withProfile, upd]
        grind
/-- the profile struct at address `p` and its three arrays hold the given numbers -/
def HoldsProfile (h : Heap (Blk α)) (p n : Nat) (zs cs es : List (Option α)) : Prop :=
  ∃ z cap ext, h.mem p = some (.prof n (some z) (some cap) (some ext)) ∧ h.mem z = some (.arr zs) ∧ h.mem cap = some (.arr cs) ∧
    h.mem ext = some (.arr es)

theorem withProfile_holds {h h' : Heap (Blk α)} {k n : Nat} {zs cs es : List (Option α)} (hm : h'.mem = withProfile h k n zs cs es) :
    HoldsProfile h' (k + 1) n zs cs es :=
  ⟨k + 2, k + 3, k + 4, by rw [hm]; simp [withProfile, upd], by rw [hm]; simp [withProfile, upd],
    by rw [hm]; simp [withProfile, upd], by rw [hm]; simp [withProfile, upd]⟩

/-- **Every outcome** of `polycap_profile_new_from_file` on readable or unreadable files, whatever allocation fails: NULL with an error
(memory unchanged, or one `FILE` left open), or a profile of more than 100 intervals with the counts of the three files agreeing
where given, error slot and other memory untouched, all files closed. -/
theorem profile_file_outcomes (fs : String → Option (Content α)) (f1 f2 f3 : String) (e : EArg) (h : Heap (Blk α)) (hw : h.WF)
    (hf : ∀ c, fs f1 = some c → ∃ n, c.count = some n ∧ n ≠ 2147483647) :
    ∃ x h', (profileFromFile fs (some f1) (some f2) (some f3) e).run h = some (x, h') ∧
      ((∃ code, (code = .io ∨ code = .invalidArgument ∨ code = .memory) ∧
          (FailClean code h.mem e x h' ∨ FailOpen code h.next h.mem e x h')) ∨
       ∃ (c1 c2 c3 : Content α) (n : Nat), fs f1 = some c1 ∧ fs f2 = some c2 ∧ fs f3 = some c3 ∧ c1.count = some (n : Int) ∧ 100 < n ∧
         c2.count.getD n = n ∧ c3.count.getD n = n ∧ ∃ p zs cs es, x = (some p, e) ∧ h.mem p = none ∧
           HoldsProfile h' p n zs cs es ∧ (∀ a, h.mem a ≠ none → h'.mem a = h.mem a) ∧ (∀ a, h'.mem a = some .file → h.mem a = some .file)) := by
  unfold profileFromFile
  simp only
  rcases fopen_run fs f1 h with ⟨h1, m1, -, -, r1, why⟩ | ⟨c, hc, ho, r1⟩
  · refine ⟨(none, e.set .io), h1, ?_, Or.inl ⟨.io, Or.inl rfl, Or.inl ⟨rfl, m1⟩⟩⟩
    rw [run_bind_some r1]; rfl
  · obtain ⟨n, hn, hn'⟩ := hf c hc
    rw [run_bind_some r1]
    simp only [hn]
    by_cases h100 : n ≤ 100
    · refine ⟨(none, e.set .invalidArgument), _, by rw [if_pos h100]; rfl, Or.inl ⟨.invalidArgument, Or.inr (Or.inl rfl), Or.inr ⟨rfl, h.next,
        le_refl _, rfl⟩⟩⟩
    · rw [if_neg h100]
      obtain ⟨x, h', hr, hx⟩ := readCap_run fs f2 f3 h hw c n.toNat (by omega) e
      refine ⟨x, h', hr, ?_⟩
      rcases hx with ⟨-, hx⟩ | ⟨-, hx⟩ | ⟨-, hx⟩ | ⟨c2, c3, h2, h3, -, n2, n3, hx, hm⟩
      · exact Or.inl ⟨.memory, Or.inr (Or.inr rfl), Or.inr hx⟩
      · exact Or.inl ⟨.io, Or.inl rfl, Or.inl hx⟩
      · exact Or.inl ⟨.io, Or.inl rfl, Or.inr hx⟩
      · have e0 := hw h.next (le_refl _)
        have e1 := hw (h.next + 1) (by omega)
        have e2 := hw (h.next + 2) (by omega)
        have e3 := hw (h.next + 3) (by omega)
        have e4 := hw (h.next + 4) (by omega)
        refine Or.inr ⟨c, c2, c3, n.toNat, hc, h2, h3, by rw [hn]; congr 1; omega, by omega, n2, n3, h.next + 1, _, _, _, hx, e1,
          withProfile_holds hm, ?_, ?_⟩
        · intro a ha
          rw [hm]
          simp only [withProfile, upd]
          grind
        · intro a ha
          rw [hm] at ha
          simp only [withProfile, upd] at ha
          grind

/-- **NULL exactly when an error is reported** -/
theorem profile_file_null_iff_error (fs : String → Option (Content α)) (single axis shape : Option String) (h h' : Heap (Blk α))
    (hw : h.WF) (x : Ptr × EArg) (hr : (profileFromFile fs single axis shape (some none)).run h = some (x, h')) :
    x.1 = none ↔ x.2 ≠ some none := by
  match single, axis, shape, hr with
  | some f1, some f2, some f3, hr =>
    by_cases hf : ∀ c, fs f1 = some c → ∃ n, c.count = some n ∧ n ≠ 2147483647
    · obtain ⟨y, g, hr', ho⟩ := profile_file_outcomes fs f1 f2 f3 (some none) h hw hf
      rw [hr] at hr'
      cases hr'
      rcases ho with ⟨code, -, ⟨rfl, -⟩ | ⟨rfl, -⟩⟩ | ⟨_, _, _, _, -, -, -, -, -, -, -, _, _, _, _, rfl, -⟩ <;> simp [EArg.set]
    · unfold profileFromFile at hr
      simp only at hr
      rcases fopen_run fs f1 h with ⟨h1, m1, -, -, r1, why⟩ | ⟨c', hc', ho, r1⟩
      · rw [run_bind_some r1] at hr
        simp only [run_pure, Option.some.injEq, Prod.mk.injEq] at hr
        obtain ⟨rfl, -⟩ := hr
        simp [EArg.set]
      · rw [run_bind_some r1] at hr
        cases hn : c'.count with
        | none => simp [hn] at hr
        | some n =>
          have hbad : n = 2147483647 := by
            by_contra hne
            exact hf fun c hc => ⟨n, by rw [hc'] at hc; cases hc; exact hn, hne⟩
          subst hbad
          simp only [hn, readCap] at hr
          cases o1 : h.orc (h.next + 1) with
          | false =>
            simp [run_bind, run_malloc, o1] at hr
            obtain ⟨rfl, -⟩ := hr
            simp [EArg.set]
          | true => simp [run_bind, run_malloc, o1] at hr
  | none, _, _, hr | some _, none, _, hr | some _, some _, none, hr =>
    simp only [profileFromFile, run_pure, Option.some.injEq, Prod.mk.injEq] at hr
    obtain ⟨rfl, -⟩ := hr
    simp [EArg.set]

/-- **Complete files**: with three readable files with the same count `n > 100` and complete tables, and memory available, the profile
holds the `z` and external radius columns of the shape file and the radius column of the single capillary file. -/
theorem profile_file_reads (fs : String → Option (Content α)) (f1 f2 f3 : String) (e : EArg) (h : Heap (Blk α)) (hw : h.WF)
    (hok : ∀ k, h.orc k = true) (n : Nat) (hn : 100 < n) (hn' : n < 2147483647) {c1 c2 c3 : Content α} (h1 : fs f1 = some c1)
    (h2 : fs f2 = some c2) (h3 : fs f3 = some c3) {z1 r z2 z3 x : List α} {xy : List (α × α)} (p1 : IsPairFile c1 n z1 r)
    (p2 : IsTripleFile c2 n z2 xy) (p3 : IsPairFile c3 n z3 x) :
    ∃ p h', (profileFromFile fs (some f1) (some f2) (some f3) e).run h = some ((some p, e), h') ∧ h.mem p = none ∧
      HoldsProfile h' p n (z3.map some) (r.map some) (x.map some) ∧ (∀ a, h.mem a ≠ none → h'.mem a = h.mem a) ∧
      (∀ a, h'.mem a = some .file → h.mem a = some .file) := by
  obtain ⟨k1, l1, m1, w1, rfl1⟩ := p1
  obtain ⟨k2, l2, m2, w2, rfl2⟩ := p2
  obtain ⟨k3, l3, m3, w3, rfl3⟩ := p3
  obtain ⟨y, h', hr, hx⟩ := readCap_run fs f2 f3 h hw c1 n (by omega) e
  have ro : (profileFromFile fs (some f1) (some f2) (some f3) e).run h = some (y, h') := by
    rw [← hr]
    have hi : ¬ ((n : Int) ≤ 100) := by omega
    simp [profileFromFile, fopen, h1, run_bind, run_malloc, hok, k1, hi]
  have q1 : readPairs c1.words (unset (n + 1)) (unset (n + 1)) = (z1.map some, r.map some) := by
    rw [rfl1]; exact readPairs_table _ _ _ _ _ (by simp [unset, l1]) (by simp [unset, m1]) rfl
  have q2 : readTriples c2.words (z1.map some) = z2.map some := by
    rw [rfl2]; exact readTriples_table _ _ _ _ (by simp [l1, l2]) (by simp [l1, m2])
  have q3 : readPairs c3.words (z2.map some) (unset (n + 1)) = (z3.map some, x.map some) := by
    rw [rfl3]; exact readPairs_table _ _ _ _ _ (by simp [l2, l3]) (by simp [unset, m3]) (by simp [unset, l2])
  rcases hx with ⟨⟨j, -, -, hj⟩, -⟩ | ⟨(hj | hj) | ⟨-, hj | hj⟩, -⟩ | ⟨⟨c, m, hc, hm, hj⟩ | ⟨c, m, hc, hm, hj⟩, -⟩ |
    ⟨d2, d3, e2, e3, -, -, -, hx, hm⟩
  · simp [hok] at hj
  · simp [h2] at hj
  · simp [hok] at hj
  · simp [h3] at hj
  · simp [hok] at hj
  · rw [h2] at hc; cases hc; rw [k2] at hm; cases hm; exact absurd rfl hj
  · rw [h3] at hc; cases hc; rw [k3] at hm; cases hm; exact absurd rfl hj
  · rw [h2] at e2; cases e2
    rw [h3] at e3; cases e3
    rw [q1] at hm
    simp only [q2, q3] at hm
    subst hx
    have i0 := hw h.next (le_refl _)
    have i1 := hw (h.next + 1) (by omega)
    have i2 := hw (h.next + 2) (by omega)
    have i3 := hw (h.next + 3) (by omega)
    have i4 := hw (h.next + 4) (by omega)
    refine ⟨h.next + 1, h', ro, i1, withProfile_holds hm, ?_, ?_⟩
    · intro a ha
      rw [hm]
      simp only [withProfile, upd]
      grind
    · intro a ha
      rw [hm] at ha
      simp only [withProfile, upd] at ha
      grind

/-- NULL file names are refused with INVALID_ARGUMENT -/
theorem profile_file_null (fs : String → Option (Content α)) (single axis shape : Option String) (e : EArg) (h : Heap (Blk α))
    (hn : single = none ∨ axis = none ∨ shape = none) :
    (profileFromFile fs single axis shape e).run h = some ((none, e.set .invalidArgument), h) := by
  match single, axis, shape, hn with
  | none, _, _, _ | some _, none, _, _ | some _, some _, none, _ => rfl
  | some _, some _, some _, hn => simp at hn

/-- **An existing file that cannot be used**: with all memory available, a first file with a count of at most 100 gives INVALID_ARGUMENT, a
second or third file with another count an I/O error; the `FILE` object of that file is never closed (finding). -/
theorem profile_file_bad_count (fs : String → Option (Content α)) (f1 f2 f3 : String) (e : EArg) (h : Heap (Blk α)) (hw : h.WF)
    (hok : ∀ k, h.orc k = true) {c1 : Content α} (h1 : fs f1 = some c1) {n : Int} (hc : c1.count = some n) (hn : n ≠ 2147483647)
    (hbad : n ≤ 100 ∨ (∃ c2, fs f2 = some c2 ∧ ∃ m, c2.count = some m ∧ m ≠ n) ∨
      ((∃ c2, fs f2 = some c2 ∧ c2.count = some n) ∧ ∃ c3, fs f3 = some c3 ∧ ∃ m, c3.count = some m ∧ m ≠ n)) :
    ∃ h', (profileFromFile fs (some f1) (some f2) (some f3) e).run h =
        some ((none, e.set (if n ≤ 100 then .invalidArgument else .io)), h') ∧
      ∃ k, h.next ≤ k ∧ h'.mem = upd h.mem k (some .file) := by
  by_cases h100 : n ≤ 100
  · refine ⟨⟨upd h.mem h.next (some .file), h.next + 1, h.orc⟩, ?_, h.next, le_refl _, rfl⟩
    simp [profileFromFile, fopen, h1, run_bind, run_malloc, hok, hc, h100]
  · have hnn : ((n.toNat : Nat) : Int) = n := by omega
    obtain ⟨y, h', hr, hx⟩ := readCap_run fs f2 f3 h hw c1 n.toNat (by omega) e
    have ro : (profileFromFile fs (some f1) (some f2) (some f3) e).run h = some (y, h') := by
      rw [← hr]
      simp [profileFromFile, fopen, h1, run_bind, run_malloc, hok, hc, h100]
    rcases hx with ⟨⟨j, -, -, hj⟩, -⟩ | ⟨hj, -⟩ | ⟨-, rfl, hx⟩ | ⟨d2, d3, e2, e3, -, n2, n3, -, -⟩
    · simp [hok] at hj
    · exfalso
      rcases hbad with hb | ⟨c2, hc2, m, hm, hmn⟩ | ⟨⟨c2, hc2, -⟩, c3, hc3, -⟩
      · exact h100 hb
      · rcases hj with (hj | hj) | ⟨hj, -⟩
        · simp [hc2] at hj
        · simp [hok] at hj
        · exact hj ⟨c2, m, hc2, hm, by rw [hnn]; exact hmn⟩
      · simp [NotOpened, hc2, hc3, hok] at hj
    · exact ⟨h', by rw [ro, if_neg h100], hx⟩
    · exfalso
      rcases hbad with hb | ⟨c2, hc2, m, hm, hmn⟩ | ⟨-, c3, hc3, m, hm, hmn⟩
      · exact h100 hb
      · rw [hc2] at e2; cases e2
        rw [hm, hnn] at n2
        exact hmn n2
      · rw [hc3] at e3; cases e3
        rw [hm, hnn] at n3
        exact hmn n3

theorem readPairs_nil (zs cs : List (Option α)) (hz : zs.length = cs.length) : readPairs [] zs cs = (zs, cs) := by
  induction zs generalizing cs with
  | nil => cases cs <;> rfl
  | cons z zs ih =>
    cases cs with
    | nil => simp at hz
    | cons c cs => simp [readPairs, scan2, scan1, ih cs (by simpa using hz)]

theorem readPairs_short (a b : List α) (zs cs : List (Option α)) (hab : a.length = b.length) (ha : a.length ≤ zs.length)
    (hz : zs.length = cs.length) :
    readPairs (pairWords a b) zs cs = (a.map some ++ zs.drop a.length, b.map some ++ cs.drop b.length) := by
  induction a generalizing b zs cs with
  | nil =>
    have : b = [] := List.length_eq_zero_iff.1 (by simpa using hab.symm)
    subst this
    simp [pairWords, readPairs_nil _ _ hz]
  | cons x a ih =>
    cases zs with
    | nil => simp at ha
    | cons z zs =>
      cases cs with
      | nil => simp at hz
      | cons c cs =>
        cases b with
        | nil => simp at hab
        | cons y b =>
          have := ih b zs cs (by simpa using hab) (by simpa using ha) (by simpa using hz)
          simp [pairWords, readPairs, scan2, scan1, this]

/-- **Finding (incomplete shape file)**: the return values of `fscanf` are ignored.  If the external shape file ends after `k` of the
`n+1` rows – even if it is empty – the call succeeds without an error and the external radii of the missing rows are uninitialised memory. -/
theorem profile_file_truncated_accepted (fs : String → Option (Content α)) (f1 f2 f3 : String) (e : EArg) (h : Heap (Blk α)) (hw : h.WF)
    (hok : ∀ k, h.orc k = true) (n : Nat) (hn : 100 < n) (hn' : n < 2147483647) {c1 c2 c3 : Content α} (h1 : fs f1 = some c1)
    (h2 : fs f2 = some c2) (h3 : fs f3 = some c3) {z1 r z2 : List α} {xy : List (α × α)} (p1 : IsPairFile c1 n z1 r)
    (p2 : IsTripleFile c2 n z2 xy) (z3 x : List α) (hc3 : c3.count = some (n : Int) ∨ c3.count = none) (h3w : c3.words = pairWords z3 x)
    (hl : z3.length = x.length) (hk : x.length ≤ n + 1) :
    ∃ p h', (profileFromFile fs (some f1) (some f2) (some f3) e).run h = some ((some p, e), h') ∧
      HoldsProfile h' p n (z3.map some ++ (z2.map some).drop z3.length) (r.map some)
        (x.map some ++ List.replicate (n + 1 - x.length) none) := by
  obtain ⟨k1, l1, m1, w1, rfl1⟩ := p1
  obtain ⟨k2, l2, m2, w2, rfl2⟩ := p2
  obtain ⟨y, h', hr, hx⟩ := readCap_run fs f2 f3 h hw c1 n (by omega) e
  have ro : (profileFromFile fs (some f1) (some f2) (some f3) e).run h = some (y, h') := by
    rw [← hr]
    have hi : ¬ ((n : Int) ≤ 100) := by omega
    simp [profileFromFile, fopen, h1, run_bind, run_malloc, hok, k1, hi]
  have q1 : readPairs c1.words (unset (n + 1)) (unset (n + 1)) = (z1.map some, r.map some) := by
    rw [rfl1]; exact readPairs_table _ _ _ _ _ (by simp [unset, l1]) (by simp [unset, m1]) rfl
  have q2 : readTriples c2.words (z1.map some) = z2.map some := by
    rw [rfl2]; exact readTriples_table _ _ _ _ (by simp [l1, l2]) (by simp [l1, m2])
  have q3 : readPairs c3.words (z2.map some) (unset (n + 1)) = (z3.map some ++ (z2.map some).drop z3.length,
      x.map some ++ (unset (n + 1)).drop x.length) := by
    rw [h3w]; exact readPairs_short _ _ _ _ hl (by simp [l2]; omega) (by simp [unset, l2])
  rcases hx with ⟨⟨j, -, -, hj⟩, -⟩ | ⟨(hj | hj) | ⟨-, hj | hj⟩, -⟩ | ⟨⟨c, m, hc, hm, hj⟩ | ⟨c, m, hc, hm, hj⟩, -⟩ |
    ⟨d2, d3, e2, e3, -, -, -, hx, hm⟩
  · simp [hok] at hj
  · simp [h2] at hj
  · simp [hok] at hj
  · simp [h3] at hj
  · simp [hok] at hj
  · rw [h2] at hc; cases hc; rw [k2] at hm; cases hm; exact absurd rfl hj
  · rw [h3] at hc; cases hc
    rcases hc3 with k3 | k3
    · rw [k3] at hm; cases hm; exact absurd rfl hj
    · rw [k3] at hm; cases hm
  · rw [h2] at e2; cases e2
    rw [h3] at e3; cases e3
    rw [q1] at hm
    simp only [q2, q3] at hm
    subst hx
    refine ⟨h.next + 1, h', ro, ?_⟩
    have := withProfile_holds hm
    simpa [unset, List.drop_replicate] using this

/-- **Finding**: a first file that does not start with an integer makes the code read an uninitialised variable. -/
theorem profile_file_no_count_ub (fs : String → Option (Content α)) (f1 f2 f3 : String) (e : EArg) (h : Heap (Blk α))
    (hok : h.orc h.next = true) {c1 : Content α} (h1 : fs f1 = some c1) (hc : c1.count = none) :
    (profileFromFile fs (some f1) (some f2) (some f3) e).run h = none := by
  simp [profileFromFile, fopen, h1, run_bind, run_malloc, hok, hc]

/-! ### the hypotheses can be met -/

/-- three consistent files of 102 points -/
def exampleFiles : String → Option (Content Nat) := fun name =>
  if name = "cap" then some ⟨some 101, pairWords (List.range 102) (List.replicate 102 3)⟩
  else if name = "axs" then some ⟨some 101, tripleWords (List.range 102) (List.replicate 102 (0, 0))⟩
  else if name = "ext" then some ⟨some 101, pairWords (List.range 102) (List.replicate 102 7)⟩
  else if name = "empty" then some ⟨none, []⟩
  else if name = "small" then some ⟨some 100, []⟩
  else if name = "other" then some ⟨some 102, []⟩
  else none

def emptyHeap : Heap (Blk Nat) := ⟨fun _ => none, 0, fun _ => true⟩

theorem isPair_example (n x : Nat) :
    IsPairFile ⟨some (n : Int), pairWords (List.range (n + 1)) (List.replicate (n + 1) x)⟩ n (List.range (n + 1)) (List.replicate (n + 1) x) :=
  ⟨rfl, List.length_range, List.length_replicate, [], (List.append_nil _).symm⟩

theorem isTriple_example (n : Nat) :
    IsTripleFile ⟨some (n : Int), tripleWords (List.range (n + 1)) (List.replicate (n + 1) (0, 0))⟩ n (List.range (n + 1))
      (List.replicate (n + 1) (0, 0)) :=
  ⟨rfl, List.length_range, List.length_replicate, [], (List.append_nil _).symm⟩

example : ∃ p h', (profileFromFile exampleFiles (some "cap") (some "axs") (some "ext") (some none)).run emptyHeap =
    some ((some p, some none), h') ∧ HoldsProfile h' p 101 ((List.range 102).map some) ((List.replicate 102 3).map some)
      ((List.replicate 102 7).map some) := by
  obtain ⟨p, h', hr, -, hh, -⟩ := profile_file_reads exampleFiles "cap" "axs" "ext" (some none) emptyHeap (fun _ _ => rfl) (fun _ => rfl) 101
    (by norm_num) (by norm_num) (by simp only [exampleFiles]; rfl) (by simp only [exampleFiles]; rfl) (by simp only [exampleFiles]; rfl)
    (isPair_example 101 3) (isTriple_example 101) (isPair_example 101 7)
  exact ⟨p, h', hr, hh⟩

/-- an empty external shape file is accepted -/
example : ∃ p h' zs, (profileFromFile exampleFiles (some "cap") (some "axs") (some "empty") (some none)).run emptyHeap =
    some ((some p, some none), h') ∧ HoldsProfile h' p 101 zs ((List.replicate 102 3).map some) (List.replicate 102 none) := by
  obtain ⟨p, h', hr, hh⟩ := profile_file_truncated_accepted exampleFiles "cap" "axs" "empty" (some none) emptyHeap (fun _ _ => rfl)
    (fun _ => rfl) 101 (by norm_num) (by norm_num) (c3 := ⟨none, []⟩)
    (by simp only [exampleFiles]; rfl) (by simp only [exampleFiles]; rfl) (by simp only [exampleFiles]; rfl)
    (isPair_example 101 3) (isTriple_example 101) [] [] (Or.inr rfl) rfl rfl (by simp)
  exact ⟨p, h', _, hr, hh⟩

/-- a count mismatch leaves a file open -/
example : ∃ h', (profileFromFile exampleFiles (some "cap") (some "other") (some "nofile") (some none)).run emptyHeap =
    some ((none, some (some .io)), h') ∧ ∃ k, h'.mem k = some .file := by
  obtain ⟨h', hr, k, -, hm⟩ := profile_file_bad_count exampleFiles "cap" "other" "nofile" (some none) emptyHeap (fun _ _ => rfl)
    (fun _ => rfl) (c1 := ⟨some 101, pairWords (List.range 102) (List.replicate 102 3)⟩) (by simp only [exampleFiles]; rfl) (n := 101) rfl
    (by norm_num) (Or.inr (Or.inl ⟨⟨some 102, []⟩, by simp only [exampleFiles]; rfl, 102, rfl, by norm_num⟩))
  exact ⟨h', hr, k, by rw [hm]; simp⟩
end PFile
end Polycap
