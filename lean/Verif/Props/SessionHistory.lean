import Verif.Props.SessionRefine

/-!
# C61, C62: theorems about whole histories of API calls

`astep` (SessionProps.lean) is the specification: the same calls on plain values.  A history is legal if the value machine never gets `stale`.
-/
namespace Polycap.Sess
open CNum CM Mem
variable {α : Type} [CNum α]
set_option linter.unusedSectionVars false
set_option linter.unnecessarySeqFocus false
variable (fit : Fit α) (lib : Xray α) (sim : Nat → SimArgs α → Option (TE α))

/-- the specified run does not stop on a stale access -/
def Legal (ops : List (Op α)) (t : ASt α) : Prop := ∀ os, runAll (astep fit lib sim) ops t ≠ (os, .stale)

/-- the states of the program and of the specification that a history can lead to -/
def Reached (s : St α) (t : ASt α) : Prop := ∃ fp lk, Rel s t fp lk

theorem reached_start : Reached (α := α) start astart := by
  refine ⟨fun _ => [], [], ⟨?_, ?_, rfl, rfl, ?_, ?_, ?_, ?_, ?_, ?_, List.nodup_nil, rfl⟩⟩
  · intro x _; rfl
  · intro n; rfl
  · intro i a v h; simp [astart] at h
  · intro i _; rfl
  · intro i j x h; cases h
  · intro x h; exact absurd rfl h
  · intro i x h; cases h
  · intro x h; cases h

theorem legal_head {op : Op α} {ops : List (Op α)} {t : ASt α} (hl : Legal fit lib sim (op :: ops) t) :
    astep fit lib sim op t ≠ .stale ∧ ∀ t' o, astep fit lib sim op t = .next t' o → Legal fit lib sim ops t' := by
  constructor
  · intro h
    exact hl [] (by simp [runAll, h])
  · intro t' o h os hr
    exact hl (o :: os) (by simp [runAll, h, hr])

/-- how the ends of the two runs correspond -/
inductive EndRel : End (St α) → End (ASt α) → Prop
  | fine {s t} : Reached s t → EndRel (.fine s) (.fine t)
  | inner : EndRel .inner .inner

/-- C61: every legal history runs in the program exactly as specified: the same observations, no stale memory access, no abort that the
specification does not have, and the final memory again represents the specified values. -/
theorem session_refines : ∀ (ops : List (Op α)) (s : St α) (t : ASt α), Reached s t → Legal fit lib sim ops t →
    (runAll (step fit lib sim) ops s).1 = (runAll (astep fit lib sim) ops t).1 ∧
    EndRel (runAll (step fit lib sim) ops s).2 (runAll (astep fit lib sim) ops t).2
  | [], s, t, R, _ => ⟨rfl, .fine R⟩
  | op :: ops, s, t, R, hl => by
    obtain ⟨fp, lk, R⟩ := R
    have r := step_refines fit lib sim R op
    obtain ⟨h1, h2⟩ := legal_head fit lib sim hl
    cases ha : astep fit lib sim op t with
    | stale => exact absurd ha h1
    | inner =>
      rw [ha] at r
      have r : step fit lib sim op s = .inner := r
      simp only [runAll, ha, r]
      exact ⟨trivial, .inner⟩
    | next t' o =>
      rw [ha] at r
      obtain ⟨s', fp', lk', e, R'⟩ := r
      have ih := session_refines ops s' t' ⟨fp', lk', R'⟩ (h2 _ _ ha)
      simp only [runAll, ha, e]
      exact ⟨by rw [ih.1], ih.2⟩

/-- C61, from program start -/
theorem session_correct (ops : List (Op α)) (hl : Legal fit lib sim ops astart) :
    (runAll (step fit lib sim) ops start).1 = (runAll (astep fit lib sim) ops astart).1 ∧
    EndRel (runAll (step fit lib sim) ops start).2 (runAll (astep fit lib sim) ops astart).2 :=
  session_refines fit lib sim ops _ _ reached_start hl

theorem session_never_stale (ops : List (Op α)) (hl : Legal fit lib sim ops astart) :
    (runAll (step fit lib sim) ops start).2 ≠ .stale := by
  intro h
  have := (session_correct fit lib sim ops hl).2
  rw [h] at this
  cases this

/-! ## Memory at the end -/

/-- no profile, description or source is left -/
def ASt.empty (t : ASt α) : Prop := ∀ a ∈ t.vars, (∀ v, a ≠ .prof v) ∧ (∀ v, a ≠ .descr v) ∧ (∀ v, a ≠ .src v)

/-- C61: once every object is freed, exactly one block is still allocated for each `polycap_description_new` that refused its profile
(the finding of C07); nothing else leaks, whatever the history. -/
theorem session_memory (ops : List (Op α)) (hl : Legal fit lib sim ops astart) (s : St α) (t : ASt α)
    (hs : (runAll (step fit lib sim) ops start).2 = .fine s) (ht : (runAll (astep fit lib sim) ops astart).2 = .fine t) (he : t.empty) :
    ∃ lk : List Nat, lk.Nodup ∧ lk.length = t.refused ∧ ∀ x, s.heap.mem x ≠ none ↔ x ∈ lk := by
  have := (session_correct fit lib sim ops hl).2
  rw [hs, ht] at this
  cases this with
  | fine R =>
  obtain ⟨fp, lk, R⟩ := R
  refine ⟨lk, R.lknd, R.lkl, fun x => ⟨fun hx => ?_, R.lklive x⟩⟩
  rcases R.cover x hx with h | ⟨i, h⟩
  · exact h
  · exfalso
    by_cases hi : i < t.vars.length
    · have h1 : t.vars[i]? = some t.vars[i] := List.getElem?_eq_getElem _
      obtain ⟨v, hv, r⟩ := R.get h1
      obtain ⟨e1, e2, e3⟩ := he _ (List.getElem_mem hi)
      unfold RelVar at r
      split at r
      · rw [r] at h; cases h
      · exact e1 _ (by assumption)
      · exact e2 _ (by assumption)
      · exact e3 _ (by assumption)
      · rw [r.1] at h; cases h
      · rw [r.1] at h; cases h
      · rw [r.1] at h; cases h
      · rw [r] at h; cases h
      · exact r
    · rw [R.out i (by omega)] at h; cases h

/-- C61: if no description was refused because of its profile, the memory is back to what it was. -/
theorem session_no_leak (ops : List (Op α)) (hl : Legal fit lib sim ops astart) (s : St α) (t : ASt α)
    (hs : (runAll (step fit lib sim) ops start).2 = .fine s) (ht : (runAll (astep fit lib sim) ops astart).2 = .fine t) (he : t.empty)
    (h0 : t.refused = 0) : ∀ x, s.heap.mem x = none := by
  obtain ⟨lk, _, h2, h3⟩ := session_memory fit lib sim ops hl s t hs ht he
  rw [h0] at h2
  have : lk = [] := List.length_eq_zero_iff.mp h2
  subst this
  intro x
  by_contra hc
  exact absurd ((h3 x).mp hc) (by simp)

/-! ## Objects never change -/

/-- the value an object shows to the API; a source without the open area that simulations overwrite -/
def sameObject : AVar α → AVar α → Prop
  | .prof v, b => b = .prof v ∨ b = .gone
  | .descr v, b => b = .descr v ∨ b = .gone
  | .src v, b => (∃ oa, b = .src { v with descr := { v.descr with open_area := oa } }) ∨ b = .gone
  | .result j te, b => b = .result j te ∨ b = .gone
  | .photon o _, b => (∃ P, b = .photon o P) ∨ b = .gone
  | .null, b => b = .null
  | .gone, b => b = .gone

theorem sameObject_refl (a : AVar α) : sameObject a a := by
  cases a
  case src v => exact Or.inl ⟨v.descr.open_area, rfl⟩
  all_goals simp [sameObject]

theorem sameObject_trans {a b c : AVar α} (h1 : sameObject a b) (h2 : sameObject b c) : sameObject a c := by
  cases a <;> simp only [sameObject] at h1 ⊢
  · subst h1; exact h2
  · rcases h1 with rfl | rfl
    · exact h2
    · exact Or.inr h2
  · rcases h1 with rfl | rfl
    · exact h2
    · exact Or.inr h2
  · rcases h1 with ⟨oa, rfl⟩ | rfl
    · rcases h2 with ⟨ob, rfl⟩ | rfl
      · exact Or.inl ⟨ob, rfl⟩
      · exact Or.inr rfl
    · exact Or.inr h2
  · rcases h1 with ⟨P, rfl⟩ | rfl
    · exact h2
    · exact Or.inr h2
  · rcases h1 with rfl | rfl
    · exact h2
    · exact Or.inr h2
  · subst h1; exact h2

theorem push_same {t : ASt α} {v : AVar α} {i : Nat} {a : AVar α} (h : t.vars[i]? = some a) :
    ∃ b, (t.push v).vars[i]? = some b ∧ sameObject a b := ⟨a, getElem?_push_old h, sameObject_refl a⟩

theorem set_same {l : List (AVar α)} {j : Nat} {v c : AVar α} (hj : l[j]? = some c) (hs : sameObject c v) {i : Nat} {a : AVar α}
    (h : l[i]? = some a) : ∃ b, (l.set j v)[i]? = some b ∧ sameObject a b := by
  by_cases hij : j = i
  · subst hij
    rw [hj] at h
    simp only [Option.some.injEq] at h
    subst h
    have hlt : j < l.length := by
      by_contra hc
      rw [List.getElem?_eq_none (by omega)] at hj
      cases hj
    exact ⟨v, List.getElem?_set_self hlt, hs⟩
  · exact ⟨a, by rw [List.getElem?_set_ne hij]; exact h, sameObject_refl a⟩

theorem astep_same {op : Op α} {t t' : ASt α} {o : Obs α} (hs : astep fit lib sim op t = .next t' o) {i : Nat} {a : AVar α}
    (h : t.vars[i]? = some a) : ∃ b, t'.vars[i]? = some b ∧ sameObject a b := by
  have triv : ∃ b, t.vars[i]? = some b ∧ sameObject a b := ⟨a, h, sameObject_refl a⟩
  cases op <;> simp only [astep] at hs
  case newProfile =>
    split at hs <;> cases hs <;> exact push_same h
  case newProfileFromArrays =>
    split at hs
    · cases hs; exact push_same h
    · split at hs <;> cases hs; exact push_same h
  case getArray =>
    split at hs <;> cases hs <;> exact triv
  case newDescription =>
    split at hs
    · split at hs
      · cases hs; exact push_same h
      · split at hs
        · cases hs; exact push_same h
        · cases hs; exact push_same h
    · cases hs
  case getDescrArray =>
    split at hs <;> cases hs <;> exact triv
  case newSource =>
    split at hs
    · cases hs; exact push_same h
    · split at hs <;> cases hs <;> exact push_same h
    · cases hs
  case newPhoton =>
    split at hs
    · cases hs; exact push_same h
    · split at hs <;> cases hs <;> exact push_same h
    · cases hs
  case getPhoton =>
    split at hs
    · cases hs; exact push_same h
    · split at hs <;> cases hs; exact push_same h
    · cases hs
  case launch j es leak fuel k =>
    split at hs
    · cases hs; exact triv
    · rename_i ow P hj
      split at hs
      · cases hs; exact triv
      · split at hs
        · cases hs
        · split at hs
          · cases hs
            exact set_same hj (Or.inl ⟨_, rfl⟩) h
          · cases hs
    · cases hs
  case simulate j mt np leak =>
    split at hs
    · cases hs; exact push_same h
    · rename_i v hj
      split at hs
      · cases hs; exact push_same h
      · split at hs
        · cases hs
        · cases hs
          obtain ⟨b, hb, hsb⟩ := set_same hj (Or.inl ⟨_, rfl⟩) h
          exact ⟨b, getElem?_push_old hb, hsb⟩
    · cases hs
  case readResult =>
    split at hs <;> cases hs <;> exact triv
  case write =>
    split at hs
    · cases hs; exact triv
    · split at hs <;> cases hs; exact triv
    · cases hs
  case free j =>
    split at hs
    · cases hs; exact triv
    · cases hs
    · cases hs
    · rename_i c n1 n2 hj
      cases hs
      refine set_same hj ?_ h
      cases c <;> first | exact Or.inr rfl | exact absurd rfl n1 | exact absurd rfl n2

/-- C62 (specification side): along any history every object keeps its value until it is freed. -/
theorem run_same : ∀ (ops : List (Op α)) (t t' : ASt α), (runAll (astep fit lib sim) ops t).2 = .fine t' →
    ∀ {i : Nat} {a : AVar α}, t.vars[i]? = some a → ∃ b, t'.vars[i]? = some b ∧ sameObject a b
  | [], t, t', h, i, a, ha => by
    simp only [runAll, End.fine.injEq] at h
    subst h
    exact ⟨a, ha, sameObject_refl a⟩
  | op :: ops, t, t', h, i, a, ha => by
    simp only [runAll] at h
    cases hs : astep fit lib sim op t with
    | stale => rw [hs] at h; cases h
    | inner => rw [hs] at h; cases h
    | next t1 o =>
      rw [hs] at h
      obtain ⟨b, hb, h1⟩ := astep_same fit lib sim hs ha
      obtain ⟨c, hc, h2⟩ := run_same ops t1 t' h hb
      exact ⟨c, hc, sameObject_trans h1 h2⟩

theorem runAll_append {σ : Type} (f : Op α → σ → Res σ α) : ∀ (xs ys : List (Op α)) (s : σ),
    runAll f (xs ++ ys) s = (match (runAll f xs s).2 with
      | .fine s' => ((runAll f xs s).1 ++ (runAll f ys s').1, (runAll f ys s').2)
      | .stale => ((runAll f xs s).1, .stale)
      | .inner => ((runAll f xs s).1, .inner))
  | [], ys, s => by simp [runAll]
  | op :: xs, ys, s => by
    simp only [List.cons_append, runAll]
    cases hs : f op s with
    | stale => rfl
    | inner => rfl
    | next s' o =>
      simp only
      rw [runAll_append f xs ys s']
      cases (runAll f xs s').2 <;> rfl

theorem legal_prefix {xs ys : List (Op α)} {t : ASt α} (hl : Legal fit lib sim (xs ++ ys) t) : Legal fit lib sim xs t := by
  intro os h
  apply hl os
  rw [runAll_append, h]

theorem legal_suffix {xs ys : List (Op α)} {t t' : ASt α} (hl : Legal fit lib sim (xs ++ ys) t)
    (h : (runAll (astep fit lib sim) xs t).2 = .fine t') : Legal fit lib sim ys t' := by
  intro os hr
  apply hl ((runAll (astep fit lib sim) xs t).1 ++ os)
  rw [runAll_append, h]
  simp only [hr]

/-- C62: an array read from a profile object is the same however many calls, on whatever objects, lie in between. -/
theorem array_reads_agree (s s1 s2 s3 : St α) (t : ASt α) (R : Reached s t) (i : Nat) (fld : ProfField) (n m : Nat) (xs ys : List α)
    (ops : List (Op α)) (hl : Legal fit lib sim (.getArray i fld :: (ops ++ [.getArray i fld])) t)
    (h1 : step fit lib sim (.getArray i fld) s = .next s1 (.array n xs)) (h2 : (runAll (step fit lib sim) ops s1).2 = .fine s2)
    (h3 : step fit lib sim (.getArray i fld) s2 = .next s3 (.array m ys)) : m = n ∧ ys = xs := by
  obtain ⟨fp, lk, R⟩ := R
  have r := step_refines fit lib sim R (.getArray i fld)
  obtain ⟨l1, l2⟩ := legal_head fit lib sim hl
  cases ha : astep fit lib sim (.getArray i fld) t with
  | stale => exact absurd ha l1
  | inner => rw [ha] at r; have r : _ = Res.inner := r; rw [h1] at r; cases r
  | next t1 o =>
    have l2 := l2 _ _ ha
    rw [ha] at r
    obtain ⟨s1', fp1, lk1, e1, R1⟩ := r
    rw [h1] at e1
    cases e1
    obtain ⟨v, hv, hx⟩ : ∃ v, t.vars[i]? = some (.prof v) ∧ (t1, (Obs.array n xs : Obs α)) = (t, .array v.1 (pick fld v)) := by
      simp only [astep] at ha
      split at ha
      · cases ha
      · rename_i v hv
        cases ha
        exact ⟨v, hv, rfl⟩
      · cases ha
    cases hx
    have sr := (session_refines fit lib sim ops s1 t ⟨fp1, lk1, R1⟩ (legal_prefix fit lib sim l2)).2
    rw [h2] at sr
    generalize he : (runAll (astep fit lib sim) ops t).2 = en at sr
    cases sr with
    | fine R2 =>
    rename_i t2
    obtain ⟨fp2, lk2, R2⟩ := R2
    have l3 := legal_suffix fit lib sim l2 he
    obtain ⟨b, hb, hsame⟩ := run_same fit lib sim ops t t2 he hv
    rcases hsame with rfl | rfl
    · have r2 := step_refines fit lib sim R2 (.getArray i fld)
      have ha2 : astep fit lib sim (.getArray i fld) t2 = .next t2 (.array v.1 (pick fld v)) := by simp [astep, hb]
      rw [ha2] at r2
      obtain ⟨s3', _, _, e3, _⟩ := r2
      rw [h3] at e3
      cases e3
      exact ⟨rfl, rfl⟩
    · exact absurd (show astep fit lib sim (.getArray i fld) t2 = .stale by simp [astep, hb]) (legal_head fit lib sim l3).1

/-- C62: what a simulation of a source is given (its geometry, spectrum and optic) never depends on what was done before: not on
earlier simulations, and not on the description and profile the source was built from being freed. -/
theorem source_inputs_fixed (ops : List (Op α)) (t t' : ASt α) (h : (runAll (astep fit lib sim) ops t).2 = .fine t') (i : Nat) (v v' : SrcView α)
    (h1 : t.vars[i]? = some (.src v)) (h2 : t'.vars[i]? = some (.src v')) : v'.pars = v.pars ∧ v'.descr.optic = v.descr.optic := by
  obtain ⟨b, hb, hs⟩ := run_same fit lib sim ops t t' h h1
  rw [h2] at hb
  cases hb
  rcases hs with ⟨oa, he⟩ | he
  · cases he; exact ⟨rfl, rfl⟩
  · cases he

/-! ## Findings: what is not legal, and really fails -/

theorem load_without {h : Heap (Block α)} {f : List Nat} {a : Nat} (ha : a ∈ f) : (load (some a)).run (without h f) = none := by
  rw [run_load]
  simp [without, ha]

theorem fetchDescr_without {h : Heap (Block α)} {f : List Nat} {a : Nat} (ha : a ∈ f) : (fetchDescr (some a)).run (without h f) = none := by
  simp only [fetchDescr, run_bind, load_without ha]

theorem fetchSource_without {h : Heap (Block α)} {f : List Nat} {a : Nat} (ha : a ∈ f) : (fetchSource (some a)).run (without h f) = none := by
  simp only [fetchSource, run_bind, load_without ha]

theorem St.run_none {A : Type} {s : St α} {x : CM (Block α) A} {k} (e : x.run s.heap = none) : s.run x k = .stale := by
  simp only [St.run, e]

/-- C63, finding: a photon made from a description must not outlive it: launching it after `polycap_description_free` reads freed memory. -/
theorem photon_outlives_description (s : St α) (t : ASt α) (R : Reached s t) (i j : Nat) (P : Photon α) (v : DescView α)
    (hi : t.vars[i]? = some (.photon (.ofDescr j) P)) (hj : t.vars[j]? = some (.descr v)) (es : List α) (leak : Bool) (fuel k : Nat)
    (he : (es.isEmpty || es.any energyBad) = false) :
    runAll (step fit lib sim) [.free j, .launch i es leak fuel k] s = ([.none], .stale) := by
  obtain ⟨fp, lk, R⟩ := R
  obtain ⟨w, hw, r⟩ := R.get hi
  obtain ⟨w', hw', r'⟩ := R.get hj
  cases w <;> simp only [RelVar] at r
  rename_i d P'
  obtain ⟨_, rfl, r3⟩ := r
  rw [hw'] at r3
  simp only [Option.some.injEq] at r3
  subst r3
  cases d <;> simp only [RelVar] at r'
  rename_i d
  have hd : d ∈ fp j := by
    obtain ⟨_, _, _, _, _, _, _, _, _, _, hf, _⟩ := r'
    rw [hf]; simp
  have e1 : step fit lib sim (.free j) s = .next { s with heap := without s.heap (fp j) } .none := by
    simp only [step, hw', St.run_some r'.free]
  have e2 : step fit lib sim (.launch i es leak fuel k) { s with heap := without s.heap (fp j) } = .stale := by
    simp only [step, hw, he, Bool.false_eq_true, if_false]
    rw [St.run_none (fetchDescr_without hd)]
  simp only [runAll, e1, e2]

/-- C63, finding: a photon drawn from a source must not outlive the source. -/
theorem photon_outlives_source (s : St α) (t : ASt α) (R : Reached s t) (i j : Nat) (P : Photon α) (v : SrcView α)
    (hi : t.vars[i]? = some (.photon (.ofSrc j) P)) (hj : t.vars[j]? = some (.src v)) (es : List α) (leak : Bool) (fuel k : Nat)
    (he : (es.isEmpty || es.any energyBad) = false) :
    runAll (step fit lib sim) [.free j, .launch i es leak fuel k] s = ([.none], .stale) := by
  obtain ⟨fp, lk, R⟩ := R
  obtain ⟨w, hw, r⟩ := R.get hi
  obtain ⟨w', hw', r'⟩ := R.get hj
  cases w <;> simp only [RelVar] at r
  rename_i d P'
  obtain ⟨_, rfl, q, r3, r4⟩ := r
  rw [hw'] at r3
  simp only [Option.some.injEq] at r3
  subst r3
  simp only [RelVar] at r'
  obtain ⟨d', o⟩ := r'
  obtain ⟨b, hb, hbd⟩ := r4 v hj
  have hd : d = some d' ∧ d' ∈ fp j := by
    obtain ⟨_, _, g, m1, _, _, ⟨_, _, _, _, _, _, _, _, _, _, hg, _⟩, hf, _⟩ := o
    rw [m1] at hb
    simp only [Option.some.injEq] at hb
    subst hb
    refine ⟨hbd.symm, ?_⟩
    rw [hf, hg]; simp
  obtain ⟨rfl, hd⟩ := hd
  have e1 : step fit lib sim (.free j) s = .next { s with heap := without s.heap (fp j) } .none := by
    simp only [step, hw', St.run_some o.free]
  have e2 : step fit lib sim (.launch i es leak fuel k) { s with heap := without s.heap (fp j) } = .stale := by
    simp only [step, hw, he, Bool.false_eq_true, if_false]
    rw [St.run_none (fetchDescr_without hd)]
  simp only [runAll, e1, e2]

/-- C63, finding: a result must not outlive its source: writing it after `polycap_source_free` reads freed memory. -/
theorem result_outlives_source (s : St α) (t : ASt α) (R : Reached s t) (i j : Nat) (te : TE α) (v : SrcView α)
    (hi : t.vars[i]? = some (.result j te)) (hj : t.vars[j]? = some (.src v)) :
    runAll (step fit lib sim) [.free j, .write i] s = ([.none], .stale) := by
  obtain ⟨fp, lk, R⟩ := R
  obtain ⟨w, hw, r⟩ := R.get hi
  obtain ⟨w', hw', r'⟩ := R.get hj
  cases w <;> simp only [RelVar] at r
  rename_i q te'
  obtain ⟨_, rfl, r3⟩ := r
  rw [hw'] at r3
  simp only [Option.some.injEq] at r3
  subst r3
  cases q <;> simp only [RelVar] at r'
  rename_i q
  obtain ⟨d', o⟩ := r'
  have hd : q ∈ fp j := by
    obtain ⟨_, _, g, m1, _, _, _, hf, _⟩ := o
    rw [hf]; simp
  have e1 : step fit lib sim (.free j) s = .next { s with heap := without s.heap (fp j) } .none := by
    simp only [step, hw', St.run_some o.free]
  have e2 : step fit lib sim (.write i) { s with heap := without s.heap (fp j) } = .stale := by
    simp only [step, hw]
    rw [St.run_none (fetchSource_without hd)]
  simp only [runAll, e1, e2]

/-- C63, finding: freeing an object twice is a double free, for profiles, descriptions and sources alike. -/
theorem double_free (s : St α) (t : ASt α) (R : Reached s t) (j : Nat)
    (hj : (∃ v, t.vars[j]? = some (.prof v)) ∨ (∃ v, t.vars[j]? = some (.descr v)) ∨ (∃ v, t.vars[j]? = some (.src v))) :
    runAll (step fit lib sim) [.free j, .free j] s = ([.none], .stale) := by
  obtain ⟨fp, lk, R⟩ := R
  rcases hj with ⟨v, hj⟩ | ⟨v, hj⟩ | ⟨v, hj⟩
  all_goals
    obtain ⟨w, hw, r⟩ := R.get hj
    cases w <;> simp only [RelVar] at r
    rename_i q
    cases q <;> simp only at r
    rename_i q
  · have hd : q ∈ fp j := by
      obtain ⟨_, _, _, _, _, _, _, _, _, _, hf, _⟩ := r
      rw [hf]; simp
    have e1 : step fit lib sim (.free j) s = .next { s with heap := without s.heap (fp j) } .none := by
      simp only [step, hw, St.run_some r.free]
    have e2 : step fit lib sim (.free j) { s with heap := without s.heap (fp j) } = .stale := by
      simp only [step, hw]
      rw [St.run_none (by simp [profileFree, loadProfile, run_bind, load_without hd])]
    simp only [runAll, e1, e2]
  · have hd : q ∈ fp j := by
      obtain ⟨_, _, _, _, _, _, _, _, _, _, hf, _⟩ := r
      rw [hf]; simp
    have e1 : step fit lib sim (.free j) s = .next { s with heap := without s.heap (fp j) } .none := by
      simp only [step, hw, St.run_some r.free]
    have e2 : step fit lib sim (.free j) { s with heap := without s.heap (fp j) } = .stale := by
      simp only [step, hw]
      rw [St.run_none (by simp [descriptionFree, run_bind, load_without hd])]
    simp only [runAll, e1, e2]
  · obtain ⟨d', o⟩ := r
    have hd : q ∈ fp j := by
      obtain ⟨_, _, g, m1, _, _, _, hf, _⟩ := o
      rw [hf]; simp
    have e1 : step fit lib sim (.free j) s = .next { s with heap := without s.heap (fp j) } .none := by
      simp only [step, hw, St.run_some o.free]
    have e2 : step fit lib sim (.free j) { s with heap := without s.heap (fp j) } = .stale := by
      simp only [step, hw]
      rw [St.run_none (by simp [sourceFree, run_bind, load_without hd])]
    simp only [runAll, e1, e2]

/-- C63, finding: results alias their source.  A second simulation of the same source changes the `Open_Area` that is written to the file for
the first result. -/
theorem second_simulation_changes_first_result (s : St α) (t : ASt α) (R : Reached s t) (j : Nat) (v : SrcView α)
    (hj : t.vars[j]? = some (.src v)) (mt np : Int) (leak : Bool) (te1 te2 : TE α)
    (ok : simRejects ⟨some (v.pars, some v.descr.optic), false, mt, np, leak, false⟩ = false)
    (h1 : sim t.sims ⟨some (v.pars, some v.descr.optic), false, mt, np, leak, false⟩ = some te1)
    (h2 : sim (t.sims + 1) ⟨some (v.pars, some v.descr.optic), false, mt, np, leak, false⟩ = some te2) :
    (runAll (step fit lib sim) [.simulate j mt np leak, .write t.vars.length, .simulate j mt np leak, .write t.vars.length] s).1 =
      [.made true (some none), .wrote te1 v.pars v.descr.optic te1.openArea, .made true (some none), .wrote te1 v.pars v.descr.optic te2.openArea] := by
  have hlt : j < t.vars.length := by
    by_contra hc
    rw [List.getElem?_eq_none (by omega)] at hj
    cases hj
  let v1 : SrcView α := { v with descr := { v.descr with open_area := te1.openArea } }
  let v2 : SrcView α := { v with descr := { v.descr with open_area := te2.openArea } }
  let t1 : ASt α := ⟨t.vars.set j (.src v1) ++ [.result j te1], t.sims + 1, t.refused⟩
  let t2 : ASt α := ⟨t1.vars.set j (.src v2) ++ [.result j te2], t.sims + 1 + 1, t.refused⟩
  have g1 : t1.vars[j]? = some (.src v1) := getElem?_push_old (List.getElem?_set_self hlt)
  have g2 : t1.vars[t.vars.length]? = some (.result j te1) := by
    simp only [t1]
    rw [List.getElem?_append_right (by simp)]
    simp
  have hlt1 : j < t1.vars.length := by simp [t1]; omega
  have g3 : t2.vars[j]? = some (.src v2) := getElem?_push_old (List.getElem?_set_self hlt1)
  have g4 : t2.vars[t.vars.length]? = some (.result j te1) := by
    refine getElem?_push_old ?_
    rw [List.getElem?_set_ne (by omega)]
    exact g2
  have a1 : astep fit lib sim (.simulate j mt np leak) t = .next t1 (.made true (some none)) := by
    simp only [astep, hj, ok, Bool.false_eq_true, if_false, h1]
    rfl
  have a2 : astep fit lib sim (.write t.vars.length) t1 = .next t1 (.wrote te1 v.pars v.descr.optic te1.openArea) := by
    simp only [astep, g1, g2]
    rfl
  have e1 : v1.pars = v.pars := rfl
  have e2 : v1.descr.optic = v.descr.optic := rfl
  have e3 : t1.sims = t.sims + 1 := rfl
  have a3 : astep fit lib sim (.simulate j mt np leak) t1 = .next t2 (.made true (some none)) := by
    simp only [astep, g1, e1, e2, e3, ok, Bool.false_eq_true, if_false, h2]
    rfl
  have a4 : astep fit lib sim (.write t.vars.length) t2 = .next t2 (.wrote te1 v.pars v.descr.optic te2.openArea) := by
    simp only [astep, g3, g4]
    rfl
  have hrun : runAll (astep fit lib sim) [.simulate j mt np leak, .write t.vars.length, .simulate j mt np leak, .write t.vars.length] t =
      ([.made true (some none), .wrote te1 v.pars v.descr.optic te1.openArea, .made true (some none), .wrote te1 v.pars v.descr.optic te2.openArea],
        .fine t2) := by
    simp only [runAll, a1, a2, a3, a4]
  have := (session_refines fit lib sim _ s t R (by intro os h; rw [hrun] at h; cases h)).1
  rw [this, hrun]

/-! ## A concrete history meeting the hypotheses -/

noncomputable def exPars : SrcPars ℝ := ⟨10, 1, 2, -1, -1, 0, 0, 0.5, [10, 20]⟩

/-- profile, description, source; free profile and description; simulate, write, read; free the rest -/
noncomputable def exOps : List (Op ℝ) :=
  [.newProfileFromArrays 2 [1, 0.9, 0.8] [0.1, 0.1, 0.1] [0, 1, 2], .getArray 0 .ext, .newDescription 0 5 2 [(8, 0.53), (14, 0.47)] 2.23,
   .newSource 1 exPars, .free 0, .getDescrArray 1 .ext, .free 1, .simulate 2 1 10 false, .write 3, .readResult 3, .free 3, .free 2]

theorem exSimOk (v : SrcView ℝ) (hv : v.energies = [10, 20]) :
    simRejects ⟨some (v.pars, some v.descr.optic), false, 1, 10, false, false⟩ = false := by
  simp only [simRejects, SrcView.pars, hv]
  norm_num [energyBad, gt]

noncomputable def exDescr (oa : ℝ) : DescView ℝ := ⟨5, 2, oa, 2, [8, 14], [0.53, 0.47], 2.23, (2, [0, 1, 2], [0.1, 0.1, 0.1], [1, 0.9, 0.8])⟩

theorem exStep1 (fit : Fit ℝ) (lib : Xray ℝ) (sim : Nat → SimArgs ℝ → Option (TE ℝ)) :
    astep fit lib sim (.newProfileFromArrays 2 [1, 0.9, 0.8] [0.1, 0.1, 0.1] [0, 1, 2]) (astart : ASt ℝ) =
      .next ⟨[.prof (2, [0, 1, 2], [0.1, 0.1, 0.1], [1, 0.9, 0.8])], 0, 0⟩ (.made true (some none)) := by
  simp [astep, astart, ASt.push]

theorem exStep2 (fit : Fit ℝ) (lib : Xray ℝ) (sim : Nat → SimArgs ℝ → Option (TE ℝ)) :
    ∃ oa, astep fit lib sim (.newDescription 0 5 2 [(8, 0.53), (14, 0.47)] 2.23)
      (⟨[.prof (2, [0, 1, 2], [0.1, 0.1, 0.1], [1, 0.9, 0.8])], 0, 0⟩ : ASt ℝ) =
      .next ⟨[.prof (2, [0, 1, 2], [0.1, 0.1, 0.1], [1, 0.9, 0.8]), .descr (exDescr oa)], 0, 0⟩ (.made true (some none)) := by
  have w : checkWeight (([(8, 0.53), (14, 0.47)] : List (Int × ℝ)).map (·.2)) (some none) = ([0.53, 0.47], some none) := by
    simp only [checkWeight, sumFrom, real_add, real_lit, gt, real_lt, real_beq, List.map]
    norm_num
  have dm : DescDomain (dArgs (5:ℝ) 2 [(8, 0.53), (14, 0.47)] 2.23) (([(8, 0.53), (14, 0.47)] : List (Int × ℝ)).map (·.1))
      (listProfile 2 [0, 1, 2] [0.1, 0.1, 0.1] [(1:ℝ), 0.9, 0.8]) :=
    ⟨exDomain.rough, exDomain.ncap, exDomain.nelem, exDomain.density, exDomain.z, exDomain.profile⟩
  refine ⟨openArea (([0.1, 0.1, 0.1] : List ℝ).getD 0 (lit 0)) (([1, 0.9, 0.8] : List ℝ).getD 0 (lit 0)) 2, ?_⟩
  simp only [astep, List.getElem?_cons_zero]
  rw [if_pos dm, w]
  rfl

theorem exStep3 (fit : Fit ℝ) (lib : Xray ℝ) (sim : Nat → SimArgs ℝ → Option (TE ℝ)) (oa : ℝ) (pre : AVar ℝ) :
    astep fit lib sim (.newSource 1 exPars) (⟨[pre, .descr (exDescr oa)], 0, 0⟩ : ASt ℝ) =
      .next ⟨[pre, .descr (exDescr oa), .src ⟨copyOf (exDescr oa), 10, 1, 2, -1, -1, 0, 0, 0.5, [10, 20]⟩], 0, 0⟩ (.made true (some none)) := by
  have dm : SrcDomain (sArgs exPars) (exDescr oa) exPars.energies :=
    ⟨exSrcDomain.d, exSrcDomain.x, exSrcDomain.y, exSrcDomain.pol, exSrcDomain.n, exSrcDomain.range, exSrcDomain.profile, exSrcDomain.rough,
      exSrcDomain.ncap, exSrcDomain.nelem, exSrcDomain.density, exSrcDomain.z⟩
  simp only [astep, List.getElem?_cons_succ, List.getElem?_cons_zero]
  rw [if_pos dm]
  rfl

theorem exRun (fit : Fit ℝ) (lib : Xray ℝ) (te : TE ℝ) :
    ∃ os v0 d, runAll (astep fit lib (fun _ _ => some te)) exOps astart = (os, .fine ⟨[.gone, .gone, .gone, .gone], 1, 0⟩) ∧
      os = [.made true (some none), .array 2 [1, 0.9, 0.8], .made true (some none), .made true (some none), .none, .array 2 [1, 0.9, 0.8], .none,
        .made true (some none), .wrote te v0 d te.openArea, .got te, .none, .none] := by
  obtain ⟨oa, a2⟩ := exStep2 fit lib (fun _ _ => some te)
  refine ⟨_, (⟨copyOf (exDescr oa), 10, 1, 2, -1, -1, 0, 0, 0.5, [10, 20]⟩ : SrcView ℝ).pars,
    (⟨copyOf (exDescr oa), 10, 1, 2, -1, -1, 0, 0, 0.5, [10, 20]⟩ : SrcView ℝ).descr.optic, ?_, rfl⟩
  simp only [exOps, runAll, exStep1]
  have g1 : ∀ l : List (AVar ℝ), astep fit lib (fun _ _ => some te) (.getArray 0 .ext) (⟨.prof (2, [0, 1, 2], [0.1, 0.1, 0.1], [1, 0.9, 0.8]) :: l, 0, 0⟩ : ASt ℝ) =
      .next ⟨.prof (2, [0, 1, 2], [0.1, 0.1, 0.1], [1, 0.9, 0.8]) :: l, 0, 0⟩ (.array 2 [1, 0.9, 0.8]) := fun l => rfl
  simp only [g1, a2, exStep3]
  have sm := exSimOk ⟨copyOf (exDescr oa), 10, 1, 2, -1, -1, 0, 0, 0.5, [10, 20]⟩ rfl
  simp [astep, sm, ASt.push, pick]
  exact ⟨by simp [exDescr], rfl, rfl⟩

/-- the hypotheses of `session_correct` and `session_no_leak` are met by a history that uses the source after its description and profile are gone -/
example (fit : Fit ℝ) (lib : Xray ℝ) (te : TE ℝ) :
    Legal fit lib (fun _ _ => some te) exOps astart ∧
    ∃ s, (runAll (step fit lib (fun _ _ => some te)) exOps start).2 = .fine s ∧ (∀ x, s.heap.mem x = none) ∧
      (runAll (step fit lib (fun _ _ => some te)) exOps start).1.length = 12 := by
  obtain ⟨os, v0, d, hr, ho⟩ := exRun fit lib te
  have hl : Legal fit lib (fun _ _ => some te) exOps astart := by
    intro os' h
    rw [hr] at h
    cases h
  refine ⟨hl, ?_⟩
  have sc := session_correct fit lib _ exOps hl
  rw [hr] at sc
  obtain ⟨s1, s2⟩ := sc
  generalize he : (runAll (step fit lib (fun _ _ => some te)) exOps start).2 = en at s2
  cases s2 with
  | fine R =>
  rename_i s
  refine ⟨s, rfl, ?_, ?_⟩
  · refine session_no_leak fit lib _ exOps hl s _ he (by rw [hr]) ?_ rfl
    intro a ha
    simp only [List.mem_cons, List.not_mem_nil, or_false, or_self] at ha
    subst ha
    simp
  · rw [s1, ho]
    rfl

theorem reached_after {ops : List (Op α)} {os : List (Obs α)} {t : ASt α} (h : runAll (astep fit lib sim) ops astart = (os, .fine t)) :
    ∃ s, runAll (step fit lib sim) ops start = (os, .fine s) ∧ Reached s t := by
  have sc := session_correct fit lib sim ops (by intro os' h'; rw [h] at h'; cases h')
  rw [h] at sc
  obtain ⟨s1, s2⟩ := sc
  generalize he : (runAll (step fit lib sim) ops start).2 = en at s2
  cases s2 with
  | fine R => exact ⟨_, Prod.ext s1 he, R⟩

/-- C63, finding on a complete history: make a profile, a description and a photon, free the description, launch the photon. -/
theorem photon_outlives_description_history (fit : Fit ℝ) (lib : Xray ℝ) (sim : Nat → SimArgs ℝ → Option (TE ℝ)) (fuel k : Nat) :
    (runAll (step fit lib sim) ([.newProfileFromArrays 2 [1, 0.9, 0.8] [0.1, 0.1, 0.1] [0, 1, 2], .newDescription 0 5 2 [(8, 0.53), (14, 0.47)] 2.23,
      .newPhoton 1 ⟨0, 0, 0⟩ ⟨0, 0, 1⟩ ⟨1, 0, 0⟩] ++ [.free 1, .launch 2 [10] false fuel k]) start).2 = .stale := by
  obtain ⟨oa, a2⟩ := exStep2 fit lib sim
  obtain ⟨P, hP⟩ : ∃ P, photonNew (α := ℝ) ⟨0, 0, 0⟩ ⟨0, 0, 1⟩ ⟨1, 0, 0⟩ = some P := by
    simp [photonNew]
  have hr : runAll (astep fit lib sim) [.newProfileFromArrays 2 [1, 0.9, 0.8] [0.1, 0.1, 0.1] [0, 1, 2],
      .newDescription 0 5 2 [(8, 0.53), (14, 0.47)] 2.23, .newPhoton 1 ⟨0, 0, 0⟩ ⟨0, 0, 1⟩ ⟨1, 0, 0⟩] (astart : ASt ℝ) =
      ([.made true (some none), .made true (some none), .made true (some none)], .fine ⟨[.prof (2, [0, 1, 2], [0.1, 0.1, 0.1], [1, 0.9, 0.8]), .descr (exDescr oa), .photon (.ofDescr 1) P], 0, 0⟩) := by
    simp only [runAll, exStep1, a2]
    simp [astep, hP, ASt.push]
  obtain ⟨s, e, R⟩ := reached_after fit lib sim hr
  rw [runAll_append, e]
  simp only
  rw [photon_outlives_description fit lib sim s _ R 2 1 P (exDescr oa) rfl rfl [10] false fuel k (by norm_num [energyBad, gt])]

/-- C63, finding on a complete history: a result written after its source was freed -/
theorem result_outlives_source_history (fit : Fit ℝ) (lib : Xray ℝ) (te : TE ℝ) :
    (runAll (step fit lib (fun _ _ => some te)) ([.newProfileFromArrays 2 [1, 0.9, 0.8] [0.1, 0.1, 0.1] [0, 1, 2],
      .newDescription 0 5 2 [(8, 0.53), (14, 0.47)] 2.23, .newSource 1 exPars, .simulate 2 1 10 false] ++ [.free 2, .write 3]) start).2 = .stale := by
  obtain ⟨oa, a2⟩ := exStep2 fit lib (fun _ _ => some te)
  have sm := exSimOk ⟨copyOf (exDescr oa), 10, 1, 2, -1, -1, 0, 0, 0.5, [10, 20]⟩ rfl
  have hr : ∃ os l v, runAll (astep fit lib (fun _ _ => some te)) [.newProfileFromArrays 2 [1, 0.9, 0.8] [0.1, 0.1, 0.1] [0, 1, 2],
      .newDescription 0 5 2 [(8, 0.53), (14, 0.47)] 2.23, .newSource 1 exPars, .simulate 2 1 10 false] (astart : ASt ℝ) =
      (os, .fine ⟨l, 1, 0⟩) ∧ l[2]? = some (.src v) ∧ l[3]? = some (.result 2 te) := by
    simp only [runAll, exStep1, a2, exStep3]
    simp [astep, sm, ASt.push]
  obtain ⟨os, l, v, hr, h2, h3⟩ := hr
  obtain ⟨s, e, R⟩ := reached_after fit lib _ hr
  rw [runAll_append, e]
  simp only
  rw [result_outlives_source fit lib _ s _ R 3 2 te v h3 h2]

/-- C63, finding on a complete history: two simulations of one source, the `Open_Area` of the first result changes in between -/
theorem open_area_changes_history (fit : Fit ℝ) (lib : Xray ℝ) (te1 te2 : TE ℝ) (hne : te1.openArea ≠ te2.openArea) :
    ∃ (sim : Nat → SimArgs ℝ → Option (TE ℝ)) (pre : List (Obs ℝ)) (S : Src ℝ) (D : Descr ℝ) (a b : ℝ), a ≠ b ∧
    (runAll (step fit lib sim) ([.newProfileFromArrays 2 [1, 0.9, 0.8] [0.1, 0.1, 0.1] [0, 1, 2],
      .newDescription 0 5 2 [(8, 0.53), (14, 0.47)] 2.23, .newSource 1 exPars] ++
        [.simulate 2 1 10 false, .write 3, .simulate 2 1 10 false, .write 3]) start).1 =
      pre ++ [.made true (some none), .wrote te1 S D a, .made true (some none), .wrote te1 S D b] := by
  let sim : Nat → SimArgs ℝ → Option (TE ℝ) := fun k _ => if k = 0 then some te1 else some te2
  obtain ⟨oa, a2⟩ := exStep2 fit lib sim
  have sm := exSimOk ⟨copyOf (exDescr oa), 10, 1, 2, -1, -1, 0, 0, 0.5, [10, 20]⟩ rfl
  have hr : runAll (astep fit lib sim) [.newProfileFromArrays 2 [1, 0.9, 0.8] [0.1, 0.1, 0.1] [0, 1, 2],
      .newDescription 0 5 2 [(8, 0.53), (14, 0.47)] 2.23, .newSource 1 exPars] (astart : ASt ℝ) =
      ([.made true (some none), .made true (some none), .made true (some none)], .fine ⟨[.prof (2, [0, 1, 2], [0.1, 0.1, 0.1], [1, 0.9, 0.8]), .descr (exDescr oa),
        .src ⟨copyOf (exDescr oa), 10, 1, 2, -1, -1, 0, 0, 0.5, [10, 20]⟩], 0, 0⟩) := by
    simp only [runAll, exStep1, a2, exStep3]
  obtain ⟨s, e, R⟩ := reached_after fit lib sim hr
  refine ⟨sim, [.made true (some none), .made true (some none), .made true (some none)],
    (⟨copyOf (exDescr oa), 10, 1, 2, -1, -1, 0, 0, 0.5, [10, 20]⟩ : SrcView ℝ).pars,
    (⟨copyOf (exDescr oa), 10, 1, 2, -1, -1, 0, 0, 0.5, [10, 20]⟩ : SrcView ℝ).descr.optic, te1.openArea, te2.openArea, hne, ?_⟩
  rw [runAll_append, e]
  simp only
  have := second_simulation_changes_first_result fit lib sim s _ R 2 _ rfl 1 10 false te1 te2 sm rfl rfl
  simp only [List.length_cons, List.length_nil, Nat.reduceAdd] at this
  rw [this]

end Polycap.Sess
