import Verif.Err

/-!
# C01, C02: histories of error API calls

The specification (`Spec`) of a user's error variables is a plain map from variables to
`(code, message)`; the theorem says every ownership-respecting history of API calls runs without
undefined behaviour, leaves each variable readable with exactly the contents the specification
says, and keeps no live block that is not owned by a variable.
-/
namespace Polycap.ErrApi
open CM

/-! ## Specification -/

/-- User variables are numbered. What a user sees in variable `v`: no error, or code and text. -/
abbrev Spec := Nat → Option (Code × String)

/-- User-level calls; `dst = none` passes a NULL `polycap_error**`. -/
inductive Op where
  | set (dst : Option Nat) (c : Code) (m : String)
  | setLiteral (dst : Option Nat) (c : Code) (m : String)
  | propagate (dst : Option Nat) (src : Nat)
  | clear (dst : Option Nat)
  | new (dst : Nat) (c : Code) (m : String)
  | copy (dst src : Nat)
  | free (v : Nat)

def Spec.put (s : Spec) (v : Nat) (x : Option (Code × String)) : Spec :=
  fun w => if w = v then x else s w

/-- The intended meaning: an occupied variable keeps its (first) error. -/
def Spec.step (s : Spec) : Op → Spec
  | .set none _ _ => s
  | .set (some v) c m => if s v = none then s.put v (some (c, m)) else s
  | .setLiteral none _ _ => s
  | .setLiteral (some v) c m => if s v = none then s.put v (some (c, m)) else s
  | .propagate none w => s.put w none
  | .propagate (some v) w =>
      if s w = none then s
      else if s v = none then (s.put w none).put v (s w)
      else s.put w none
  | .clear none => s
  | .clear (some v) => s.put v none
  | .new v c m => s.put v (some (c, m))
  | .copy v w => s.put v (s w)
  | .free v => s.put v none

/-- Ownership discipline expected from the caller: results of `new`/`copy` go into an empty
variable, an error is not propagated into itself. -/
def OpOk (s : Spec) : Op → Prop
  | .new v _ _ => s v = none
  | .copy v _ => s v = none
  | .propagate (some v) w => v ≠ w
  | _ => True

def HistOk : Spec → List Op → Prop
  | _, [] => True
  | s, op :: ops => OpOk s op ∧ HistOk (s.step op) ops

/-! ## Running a history on the model -/

abbrev Env := Nat → Ptr
def Env.put (e : Env) (v : Nat) (p : Ptr) : Env := fun w => if w = v then p else e w

/-- the `polycap_error**` passed for variable `dst` -/
def slotOf (e : Env) (dst : Option Nat) : Slot := dst.map e
/-- the caller's variables after the callee assigned through the slot -/
def writeBack (e : Env) (dst : Option Nat) (s : Slot) : Env :=
  match dst, s with
  | some v, some p => e.put v p
  | _, _ => e

/-- One call made by a caller which sets its own variable to NULL after giving an object away
(`propagate`, `free`). -/
def runOp (e : Env) : Op → CM EBlock Env
  | .set dst c m => do pure (writeBack e dst (← setError (slotOf e dst) c (some m)))
  | .setLiteral dst c m => do pure (writeBack e dst (← setErrorLiteral (slotOf e dst) c (some m)))
  | .propagate dst w => do
      let s ← propagateError (slotOf e dst) (e w)
      pure ((writeBack e dst s).put w none)
  | .clear dst => do pure (writeBack e dst (← clearError (slotOf e dst)))
  | .new v c m => do pure (e.put v (← errorNew c (some m)))
  | .copy v w => do pure (e.put v (← errorCopy (e w)))
  | .free v => do errorFree (e v); pure (e.put v none)

def runHist (e : Env) : List Op → CM EBlock Env
  | [] => pure e
  | op :: ops => do
      let e' ← runOp e op
      runHist e' ops

/-- What the user reads through a variable: outer `none` = undefined behaviour. -/
def readVar (h : Heap EBlock) (p : Ptr) : Option (Option (Code × String)) :=
  match p with
  | none => some none
  | some a =>
    match h.mem a with
    | some (.err c (some b)) =>
      match h.mem b with
      | some (.str s) => some (some (c, s))
      | _ => none
    | _ => none

/-- block `x` belongs to the error object held by pointer `p` -/
def Owns (h : Heap EBlock) (p : Ptr) (x : Nat) : Prop :=
  ∃ a, p = some a ∧ (x = a ∨ ∃ c b, h.mem a = some (.err c (some b)) ∧ x = b)

/-! ## Helper invariant -/

/-- ghost ownership: struct address, text address, code, text -/
abbrev Own := Option Nat → Option (Nat × Nat × Code × String)

def Own.put (o : Own) (i : Option Nat) (x : Option (Nat × Nat × Code × String)) : Own :=
  fun j => if j = i then x else o j

structure Inv (h : Heap EBlock) (o : Own) : Prop where
  blk : ∀ i a b c m, o i = some (a, b, c, m) →
    h.mem a = some (.err c (some b)) ∧ h.mem b = some (.str m)
  sep : ∀ i j a b c m a' b' c' m', o i = some (a, b, c, m) → o j = some (a', b', c', m') → i ≠ j →
    a ≠ a' ∧ b ≠ b'
  cover : ∀ x, h.mem x ≠ none → ∃ i a b c m, o i = some (a, b, c, m) ∧ (x = a ∨ x = b)
  wf : h.WF
  orc : ∀ n, h.orc n = true

theorem Inv.lt {h o} (I : Inv h o) {i a b c m} (e : o i = some (a, b, c, m)) :
    a < h.next ∧ b < h.next := by
  obtain ⟨h1, h2⟩ := I.blk _ _ _ _ _ e
  constructor
  · by_contra hc; rw [I.wf a (by omega)] at h1; cases h1
  · by_contra hc; rw [I.wf b (by omega)] at h2; cases h2

theorem inv_new {h o} (I : Inv h o) (t : Option Nat) (ht : o t = none) (c : Code) (m : String) :
    ∃ h', (errorNew c (some m)).run h = some (some h.next, h') ∧
      Inv h' (o.put t (some (h.next, h.next + 1, c, m))) := by
  refine ⟨{ h with mem := upd (upd h.mem h.next (some (.err c (some (h.next+1))))) (h.next+1) (some (.str m)), next := h.next + 2 }, ?_, ?_⟩
  · simp only [errorNew]
    simp only [run_bind, run_malloc, run_store, I.orc, if_true, upd_same, run_pure]
    simp only [upd, Nat.left_eq_add, Nat.one_ne_zero, if_false, if_true, Option.some.injEq, Prod.mk.injEq, true_and]
    congr 1
    funext x
    by_cases h1 : x = h.next <;> by_cases h2 : x = h.next + 1 <;> simp [h1, h2, upd]
  · have hlt := @Inv.lt _ _ I
    constructor
    · intro i a b c' m' e
      by_cases hi : i = t
      · simp [Own.put, hi] at e
        obtain ⟨rfl, rfl, rfl, rfl⟩ := e
        simp [upd]
      · simp [Own.put, hi] at e
        obtain ⟨l1, l2⟩ := hlt e
        obtain ⟨b1, b2⟩ := I.blk _ _ _ _ _ e
        constructor
        · simp only [upd]; rw [if_neg (by omega), if_neg (by omega), b1]
        · simp only [upd]; rw [if_neg (by omega), if_neg (by omega), b2]
    · intro i j a b c1 m1 a' b' c' m' e e' hij
      by_cases hi : i = t <;> by_cases hj : j = t
      · exact absurd (hi.trans hj.symm) hij
      · simp [Own.put, hi] at e
        simp [Own.put, hj] at e'
        obtain ⟨l1, l2⟩ := hlt e'
        omega
      · simp [Own.put, hi] at e
        simp [Own.put, hj] at e'
        obtain ⟨l1, l2⟩ := hlt e
        omega
      · simp [Own.put, hi] at e
        simp [Own.put, hj] at e'
        exact I.sep _ _ _ _ _ _ _ _ _ _ e e' hij
    · intro x hx
      simp only [upd] at hx
      by_cases h1 : x = h.next + 1
      · exact ⟨t, h.next, h.next + 1, c, m, by simp [Own.put], Or.inr h1⟩
      · by_cases h2 : x = h.next
        · exact ⟨t, h.next, h.next + 1, c, m, by simp [Own.put], Or.inl h2⟩
        · rw [if_neg h1, if_neg h2] at hx
          obtain ⟨i, a, b, c', m', e, hh⟩ := I.cover x hx
          refine ⟨i, a, b, c', m', ?_, hh⟩
          have : i ≠ t := by rintro rfl; rw [ht] at e; cases e
          simp [Own.put, this, e]
    · intro a ha
      simp only [upd]
      rw [if_neg (by simp at ha; omega), if_neg (by simp at ha; omega)]
      exact I.wf a (by simp at ha; omega)
    · exact I.orc

theorem inv_free {h o} (I : Inv h o) {t a b c m} (e : o t = some (a, b, c, m)) :
    ∃ h', (errorFree (some a)).run h = some ((), h') ∧ Inv h' (o.put t none) := by
  obtain ⟨b1, b2⟩ := I.blk _ _ _ _ _ e
  have hab : a ≠ b := by rintro rfl; rw [b1] at b2; cases b2
  refine ⟨{ h with mem := upd (upd h.mem b none) a none }, ?_, ?_⟩
  · simp only [errorFree, loadErr]
    rw [run_bind_some (a := (c, some b)) (h' := h)]
    · simp only
      rw [run_bind_some (run_free_ok b2)]
      rw [run_free_ok (b := .err c (some b)) (by simp [upd, hab, b1])]
    · rw [run_bind_some (by rw [run_load, b1])]; rfl
  · constructor
    · intro i a' b' c' m' e'
      by_cases hi : i = t
      · simp [Own.put, hi] at e'
      · simp [Own.put, hi] at e'
        obtain ⟨s1, s2⟩ := I.sep _ _ _ _ _ _ _ _ _ _ e' e hi
        obtain ⟨c1, c2⟩ := I.blk _ _ _ _ _ e'
        have x1 : a' ≠ b := by rintro rfl; rw [c1] at b2; cases b2
        have x2 : b' ≠ a := by rintro rfl; rw [b1] at c2; cases c2
        simp [upd, s1, s2, x1, x2, c1, c2]
    · intro i j a1 b1' c1 m1 a' b' c' m' e1 e' hij
      by_cases hi : i = t
      · simp [Own.put, hi] at e1
      by_cases hj : j = t
      · simp [Own.put, hj] at e'
      simp [Own.put, hi] at e1
      simp [Own.put, hj] at e'
      exact I.sep _ _ _ _ _ _ _ _ _ _ e1 e' hij
    · intro x hx
      simp only [upd] at hx
      by_cases h1 : x = a
      · simp [h1] at hx
      by_cases h2 : x = b
      · simp [h2] at hx
      rw [if_neg h1, if_neg h2] at hx
      obtain ⟨i, a', b', c', m', e', hh⟩ := I.cover x hx
      refine ⟨i, a', b', c', m', ?_, hh⟩
      have : i ≠ t := by
        rintro rfl; rw [e] at e'; simp at e'
        obtain ⟨rfl, rfl, _⟩ := e'
        tauto
      simp [Own.put, this, e']
    · intro x hx
      simp only [upd]
      split
      · rfl
      split
      · rfl
      exact I.wf x hx
    · exact I.orc

theorem inv_move {h o} (I : Inv h o) {v w x} (hv : o v = none) (hw : o w = some x) :
    Inv h ((o.put w none).put v (some x)) := by
  have hvw : v ≠ w := by rintro rfl; rw [hv] at hw; cases hw
  -- the permuted index
  have key : ∀ i y, ((o.put w none).put v (some x)) i = some y →
      (i = v ∧ o w = some y) ∨ (i ≠ v ∧ i ≠ w ∧ o i = some y) := by
    intro i y e
    by_cases h1 : i = v
    · simp [Own.put, h1] at e; exact Or.inl ⟨h1, by rw [hw, e]⟩
    · by_cases h2 : i = w
      · subst h2; simp [Own.put, h1] at e
      · simp [Own.put, h1, h2] at e; exact Or.inr ⟨h1, h2, e⟩
  constructor
  · intro i a b c m e
    rcases key _ _ e with ⟨_, e'⟩ | ⟨_, _, e'⟩ <;> exact I.blk _ _ _ _ _ e'
  · intro i j a b c m a' b' c' m' e e' hij
    rcases key _ _ e with ⟨p1, q1⟩ | ⟨p1, p1', q1⟩ <;>
    rcases key _ _ e' with ⟨p2, q2⟩ | ⟨p2, p2', q2⟩
    · exact absurd (p1.trans p2.symm) hij
    · exact I.sep _ _ _ _ _ _ _ _ _ _ q1 q2 (Ne.symm p2')
    · exact I.sep _ _ _ _ _ _ _ _ _ _ q1 q2 p1'
    · exact I.sep _ _ _ _ _ _ _ _ _ _ q1 q2 hij
  · intro y hy
    obtain ⟨i, a, b, c, m, e, hh⟩ := I.cover y hy
    by_cases hi : i = w
    · subst hi
      refine ⟨v, a, b, c, m, ?_, hh⟩
      rw [hw] at e
      simp [Own.put, e]
    · refine ⟨i, a, b, c, m, ?_, hh⟩
      have : i ≠ v := by rintro rfl; rw [hv] at e; cases e
      simp [Own.put, hi, this, e]
  · exact I.wf
  · exact I.orc

theorem inv_copy {h o} (I : Inv h o) {w a b c m} (e : o w = some (a, b, c, m))
    (t : Option Nat) (ht : o t = none) :
    ∃ h', (errorCopy (some a)).run h = some (some h.next, h') ∧
      Inv h' (o.put t (some (h.next, h.next + 1, c, m))) := by
  obtain ⟨h', hn, I'⟩ := inv_new I t ht c m
  refine ⟨h', ?_, I'⟩
  obtain ⟨b1, b2⟩ := I.blk _ _ _ _ _ e
  obtain ⟨l1, l2⟩ := I.lt e
  -- errorNew and errorCopy produce the same heap
  have hnew : (errorNew c (some m)).run h = some (some h.next,
      { h with mem := upd (upd h.mem h.next (some (.err c (some (h.next+1))))) (h.next+1) (some (.str m)), next := h.next + 2 }) := by
    simp only [errorNew]
    simp only [run_bind, run_malloc, run_store, I.orc, if_true, upd_same, run_pure]
    simp only [upd, Nat.left_eq_add, Nat.one_ne_zero, if_false, if_true, Option.some.injEq, Prod.mk.injEq, true_and]
    congr 1
    funext x
    by_cases h1 : x = h.next <;> by_cases h2 : x = h.next + 1 <;> simp [h1, h2, upd]
  rw [hnew] at hn
  have hh : h' = _ := (Prod.mk.injEq _ _ _ _ ▸ Option.some.inj hn.symm : _ ∧ _).2
  simp only [errorCopy, loadErr]
  have n1 : a ≠ h.next := by omega
  have n2 : b ≠ h.next := by omega
  simp only [run_bind, run_malloc, run_store, run_load, I.orc, if_true, upd_same, run_pure,
    upd_other _ _ n1, upd_other _ _ n2, b1, b2]
  rw [hh]
  simp only [upd, Nat.left_eq_add, Nat.one_ne_zero, if_false, if_true, Option.some.injEq, Prod.mk.injEq, true_and]
  congr 1
  funext x
  by_cases h1 : x = h.next <;> by_cases h2 : x = h.next + 1 <;> simp [h1, h2, upd]

/-- relation between caller variables, ghost ownership and specification -/
structure Rel (e : Env) (o : Own) (s : Spec) : Prop where
  tmp : o none = none
  env : ∀ v, e v = (o (some v)).map (·.1)
  spec : ∀ v, s v = (o (some v)).map (fun x => (x.2.2.1, x.2.2.2))

theorem Rel.empty {e o s} (R : Rel e o s) {v} (h : s v = none) : o (some v) = none := by
  have := R.spec v; rw [h] at this
  cases ho : o (some v) with
  | none => rfl
  | some x => rw [ho] at this; cases this

theorem Rel.full {e o s} (R : Rel e o s) {v} (h : s v ≠ none) :
    ∃ a b c m, o (some v) = some (a, b, c, m) ∧ e v = some a ∧ s v = some (c, m) := by
  cases ho : o (some v) with
  | none => have := R.spec v; rw [ho] at this; exact absurd this h
  | some x =>
    obtain ⟨a, b, c, m⟩ := x
    exact ⟨a, b, c, m, rfl, by simp [R.env, ho], by simp [R.spec, ho]⟩

theorem Rel.put {e o s} (R : Rel e o s) (v : Nat) (x : Option (Nat × Nat × Code × String)) :
    Rel (e.put v (x.map (·.1))) (o.put (some v) x) (s.put v (x.map (fun x => (x.2.2.1, x.2.2.2)))) := by
  constructor
  · simp [Own.put, R.tmp]
  · intro w; by_cases h : w = v <;> simp [Env.put, Own.put, h, R.env]
  · intro w; by_cases h : w = v <;> simp [Spec.put, Own.put, h, R.spec]

theorem own_put_none_id (o : Own) (i) (h : o i = none) (x) : (o.put i x).put i none = o := by
  funext j; by_cases hj : j = i <;> simp [Own.put, hj, h]

theorem env_put_id (e : Env) (v : Nat) : e.put v (e v) = e := by
  funext w; by_cases h : w = v <;> simp [Env.put, h]

theorem spec_put_id (s : Spec) (v : Nat) : s.put v (s v) = s := by
  funext w; by_cases h : w = v <;> simp [Spec.put, h]

theorem step_sound {e o s h} (R : Rel e o s) (I : Inv h o) (op : Op) (ok : OpOk s op) :
    ∃ e' h' o', (runOp e op).run h = some (e', h') ∧ Rel e' o' (s.step op) ∧ Inv h' o' := by
  have setcase : ∀ (lit : Bool) (dst : Option Nat) (c : Code) (m : String),
      ∃ e' h' o', (do pure (writeBack e dst (← (if lit then setErrorLiteral else setError) (slotOf e dst) c (some m)))   : CM EBlock Env).run h = some (e', h') ∧
        Rel e' o' (s.step (.set dst c m)) ∧ Inv h' o' := by
    intro lit dst c m
    cases dst with
    | none =>
      refine ⟨e, h, o, ?_, R, I⟩
      cases lit <;> simp [slotOf, setError, setErrorLiteral, run_bind, writeBack]
    | some v =>
      by_cases hv : s v = none
      · have ho := R.empty hv
        have he : e v = none := by rw [R.env, ho]; rfl
        obtain ⟨h', hn, I'⟩ := inv_new I (some v) ho c m
        refine ⟨e.put v (some h.next), h', _, ?_, ?_, I'⟩
        · cases lit <;> simp [slotOf, setError, setErrorLiteral, run_bind, he, hn, writeBack]
        · have := R.put v (some (h.next, h.next + 1, c, m))
          simpa [Spec.step, hv] using this
      · obtain ⟨a, b, c', m', ho, he, hs⟩ := R.full hv
        cases lit with
        | true =>
          refine ⟨e, h, o, ?_, by simpa [Spec.step, hv] using R, I⟩
          simp [slotOf, setErrorLiteral, run_bind, he, writeBack]
          rw [← he, env_put_id]
        | false =>
          obtain ⟨h', hn, I'⟩ := inv_new I none R.tmp c m
          obtain ⟨h'', hf, I''⟩ := inv_free I' (t := none) (a := h.next) (b := h.next+1) (c := c) (m := m) (by simp [Own.put])
          rw [own_put_none_id _ _ R.tmp] at I''
          refine ⟨e, h'', o, ?_, by simpa [Spec.step, hv] using R, I''⟩
          have b1 := (I'.blk none h.next (h.next+1) c m (by simp [Own.put])).1
          simp only [slotOf, setError, he, Option.map_some, Bool.false_eq_true, if_false]
          rw [run_bind_some (a := some (some a)) (h' := h'')]
          · simp only [run_pure, writeBack]; rw [← he, env_put_id]
          · rw [run_bind_some hn]
            rw [run_bind_some (a := (c, some (h.next + 1))) (h' := h')]
            · rw [run_bind_some hf]; rfl
            · simp only [loadErr]; rw [run_bind_some (by rw [run_load, b1])]; rfl
  cases op with
  | set dst c m => exact setcase false dst c m
  | setLiteral dst c m =>
    have := setcase true dst c m
    obtain ⟨e', h', o', h1, h2, h3⟩ := this
    exact ⟨e', h', o', h1, by cases dst <;> exact h2, h3⟩
  | propagate dst w =>
    by_cases hw : s w = none
    · have ho := R.empty hw
      have he : e w = none := by rw [R.env, ho]; rfl
      refine ⟨e, h, o, ?_, ?_, I⟩
      · simp only [runOp, propagateError, he, run_bind, run_pure]
        have : writeBack e dst (slotOf e dst) = e := by
          cases dst <;> simp [writeBack, slotOf, env_put_id]
        rw [this, ← he, env_put_id]
      · cases dst with
        | none =>
          have : s.put w none = s := by rw [← hw, spec_put_id]
          simpa [Spec.step, this] using R
        | some v => simpa [Spec.step, hw] using R
    · obtain ⟨a, b, c, m, ho, he, hs⟩ := R.full hw
      obtain ⟨h', hf, I'⟩ := inv_free I ho
      have R' : Rel (e.put w none) (o.put (some w) none) (s.put w none) := R.put w none
      cases dst with
      | none =>
        refine ⟨e.put w none, h', _, ?_, R', I'⟩
        simp [runOp, slotOf, propagateError, he, run_bind, hf, writeBack]
      | some v =>
        have hvw : v ≠ w := ok
        by_cases hv : s v = none
        · have hov := R.empty hv
          have hev : e v = none := by rw [R.env, hov]; rfl
          refine ⟨(e.put v (some a)).put w none, h, _, ?_, ?_, inv_move I hov ho⟩
          · simp [runOp, slotOf, propagateError, he, hev, run_bind, writeBack]
          · have R2 := R'.put v (some (a, b, c, m))
            have e1 : (e.put v (some a)).put w none = (e.put w none).put v (some a) := by
              funext x
              by_cases h1 : x = w
              · have h2 : x ≠ v := fun h2 => hvw (h2.symm.trans h1)
                simp [Env.put, h1, Ne.symm hvw]
              · simp [Env.put, h1]
            rw [e1]
            simpa [Spec.step, hw, hv, hs] using R2
        · obtain ⟨a', b', c', m', hov, hev, hsv⟩ := R.full hv
          refine ⟨e.put w none, h', _, ?_, by simpa [Spec.step, hw, hv] using R', I'⟩
          have b1 := (I.blk _ _ _ _ _ ho).1
          simp only [runOp, slotOf, propagateError, he, hev, Option.map_some]
          rw [run_bind_some (a := some (some a')) (h' := h')]
          · simp only [run_pure, writeBack]; rw [← hev, env_put_id]
          · rw [run_bind_some (a := (c, some b)) (h' := h)]
            · rw [run_bind_some hf]; rfl
            · simp only [loadErr]; rw [run_bind_some (by rw [run_load, b1])]; rfl
  | clear dst =>
    cases dst with
    | none => exact ⟨e, h, o, by simp [runOp, slotOf, clearError, run_bind, writeBack], R, I⟩
    | some v =>
      by_cases hv : s v = none
      · have hov := R.empty hv
        have hev : e v = none := by rw [R.env, hov]; rfl
        refine ⟨e, h, o, ?_, ?_, I⟩
        · simp only [runOp, slotOf, clearError, hev, Option.map_some, run_bind, run_pure, writeBack]
          rw [← hev, env_put_id]
        · have : s.put v none = s := by rw [← hv, spec_put_id]
          simpa [Spec.step, this] using R
      · obtain ⟨a, b, c, m, ho, he, hs⟩ := R.full hv
        obtain ⟨h', hf, I'⟩ := inv_free I ho
        refine ⟨e.put v none, h', _, ?_, R.put v none, I'⟩
        simp [runOp, slotOf, clearError, he, run_bind, hf, writeBack]
  | new v c m =>
    have ho := R.empty ok
    obtain ⟨h', hn, I'⟩ := inv_new I (some v) ho c m
    refine ⟨e.put v (some h.next), h', _, ?_, R.put v (some (h.next, h.next+1, c, m)), I'⟩
    simp [runOp, run_bind, hn]
  | copy v w =>
    have ho := R.empty ok
    by_cases hw : s w = none
    · have how := R.empty hw
      have hew : e w = none := by rw [R.env, how]; rfl
      have hev : e v = none := by rw [R.env, ho]; rfl
      refine ⟨e, h, o, ?_, ?_, I⟩
      · simp only [runOp, errorCopy, hew, run_bind, run_pure]
        rw [← hev, env_put_id]
      · have : s.put v (s w) = s := by
          rw [hw]; have hsv : s v = none := ok
          rw [← hsv, spec_put_id]
        simpa [Spec.step, this] using R
    · obtain ⟨a, b, c, m, how, he, hs⟩ := R.full hw
      obtain ⟨h', hn, I'⟩ := inv_copy I how (some v) ho
      refine ⟨e.put v (some h.next), h', _, ?_, ?_, I'⟩
      · simp [runOp, run_bind, he, hn]
      · have := R.put v (some (h.next, h.next+1, c, m))
        simpa [Spec.step, hs] using this
  | free v =>
    by_cases hv : s v = none
    · have hov := R.empty hv
      have hev : e v = none := by rw [R.env, hov]; rfl
      refine ⟨e, h, o, ?_, ?_, I⟩
      · simp only [runOp, errorFree, hev, run_bind, run_pure]
        rw [← hev, env_put_id]
      · have : s.put v none = s := by rw [← hv, spec_put_id]
        simpa [Spec.step, this] using R
    · obtain ⟨a, b, c, m, ho, he, hs⟩ := R.full hv
      obtain ⟨h', hf, I'⟩ := inv_free I ho
      refine ⟨e.put v none, h', _, ?_, R.put v none, I'⟩
      simp [runOp, he, run_bind, hf]

theorem hist_sound : ∀ (ops : List Op) {e o s h}, Rel e o s → Inv h o → HistOk s ops →
    ∃ e' h' o', (runHist e ops).run h = some (e', h') ∧ Rel e' o' (ops.foldl Spec.step s) ∧ Inv h' o'
  | [], e, o, s, h, R, I, _ => ⟨e, h, o, rfl, R, I⟩
  | op :: ops, e, o, s, h, R, I, ok => by
    obtain ⟨e1, h1, o1, r1, R1, I1⟩ := step_sound R I op ok.1
    obtain ⟨e2, h2, o2, r2, R2, I2⟩ := hist_sound ops R1 I1 ok.2
    refine ⟨e2, h2, o2, ?_, R2, I2⟩
    simp only [runHist]
    rw [run_bind_some r1, r2]

/-! ## The property theorems -/

/-- Empty heap in which every allocation succeeds. -/
def heap0 : Heap EBlock := { mem := fun _ => none, next := 0, orc := fun _ => true }
def env0 : Env := fun _ => none
def spec0 : Spec := fun _ => none

/-- **C01 + C02.**  After every ownership-respecting history of error API calls (any length, any
variables, NULL destinations included), there was no undefined behaviour (so in particular no
double free), the user reads in every variable exactly what the specification says, two variables
never share a block, and every live block belongs to some variable (nothing leaked). -/
theorem error_history_correct (ops : List Op) (ok : HistOk spec0 ops) :
    ∃ e h, (runHist env0 ops).run heap0 = some (e, h) ∧
      (∀ v, readVar h (e v) = some ((ops.foldl Spec.step spec0) v)) ∧
      (∀ x, h.mem x ≠ none → ∃ v, Owns h (e v) x) ∧
      (∀ v w x, Owns h (e v) x → Owns h (e w) x → v = w) := by
  have R0 : Rel env0 (fun _ => none) spec0 := ⟨rfl, fun _ => rfl, fun _ => rfl⟩
  have I0 : Inv heap0 (fun _ => none) := by
    constructor
    · intro i a b c m e; cases e
    · intro i j a b c m a' b' c' m' e; cases e
    · intro x hx; exact absurd rfl hx
    · intro a _; rfl
    · intro n; rfl
  obtain ⟨e, h, o, r, R, I⟩ := hist_sound ops R0 I0 ok
  have owns_iff : ∀ v x, Owns h (e v) x → ∃ a b c m, o (some v) = some (a, b, c, m) ∧ (x = a ∨ x = b) := by
    rintro v x ⟨a, ha, hx⟩
    rw [R.env] at ha
    cases ho : o (some v) with
    | none => rw [ho] at ha; cases ha
    | some y =>
      obtain ⟨a', b', c', m'⟩ := y
      rw [ho] at ha; simp at ha; subst ha
      refine ⟨a', b', c', m', rfl, ?_⟩
      rcases hx with rfl | ⟨c, b, hm, rfl⟩
      · exact Or.inl rfl
      · rw [(I.blk _ _ _ _ _ ho).1] at hm
        simp at hm; exact Or.inr hm.2.symm
  refine ⟨e, h, r, ?_, ?_, ?_⟩
  · intro v
    rw [R.env, R.spec]
    cases ho : o (some v) with
    | none => rfl
    | some y =>
      obtain ⟨a, b, c, m⟩ := y
      obtain ⟨b1, b2⟩ := I.blk _ _ _ _ _ ho
      simp [readVar, b1, b2]
  · intro x hx
    obtain ⟨i, a, b, c, m, ho, hx'⟩ := I.cover x hx
    cases i with
    | none => rw [R.tmp] at ho; cases ho
    | some v =>
      refine ⟨v, a, by simp [R.env, ho], ?_⟩
      rcases hx' with rfl | rfl
      · exact Or.inl rfl
      · exact Or.inr ⟨c, x, (I.blk _ _ _ _ _ ho).1, rfl⟩
  · intro v w x h1 h2
    obtain ⟨a, b, c, m, ho, hx⟩ := owns_iff v x h1
    obtain ⟨a', b', c', m', ho', hx'⟩ := owns_iff w x h2
    by_contra hvw
    obtain ⟨s1, s2⟩ := I.sep _ _ _ _ _ _ _ _ _ _ ho ho' (by simpa using hvw)
    obtain ⟨p1, p2⟩ := I.blk _ _ _ _ _ ho
    obtain ⟨q1, q2⟩ := I.blk _ _ _ _ _ ho'
    rcases hx with rfl | rfl <;> rcases hx' with rfl | rfl
    · exact s1 rfl
    · rw [p1] at q2; cases q2
    · rw [p2] at q1; cases q1
    · exact s2 rfl

/-- a call through which variable `v` could lose its error: clearing, freeing or giving it away -/
def Op.releases (v : Nat) : Op → Prop
  | .clear (some w) => w = v
  | .free w => w = v
  | .propagate _ w => w = v
  | .new w _ _ => w = v
  | .copy w _ => w = v
  | _ => False

theorem spec_keeps (v : Nat) (x : Code × String) : ∀ (ops : List Op) (s : Spec), s v = some x →
    (∀ op ∈ ops, ¬ op.releases v) → (ops.foldl Spec.step s) v = some x
  | [], s, h, _ => h
  | op :: ops, s, h, hr => by
    refine spec_keeps v x ops (s.step op) ?_ (fun o ho => hr o (List.mem_cons_of_mem _ ho))
    have hn := hr op (List.mem_cons_self ..)
    cases op with
    | set dst c m =>
      cases dst with
      | none => exact h
      | some w =>
        simp only [Spec.step]; split
        · rename_i hw
          have : v ≠ w := by rintro rfl; rw [h] at hw; cases hw
          simp [Spec.put, this, h]
        · exact h
    | setLiteral dst c m =>
      cases dst with
      | none => exact h
      | some w =>
        simp only [Spec.step]; split
        · rename_i hw
          have : v ≠ w := by rintro rfl; rw [h] at hw; cases hw
          simp [Spec.put, this, h]
        · exact h
    | propagate dst w =>
      have hvw : v ≠ w := fun hh => hn hh.symm
      cases dst with
      | none => simp [Spec.step, Spec.put, hvw, h]
      | some u =>
        simp only [Spec.step]; split
        · exact h
        split
        · rename_i hu
          have : v ≠ u := by rintro rfl; rw [h] at hu; cases hu
          simp [Spec.put, this, hvw, h]
        · simp [Spec.put, hvw, h]
    | clear dst =>
      cases dst with
      | none => exact h
      | some w =>
        have hvw : v ≠ w := fun hh => hn hh.symm
        simp [Spec.step, Spec.put, hvw, h]
    | new w c m =>
      have hvw : v ≠ w := fun hh => hn hh.symm
      simp [Spec.step, Spec.put, hvw, h]
    | copy w u =>
      have hvw : v ≠ w := fun hh => hn hh.symm
      simp [Spec.step, Spec.put, hvw, h]
    | free w =>
      have hvw : v ≠ w := fun hh => hn hh.symm
      simp [Spec.step, Spec.put, hvw, h]

theorem histOk_append : ∀ (a b : List Op) (s : Spec),
    HistOk s (a ++ b) ↔ HistOk s a ∧ HistOk (a.foldl Spec.step s) b
  | [], b, s => by simp [HistOk]
  | op :: a, b, s => by simp [HistOk, histOk_append a b, and_assoc]

/-- **C01.**  The first error reported into an empty variable is what the user reads after any
further history in which the user does not himself clear, free or give away that variable — even if
other calls report into it again. -/
theorem first_error_kept (pre post : List Op) (lit : Bool) (v : Nat) (c : Code) (m : String)
    (ok : HistOk spec0 (pre ++ (if lit then Op.setLiteral (some v) c m else Op.set (some v) c m) :: post))
    (hempty : (pre.foldl Spec.step spec0) v = none)
    (hpost : ∀ op ∈ post, ¬ op.releases v) :
    ∃ e h, (runHist env0 (pre ++ (if lit then Op.setLiteral (some v) c m else Op.set (some v) c m) :: post)).run heap0
        = some (e, h) ∧ readVar h (e v) = some (some (c, m)) := by
  obtain ⟨e, h, r, rd, _, _⟩ := error_history_correct _ ok
  refine ⟨e, h, r, ?_⟩
  rw [rd v, List.foldl_append, List.foldl_cons]
  congr 1
  refine spec_keeps v (c, m) post _ ?_ hpost
  cases lit <;> simp [Spec.step, hempty, Spec.put]

/-- **C01.**  Passing a NULL `polycap_error**` is always accepted and changes nothing. -/
theorem null_slot_no_effect (h : Heap EBlock) (c : Code) (t : Option String) :
    (setError none c t).run h = some (none, h) ∧ (setErrorLiteral none c t).run h = some (none, h) ∧
    (clearError none).run h = some (none, h) := ⟨rfl, rfl, rfl⟩

/-- **C02.** If in the end all variables are empty, every block has been freed. -/
theorem error_no_leak (ops : List Op) (ok : HistOk spec0 ops)
    (hend : ∀ v, (ops.foldl Spec.step spec0) v = none) :
    ∃ e h, (runHist env0 ops).run heap0 = some (e, h) ∧ ∀ x, h.mem x = none := by
  obtain ⟨e, h, r, rd, cov, _⟩ := error_history_correct ops ok
  refine ⟨e, h, r, fun x => ?_⟩
  by_contra hx
  obtain ⟨v, a, ha, _⟩ := cov x hx
  have := rd v
  rw [hend v, ha] at this
  simp only [readVar] at this
  split at this
  · split at this <;> simp at this
  · simp at this

/-- `polycap_error_matches` reports exactly the code stored in the object (never true on NULL). -/
theorem error_matches_iff (h : Heap EBlock) (p : Ptr) (c : Code) (x : Option (Code × String))
    (hr : readVar h p = some x) :
    (errorMatches p c).run h = some (decide (x.map (·.1) = some c), h) := by
  cases p with
  | none => simp [readVar] at hr; subst hr; simp [errorMatches]
  | some a =>
    simp only [readVar] at hr
    split at hr
    · rename_i c' b hm
      split at hr
      · rename_i s hs
        simp at hr; subst hr
        simp only [errorMatches, loadErr]
        rw [run_bind_some (a := (c', some b)) (h' := h)]
        · simp only [run_pure, Option.some.injEq, Prod.mk.injEq, and_true]
          by_cases hc : c' = c <;> simp [hc]
        · rw [run_bind_some (by rw [run_load, hm])]; rfl
      · cases hr
    · cases hr

/-- **C47.**  `polycap_error_free` accepts NULL and releases exactly the two blocks of an error. -/
theorem error_free_correct (h : Heap EBlock) :
    (errorFree none).run h = some ((), h) ∧
    ∀ a b c m, h.mem a = some (.err c (some b)) → h.mem b = some (.str m) →
      (errorFree (some a)).run h = some ((), { h with mem := fun x => if x = a ∨ x = b then none else h.mem x }) := by
  refine ⟨rfl, fun a b c m ha hb => ?_⟩
  have hne : a ≠ b := by intro e; rw [e, hb] at ha; cases ha
  simp [errorFree, loadErr, run_bind, run_load, ha, run_free, hb, upd, hne]
  funext x; simp only [upd]; grind

/-- Finding: a NULL format into an occupied slot is undefined behaviour (polycap-error.c:140 reads
`new->message` with `new == NULL`). -/
theorem set_error_null_format_occupied_ub (h : Heap EBlock) (a : Nat) (c : Code) :
    (setError (some (some a)) c none).run h = none := rfl

/-- Finding: if the `malloc` of the error object fails, reporting an error is itself undefined
behaviour (polycap-error.c:53 / 84 write through NULL). -/
theorem set_error_oom_ub (h : Heap EBlock) (hf : h.orc h.next = false) (c : Code) (s : String) :
    (setError (some none) c (some s)).run h = none := by
  simp only [setError, errorNew]
  rw [run_bind_none]
  rw [run_bind_some (by rw [run_malloc, hf]; rfl)]
  rw [run_bind_none]; rfl

/-- The hypotheses of the theorems above are met by a non-trivial history: two reports into the
same slot, a copy, a propagation into an occupied slot, and clean-up. -/
example : HistOk spec0 [.set (some 0) .io "a", .set (some 0) .memory "b", .copy 1 0,
      .propagate (some 0) 1, .setLiteral none .io "c", .clear (some 0)] ∧
    (∀ v, ([Op.set (some 0) .io "a", .set (some 0) .memory "b", .copy 1 0,
      .propagate (some 0) 1, .setLiteral none .io "c", .clear (some 0)].foldl Spec.step spec0) v = none) := by
  constructor
  · simp [HistOk, OpOk, Spec.step, Spec.put, spec0]
  · intro v; simp [Spec.step, Spec.put, spec0]; intro h1 h2; simp [h1, h2]

example : ∀ op ∈ [Op.set (some 0) .memory "b", .propagate (some 0) 1, .clear (some 2)], ¬ op.releases 0 := by
  simp [Op.releases]

end Polycap.ErrApi
