import Verif.Props.PyProps
import Verif.Props.SessionHistory

/-!
# C67: Python programs

A Python program can do anything: use names of objects that were never made, objects of the wrong class, bad arguments.  Specification:

* `Disciplined`: a photon is launched, a result written only while the `Description` or `Source` it was made from has not been collected (the
  bindings keep no reference to it);
* `GoodStmt`: no `Profile(..., ignore=True)`, and numpy arrays that are neighbours in memory (C66).

Such a program never crashes the interpreter, sees what the value machine of C61 says, and leaves no memory behind.
-/
namespace Polycap.Py
open CNum CM Mem Sess
set_option linter.unusedSectionVars false
variable {α : Type} [CNum α]

/-! ## Specification -/

/-- the statement makes an object (or would, if it did not raise) -/
def makes : Stmt α → Bool
  | .profile .. | .profileIgnore | .profileFromArrays .. | .description .. | .source .. | .photon .. | .getPhoton .. | .simulate .. => true
  | _ => false

/-- object number `i` is made by the `i`-th of these -/
def ctors (prog : List (Stmt α)) : List (Stmt α) := prog.filter makes

/-- the object a photon or result is made from -/
def madeFrom : Stmt α → Option Nat
  | .photon i _ _ _ => some i
  | .getPhoton i _ _ _ => some i
  | .simulate i _ _ _ => some i
  | _ => none

/-- the object whose origin the statement relies on -/
def relies : Stmt α → Option Nat
  | .launch i _ _ _ _ _ => some i
  | .write i => some i
  | _ => none

/-- whenever a statement relies on an object's origin, that origin has not been collected before -/
def Disciplined (prog : List (Stmt α)) : Prop :=
  ∀ pre st post, prog = pre ++ st :: post → ∀ i c j, relies st = some i → (ctors pre)[i]? = some c → madeFrom c = some j → .collect j ∉ pre

def GoodArr (a : NdArr α) : Prop := a.Valid ∧ a.Contiguous

def GoodStmt : Stmt α → Prop
  | .profileIgnore => False
  | .profileFromArrays e c z => GoodArr e ∧ GoodArr c ∧ GoodArr z
  | .source _ _ e => GoodArr e
  | .launch _ e _ _ _ _ => GoodArr e
  | _ => True

/-! ## Python over two machines -/

/-- what the second machine may do when the first one does this -/
def Follows {σ τ : Type} (R : σ → τ → Prop) (r : Sess.Res σ α) : Sess.Res τ α → Prop
  | .next t o => ∃ s, r = .next s o ∧ R s t
  | .inner => r = .inner
  | .stale => True

def PRel {σ τ : Type} (R : σ → τ → Prop) (s : PSt σ) (t : PSt τ) : Prop :=
  R s.c t.c ∧ s.objs = t.objs ∧ s.nvars = t.nvars ∧ s.lost = t.lost

def PFollows {σ τ : Type} (R : σ → τ → Prop) (r : PRes σ α) : PRes τ α → Prop
  | .ok t v => ∃ s, r = .ok s v ∧ PRel R s t
  | .raised t e => ∃ s, r = .raised s e ∧ PRel R s t
  | .inner => r = .inner
  | .crash => True

section lift
variable {σ τ : Type} {R : σ → τ → Prop} {f : Op α → σ → Sess.Res σ α} {g : Op α → τ → Sess.Res τ α}

theorem follows_ok {s : PSt σ} {t : PSt τ} {v : Val α} (h : PRel R s t) : PFollows R (.ok s v) (.ok t v) := ⟨s, rfl, h⟩
theorem follows_raised {s : PSt σ} {t : PSt τ} {e : Exc} (h : PRel R s t) : PFollows R (α := α) (.raised s e) (.raised t e) := ⟨s, rfl, h⟩

theorem PRel.push {s : PSt σ} {t : PSt τ} (h : PRel R s t) (o : Obj) : PRel R (s.push o) (t.push o) :=
  ⟨h.1, by simp [PSt.push, h.2.1], h.2.2.1, h.2.2.2⟩

theorem PRel.nv {s : PSt σ} {t : PSt τ} (h : PRel R s t) (n : Nat) : PRel R { s with nvars := n } { t with nvars := n } :=
  ⟨h.1, h.2.1, rfl, h.2.2.2⟩

theorem PRel.raise {s : PSt σ} {t : PSt τ} (h : PRel R s t) {e : Exc} : PFollows R (α := α) (.raised (s.push .dead) e) (.raised (t.push .dead) e) :=
  follows_raised (h.push _)

theorem call_follows (hf : ∀ op s t, R s t → Follows R (f op s) (g op t)) {op : Op α} {s : PSt σ} {t : PSt τ} (h : PRel R s t)
    {k : PSt σ → Obs α → PRes σ α} {k' : PSt τ → Obs α → PRes τ α}
    (hk : ∀ s' t' o, PRel R s' t' → s'.nvars = s.nvars → PFollows R (k s' o) (k' t' o)) : PFollows R (call f op s k) (call g op t k') := by
  have := hf op s.c t.c h.1
  unfold call
  cases hg : g op t.c with
  | next c o =>
    rw [hg] at this
    obtain ⟨c', e, hr⟩ := this
    rw [e]
    exact hk _ _ _ ⟨hr, h.2⟩ rfl
  | inner =>
    rw [hg] at this
    have this : f op s.c = .inner := this
    rw [this]; rfl
  | stale => trivial

theorem construct_follows (hf : ∀ op s t, R s t → Follows R (f op s) (g op t)) {op : Op α} {kind : Kind} {ci : Bool} {s : PSt σ} {t : PSt τ}
    (h : PRel R s t) : PFollows R (construct f op kind ci s) (construct g op kind ci t) := by
  have hn := h.2.2.1
  refine call_follows hf h fun s' t' o h' hn' => ?_
  cases o with
  | made ok e =>
    have last : PFollows R (α := α) (.ok ({ s' with nvars := s.nvars + 1 }.push (.live kind s.nvars)) .obj)
        (.ok ({ t' with nvars := t.nvars + 1 }.push (.live kind t.nvars)) .obj) := by
      rw [hn]
      exact follows_ok ((h'.nv _).push _)
    cases e with
    | none => exact last
    | some e =>
      cases e with
      | none => exact last
      | some code =>
        dsimp only
        by_cases hc : (ok && ci) = true
        · rw [if_pos hc, if_pos hc, hn]
          exact call_follows hf (h'.nv _) fun s2 t2 _ h2 _ => h2.raise
        · rw [if_neg hc, if_neg hc, hn]
          exact follows_raised ((h'.nv _).push _)
  | _ => trivial

theorem expect_follows {s : PSt σ} {t : PSt τ} (h : PRel R s t) {i : Nat} {kind : Kind} {k : Nat → PRes σ α} {k' : Nat → PRes τ α}
    (hk : ∀ v, PFollows R (k v) (k' v)) : PFollows R (expect s i kind k) (expect t i kind k') := by
  unfold expect
  rw [h.2.1]
  split
  · split
    · exact hk _
    · exact follows_raised h
  · exact follows_raised h
  · exact follows_raised h

theorem expectNew_follows {s : PSt σ} {t : PSt τ} (h : PRel R s t) {i : Nat} {kind : Kind} {k : Nat → PRes σ α} {k' : Nat → PRes τ α}
    (hk : ∀ v, PFollows R (k v) (k' v)) : PFollows R (expectNew s i kind k) (expectNew t i kind k') := by
  unfold expectNew
  rw [h.2.1]
  split
  · split
    · exact hk _
    · exact h.raise
  · exact h.raise
  · exact h.raise

theorem afterLaunch_follows {s : PSt σ} {t : PSt τ} (h : PRel R s t) (n : Nat) (rv : Int) (w : WOut α) (late : Option Code) :
    PFollows R (afterLaunch n rv w late s) (afterLaunch n rv w late t) := by
  have hl : PRel R { s with lost := s.lost + 1 } { t with lost := t.lost + 1 } := ⟨h.1, h.2.1, h.2.2.1, by simp [h.2.2.2]⟩
  unfold afterLaunch
  cases w with
  | untouched => exact follows_raised h
  | _ =>
    dsimp only
    cases late with
    | some c => exact follows_raised hl
    | none =>
      dsimp only
      split
      · exact follows_raised hl
      · split
        · exact follows_ok hl
        · exact follows_ok h

/-- a Python statement over two corresponding libraries -/
theorem pyStep_follows (x : Xrl α) (hf : ∀ op s t, R s t → Follows R (f op s) (g op t)) (st : Stmt α) {s : PSt σ} {t : PSt τ} (h : PRel R s t) :
    PFollows R (pyStep x f st s) (pyStep x g st t) := by
  have ho := h.2.1
  cases st with
  | profile a => exact construct_follows hf h
  | profileIgnore => exact follows_ok (h.push _)
  | profileFromArrays e c z =>
    simp only [pyStep]
    split
    · exact h.raise
    · exact construct_follows hf h
  | getProfile i fld =>
    simp only [pyStep, ho]
    split
    · trivial
    · refine expect_follows h fun v => call_follows hf h fun s' t' o h' _ => ?_
      cases o with
      | array n xs =>
        dsimp only
        split
        · exact follows_ok h'
        · trivial
      | _ => trivial
  | description i sig n comp rho =>
    simp only [pyStep, ho]
    split
    · split
      · exact h.raise
      · split
        · exact h.raise
        · split
          · exact h.raise
          · trivial
    · refine expectNew_follows h fun v => ?_
      split
      · exact h.raise
      · split
        · exact h.raise
        · exact construct_follows hf h
  | source i p e =>
    refine expectNew_follows h fun v => ?_
    split
    · trivial
    · exact construct_follows hf h
  | photon i c d E =>
    refine expectNew_follows h fun v => ?_
    split
    · exact construct_follows hf h
    · exact h.raise
  | getPhoton i u fuel n => exact expectNew_follows h fun v => construct_follows hf h
  | launch i e leak fuel k late =>
    refine expect_follows h fun v => ?_
    split
    · trivial
    · refine call_follows hf h fun s' t' o h' _ => ?_
      cases o with
      | launched rv w P => exact afterLaunch_follows h' _ _ _ _
      | _ => trivial
  | simulate i mt np leak =>
    refine expectNew_follows h fun v => ?_
    split
    · exact h.raise
    · exact construct_follows hf h
  | results i =>
    refine expect_follows h fun v => call_follows hf h fun s' t' o h' _ => ?_
    cases o with
    | got te => exact follows_ok h'
    | failed e =>
      cases e with
      | none => trivial
      | some e =>
        cases e with
        | none => trivial
        | some c => exact follows_raised h'
    | _ => trivial
  | write i =>
    refine expect_follows h fun v => call_follows hf h fun s' t' o h' _ => ?_
    cases o with
    | wrote te S D oa => exact follows_ok h'
    | failed e =>
      cases e with
      | none => trivial
      | some e =>
        cases e with
        | none => trivial
        | some c => exact follows_raised h'
    | _ => trivial
  | collect i =>
    simp only [pyStep, ho]
    split
    · exact call_follows hf h fun s' t' o h' _ => follows_ok ⟨h'.1, by simp only [h'.2.1], h'.2.2⟩
    · exact follows_ok ⟨h.1, rfl, h.2.2⟩
    · exact follows_ok h

def PEndFollows (R : σ → τ → Prop) (r : PEnd σ) : PEnd τ → Prop
  | .fine t => ∃ s, r = .fine s ∧ PRel R s t
  | .inner => r = .inner
  | .crash => True

/-- a whole program over two corresponding libraries, as long as the second one does not crash -/
theorem pyRun_follows (x : Xrl α) (hf : ∀ op s t, R s t → Follows R (f op s) (g op t)) : ∀ (prog : List (Stmt α)) (s : PSt σ) (t : PSt τ), PRel R s t →
    (pyRun x g prog t).2 ≠ .crash → (pyRun x f prog s).1 = (pyRun x g prog t).1 ∧ PEndFollows R (pyRun x f prog s).2 (pyRun x g prog t).2
  | [], s, t, h, _ => ⟨rfl, s, rfl, h⟩
  | st :: rest, s, t, h, hc => by
    have hs := pyStep_follows x hf st h
    simp only [pyRun] at hc ⊢
    cases hg : pyStep x g st t with
    | ok t' v =>
      rw [hg] at hs hc
      obtain ⟨s', e, h'⟩ := hs
      rw [e]
      obtain ⟨i1, i2⟩ := pyRun_follows x hf rest s' t' h' hc
      exact ⟨by simp only [i1], i2⟩
    | raised t' v =>
      rw [hg] at hs hc
      obtain ⟨s', e, h'⟩ := hs
      rw [e]
      obtain ⟨i1, i2⟩ := pyRun_follows x hf rest s' t' h' hc
      exact ⟨by simp only [i1], i2⟩
    | inner =>
      rw [hg] at hs
      have hs : pyStep x f st s = .inner := hs
      rw [hs]
      exact ⟨rfl, rfl⟩
    | crash => rw [hg] at hc; exact absurd rfl hc

end lift

/-! ## What the objects of a program stand for -/

def kindOf : AVar α → Option Kind
  | .prof _ => some .profile
  | .descr _ => some .description
  | .src _ => some .source
  | .photon _ _ => some .photon
  | .result _ _ => some .result
  | _ => none

def ownerOf : AVar α → Option (Kind × Nat)
  | .photon (.ofDescr w) _ => some (.description, w)
  | .photon (.ofSrc w) _ => some (.source, w)
  | .result w _ => some (.source, w)
  | _ => none

def Sized : AVar α → Prop
  | .prof v => ∀ fld, (pick fld v).length = v.1 + 1
  | _ => True

structure Inv (pre : List (Stmt α)) (vars : List (AVar α)) (objs : List Obj) (nvars : Nat) : Prop where
  len : objs.length = (ctors pre).length
  nv : nvars = vars.length
  noNull : ∀ i : Nat, objs[i]? ≠ some .nullProfile
  live : ∀ (i : Nat) k (v : Nat), objs[i]? = some (.live k v) → ∃ a, vars[v]? = some a ∧ kindOf a = some k
  inj : ∀ (i j : Nat) k k' v, objs[i]? = some (.live k v) → objs[j]? = some (.live k' v) → i = j
  own : ∀ (i : Nat) k (v : Nat) a kd w, objs[i]? = some (.live k v) → vars[v]? = some a → ownerOf a = some (kd, w) →
    ∃ c j, (ctors pre)[i]? = some c ∧ madeFrom c = some j ∧ (.collect j ∉ pre → objs[j]? = some (.live kd w))
  cov : ∀ (v : Nat) a, vars[v]? = some a → (kindOf a).isSome → ∃ (i : Nat) (k : Kind), objs[i]? = some (.live k v)
  size : ∀ (v : Nat) a, vars[v]? = some a → Sized a

def PInv (pre : List (Stmt α)) (t : PSt (ASt α)) : Prop := Inv pre t.c.vars t.objs t.nvars

theorem ctors_yes {pre : List (Stmt α)} {st : Stmt α} (h : makes st = true) : ctors (pre ++ [st]) = ctors pre ++ [st] := by
  simp [ctors, List.filter_append, h]

theorem ctors_no {pre : List (Stmt α)} {st : Stmt α} (h : makes st = false) : ctors (pre ++ [st]) = ctors pre := by
  simp [ctors, List.filter_append, h]

theorem Inv.quiet {pre : List (Stmt α)} {vars objs n} (I : Inv pre vars objs n) {st : Stmt α} (h : makes st = false) : Inv (pre ++ [st]) vars objs n where
  len := by rw [ctors_no h]; exact I.len
  nv := I.nv
  noNull := I.noNull
  live := I.live
  inj := I.inj
  own i k v a kd w h1 h2 h3 := by
    obtain ⟨c, j, c1, c2, c3⟩ := I.own i k v a kd w h1 h2 h3
    exact ⟨c, j, by rw [ctors_no h]; exact c1, c2, fun hn => c3 fun hm => hn (by simp [hm])⟩
  cov := I.cov
  size := I.size

theorem Inv.setVar {pre : List (Stmt α)} {vars objs n} (I : Inv pre vars objs n) {v : Nat} {a a' : AVar α} (ha : vars[v]? = some a)
    (hk : kindOf a' = kindOf a) (ho : ownerOf a' = ownerOf a) (hs : Sized a') : Inv pre (vars.set v a') objs n := by
  have hv : v < vars.length := (List.getElem?_eq_some_iff.1 ha).1
  have get : ∀ (u : Nat) b, (vars.set v a')[u]? = some b → ∃ b', vars[u]? = some b' ∧ kindOf b = kindOf b' ∧ ownerOf b = ownerOf b' ∧ (Sized b' → Sized b) := by
    intro u b hb
    by_cases hu : v = u
    · subst hu
      rw [List.getElem?_set_self hv] at hb
      cases hb
      exact ⟨a, ha, hk, ho, fun _ => hs⟩
    · rw [List.getElem?_set_ne hu] at hb
      exact ⟨b, hb, rfl, rfl, id⟩
  have put : ∀ (u : Nat) b, vars[u]? = some b → ∃ b', (vars.set v a')[u]? = some b' ∧ kindOf b' = kindOf b := by
    intro u b hb
    by_cases hu : v = u
    · subst hu
      rw [ha] at hb; cases hb
      exact ⟨a', by rw [List.getElem?_set_self hv], hk⟩
    · exact ⟨b, by rw [List.getElem?_set_ne hu]; exact hb, rfl⟩
  refine ⟨I.len, by simp [I.nv], I.noNull, ?_, I.inj, ?_, ?_, ?_⟩
  · intro i k u h
    obtain ⟨b, hb, hb'⟩ := I.live i k u h
    obtain ⟨b', p1, p2⟩ := put u b hb
    exact ⟨b', p1, by rw [p2, hb']⟩
  · intro i k u b kd w h1 h2 h3
    obtain ⟨b', p1, p2, p3, _⟩ := get u b h2
    exact I.own i k u b' kd w h1 p1 (by rw [← p3, h3])
  · intro u b hb hk'
    obtain ⟨b', p1, p2, _, _⟩ := get u b hb
    exact I.cov u b' p1 (by rw [← p2]; exact hk')
  · intro u b hb
    obtain ⟨b', p1, _, _, p4⟩ := get u b hb
    exact p4 (I.size u b' p1)

theorem Inv.pushDead {pre : List (Stmt α)} {vars objs n} (I : Inv pre vars objs n) {st : Stmt α} (h : makes st = true) (extra : List (AVar α))
    (hx : ∀ a ∈ extra, kindOf a = none) : Inv (pre ++ [st]) (vars ++ extra) (objs ++ [.dead]) (n + extra.length) := by
  have lv : ∀ (i : Nat) k v, (objs ++ [Obj.dead])[i]? = some (.live k v) → objs[i]? = some (.live k v) := by
    intro i k v hi
    rcases getElem?_push_cases hi with ⟨h, _⟩ | ⟨_, h⟩
    · exact h
    · cases h
  have old : ∀ (v : Nat) a, (vars ++ extra)[v]? = some a → vars[v]? = some a ∨ kindOf a = none := by
    intro v a hv
    rw [List.getElem?_append] at hv
    split at hv
    · exact .inl hv
    · exact .inr (hx a (List.mem_of_getElem? hv))
  have none_own : ∀ a : AVar α, kindOf a = none → ownerOf a = none := by
    intro a; cases a <;> simp [kindOf, ownerOf]
  have none_size : ∀ a : AVar α, kindOf a = none → Sized a := by
    intro a; cases a <;> simp [kindOf, Sized]
  refine ⟨by rw [ctors_yes h]; simp [I.len], by simp [I.nv], ?_, ?_, ?_, ?_, ?_, ?_⟩
  · intro i hi
    rcases getElem?_push_cases hi with ⟨h, _⟩ | ⟨_, h⟩
    · exact I.noNull i h
    · cases h
  · intro i k v hi
    obtain ⟨a, h1, h2⟩ := I.live i k v (lv i k v hi)
    exact ⟨a, by rw [List.getElem?_append_left (List.getElem?_eq_some_iff.1 h1).1]; exact h1, h2⟩
  · intro i j k k' v h1 h2
    exact I.inj i j k k' v (lv _ _ _ h1) (lv _ _ _ h2)
  · intro i k v a kd w h1 h2 h3
    rcases old v a h2 with h2 | h2
    · obtain ⟨c, j, c1, c2, c3⟩ := I.own i k v a kd w (lv _ _ _ h1) h2 h3
      refine ⟨c, j, by rw [ctors_yes h]; exact getElem?_push_old c1, c2, fun hn => getElem?_push_old (c3 fun hm => hn (by simp [hm]))⟩
    · rw [none_own a h2] at h3; cases h3
  · intro v a hv hk
    rcases old v a hv with h2 | h2
    · obtain ⟨i, k, hi⟩ := I.cov v a h2 hk
      exact ⟨i, k, getElem?_push_old hi⟩
    · rw [h2] at hk; cases hk
  · intro v a hv
    rcases old v a hv with h2 | h2
    · exact I.size v a h2
    · exact none_size a h2

theorem Inv.pushLive {pre : List (Stmt α)} {vars objs n} (I : Inv pre vars objs n) {st : Stmt α} (h : makes st = true) {a : AVar α} {k : Kind}
    (hk : kindOf a = some k) (hs : Sized a) (ho : ∀ kd w, ownerOf a = some (kd, w) → ∃ j, madeFrom st = some j ∧ objs[j]? = some (.live kd w)) :
    Inv (pre ++ [st]) (vars ++ [a]) (objs ++ [.live k n]) (n + 1) := by
  have hn := I.nv
  have lv : ∀ (i : Nat) k' v, (objs ++ [Obj.live k n])[i]? = some (.live k' v) → objs[i]? = some (.live k' v) ∧ v < n ∨ i = objs.length ∧ k' = k ∧ v = n := by
    intro i k' v hi
    rcases getElem?_push_cases hi with ⟨h, _⟩ | ⟨h1, h⟩
    · obtain ⟨b, h1, _⟩ := I.live i k' v h
      exact .inl ⟨h, by rw [hn]; exact (List.getElem?_eq_some_iff.1 h1).1⟩
    · cases h; exact .inr ⟨h1, rfl, rfl⟩
  refine ⟨by rw [ctors_yes h]; simp [I.len], by simp [hn], ?_, ?_, ?_, ?_, ?_, ?_⟩
  · intro i hi
    rcases getElem?_push_cases hi with ⟨h, _⟩ | ⟨_, h⟩
    · exact I.noNull i h
    · cases h
  · intro i k' v hi
    rcases lv i k' v hi with ⟨h1, _⟩ | ⟨_, rfl, rfl⟩
    · obtain ⟨b, h1, h2⟩ := I.live i k' v h1
      exact ⟨b, getElem?_push_old h1, h2⟩
    · exact ⟨a, by rw [hn]; simp, hk⟩
  · intro i j k1 k2 v h1 h2
    rcases lv _ _ _ h1 with ⟨p1, q1⟩ | ⟨p1, _, q1⟩ <;> rcases lv _ _ _ h2 with ⟨p2, q2⟩ | ⟨p2, _, q2⟩
    · exact I.inj i j k1 k2 v p1 p2
    · omega
    · omega
    · omega
  · intro i k' v b kd w h1 h2 h3
    rcases lv _ _ _ h1 with ⟨p1, q1⟩ | ⟨p1, _, q1⟩
    · rcases getElem?_push_cases h2 with ⟨h2, _⟩ | ⟨h2, _⟩
      · obtain ⟨c, j, c1, c2, c3⟩ := I.own i k' v b kd w p1 h2 h3
        refine ⟨c, j, by rw [ctors_yes h]; exact getElem?_push_old c1, c2, fun hn => getElem?_push_old (c3 fun hm => hn (by simp [hm]))⟩
      · omega
    · subst p1; subst q1
      rw [hn, List.getElem?_concat_length] at h2
      cases h2
      obtain ⟨j, j1, j2⟩ := ho kd w h3
      exact ⟨st, j, by rw [ctors_yes h, I.len]; simp, j1, fun _ => getElem?_push_old j2⟩
  · intro v b hv hkb
    rcases getElem?_push_cases hv with ⟨hv, _⟩ | ⟨hv, _⟩
    · obtain ⟨i, k', hi⟩ := I.cov v b hv hkb
      exact ⟨i, k', getElem?_push_old hi⟩
    · exact ⟨objs.length, k, by rw [hv, ← hn]; simp⟩
  · intro v b hv
    rcases getElem?_push_cases hv with ⟨hv, _⟩ | ⟨_, hv⟩
    · exact I.size v b hv
    · rw [hv]; exact hs

theorem Inv.collect {pre : List (Stmt α)} {vars objs n} (I : Inv pre vars objs n) {i : Nat} {k v} (hi : objs[i]? = some (.live k v)) :
    Inv (pre ++ [.collect i]) (vars.set v .gone) (objs.set i .dead) n := by
  have lt : i < objs.length := (List.getElem?_eq_some_iff.1 hi).1
  have hm : makes (.collect i : Stmt α) = false := rfl
  have lv : ∀ (j : Nat) k' u, (objs.set i Obj.dead)[j]? = some (.live k' u) → j ≠ i ∧ objs[j]? = some (.live k' u) ∧ u ≠ v := by
    intro j k' u hj
    by_cases e : i = j
    · subst e; rw [List.getElem?_set_self lt] at hj; cases hj
    · rw [List.getElem?_set_ne e] at hj
      refine ⟨fun h => e h.symm, hj, fun h => ?_⟩
      subst h
      exact e (I.inj _ _ _ _ _ hi hj)
  have old : ∀ (u : Nat) a, (vars.set v .gone)[u]? = some a → u ≠ v ∧ vars[u]? = some a ∨ a = .gone := by
    intro u a hu
    by_cases e : v = u
    · subst e
      obtain ⟨b, hb, _⟩ := I.live i k v hi
      rw [List.getElem?_set_self (List.getElem?_eq_some_iff.1 hb).1] at hu
      cases hu; exact .inr rfl
    · rw [List.getElem?_set_ne e] at hu
      exact .inl ⟨fun h => e h.symm, hu⟩
  refine ⟨by rw [ctors_no hm]; simp [I.len], by simp [I.nv], ?_, ?_, ?_, ?_, ?_, ?_⟩
  · intro j hj
    by_cases e : i = j
    · subst e; rw [List.getElem?_set_self lt] at hj; cases hj
    · rw [List.getElem?_set_ne e] at hj; exact I.noNull j hj
  · intro j k' u hj
    obtain ⟨h1, h2, h3⟩ := lv _ _ _ hj
    obtain ⟨a, a1, a2⟩ := I.live _ _ _ h2
    exact ⟨a, by rw [List.getElem?_set_ne h3.symm]; exact a1, a2⟩
  · intro j1 j2 k1 k2 u h1 h2
    exact I.inj _ _ _ _ _ (lv _ _ _ h1).2.1 (lv _ _ _ h2).2.1
  · intro j k' u a kd w h1 h2 h3
    rcases old u a h2 with ⟨_, h2⟩ | h2
    · obtain ⟨c, m, c1, c2, c3⟩ := I.own j k' u a kd w (lv _ _ _ h1).2.1 h2 h3
      refine ⟨c, m, by rw [ctors_no hm]; exact c1, c2, fun hn => ?_⟩
      have hne : i ≠ m := by rintro rfl; exact hn (by simp)
      rw [List.getElem?_set_ne hne]
      exact c3 fun hmm => hn (by simp [hmm])
    · subst h2; cases h3
  · intro u a hu hk
    rcases old u a hu with ⟨h1, h2⟩ | h2
    · obtain ⟨j, k', hj⟩ := I.cov u a h2 hk
      refine ⟨j, k', ?_⟩
      rw [List.getElem?_set_ne]
      · exact hj
      · rintro rfl
        rw [hi] at hj; cases hj; exact h1 rfl
    · subst h2; cases hk
  · intro u a hu
    rcases old u a hu with ⟨_, h2⟩ | h2
    · exact I.size u a h2
    · subst h2; trivial

/-! ## Statements on the value machine -/

/-- no crash, and the invariant holds afterwards -/
def Good (pre : List (Stmt α)) : PRes (ASt α) α → Prop
  | .ok t _ => PInv pre t
  | .raised t _ => PInv pre t
  | .inner => True
  | .crash => False

/-- the outcomes of a constructing call: the variables are `vs` and one more -/
inductive Made (vs : List (AVar α)) (cinit : Bool) (P : AVar α → Prop) : Sess.Res (ASt α) α → Prop
  | null (t' : ASt α) : t'.vars = vs ++ [.null] → Made vs cinit P (.next t' (.made false badArg))
  | ok (t' : ASt α) (a : AVar α) (e : EArg) : t'.vars = vs ++ [a] → P a → (cinit = true ∨ e = some none) → Made vs cinit P (.next t' (.made true e))
  | inner : Made vs cinit P .inner

section value
variable (fit : Fit α) (lib : Xray α) (sim : Nat → SimArgs α → Option (TE α))

theorem free_value {t : ASt α} {v : Nat} {a : AVar α} (h : t.vars[v]? = some a) (hk : (kindOf a).isSome) :
    astep fit lib sim (.free v) t = .next { t with vars := t.vars.set v .gone } .none := by
  simp only [astep]
  rw [h]
  cases a <;> first | rfl | (simp [kindOf] at hk)

theorem good_construct {pre : List (Stmt α)} {st : Stmt α} {t : PSt (ASt α)} {op : Op α} {kind : Kind} {cinit : Bool} {vs : List (AVar α)}
    (hm : makes st = true) (I : Inv pre vs t.objs t.nvars)
    (m : Made vs cinit (fun a => kindOf a = some kind ∧ Sized a ∧
      ∀ kd w, ownerOf a = some (kd, w) → ∃ j, madeFrom st = some j ∧ t.objs[j]? = some (.live kd w)) (astep fit lib sim op t.c)) :
    Good (pre ++ [st]) (construct (astep fit lib sim) op kind cinit t) := by
  unfold construct call
  generalize hr : astep fit lib sim op t.c = r at m
  cases m with
  | inner => trivial
  | null t' hv =>
    simp only [badArg, Bool.false_and]
    have := I.pushDead hm [.null] (by simp [kindOf])
    simpa [Good, PInv, PSt.push, hv] using this
  | ok t' a e hv ha hc =>
    obtain ⟨hk, hs, ho⟩ := ha
    have live : PInv (pre ++ [st]) (({ c := t', objs := t.objs, nvars := t.nvars + 1, lost := t.lost } : PSt (ASt α)).push (.live kind t.nvars)) := by
      have := I.pushLive hm hk hs ho
      simpa [PInv, PSt.push, hv] using this
    match e, hc with
    | none, _ => exact live
    | some none, _ => exact live
    | some (some code), hc =>
      have hc : cinit = true := by rcases hc with h | h; exact h; cases h
      subst hc
      have hf := free_value fit lib sim (t := t') (v := t.nvars) (a := a) (by rw [hv, I.nv]; simp) (by rw [hk]; rfl)
      simp only [Bool.and_self, if_true, hf]
      have := I.pushDead hm [.gone] (by simp [kindOf])
      simp only [Good, PInv, PSt.push, hv]
      rw [I.nv, List.set_append_right _ _ (by simp)]
      simpa [I.nv] using this

theorem PInv.expect {pre : List (Stmt α)} {t : PSt (ASt α)} (I : PInv pre t) {i : Nat} {kind : Kind} {st : Stmt α} (hm : makes st = false)
    {k : Nat → PRes (ASt α) α} (hk : ∀ v a, t.objs[i]? = some (.live kind v) → t.c.vars[v]? = some a → kindOf a = some kind → Good (pre ++ [st]) (k v)) :
    Good (pre ++ [st]) (expect t i kind k) := by
  unfold Py.expect
  split
  · next kd v h =>
    split
    · next e =>
      subst e
      obtain ⟨a, a1, a2⟩ := I.live i _ v h
      exact hk v a h a1 a2
    · exact I.quiet hm
  · exact I.quiet hm
  · exact I.quiet hm

theorem PInv.dead {pre : List (Stmt α)} {t : PSt (ASt α)} (I : PInv pre t) {st : Stmt α} (hm : makes st = true) : PInv (pre ++ [st]) (t.push .dead) := by
  have := Inv.pushDead I hm [] (by simp)
  simpa [PInv, PSt.push] using this

theorem PInv.expectNew {pre : List (Stmt α)} {t : PSt (ASt α)} (I : PInv pre t) {i : Nat} {kind : Kind} {st : Stmt α} (hm : makes st = true)
    {k : Nat → PRes (ASt α) α} (hk : ∀ v a, t.objs[i]? = some (.live kind v) → t.c.vars[v]? = some a → kindOf a = some kind → Good (pre ++ [st]) (k v)) :
    Good (pre ++ [st]) (expectNew t i kind k) := by
  unfold Py.expectNew
  split
  · next kd v h =>
    split
    · next e =>
      subst e
      obtain ⟨a, a1, a2⟩ := I.live i _ v h
      exact hk v a h a1 a2
    · exact I.dead hm
  · exact I.dead hm
  · exact I.dead hm

theorem kind_profile {a : AVar α} (h : kindOf a = some .profile) : ∃ v, a = .prof v := by cases a <;> simp [kindOf] at h ⊢
theorem kind_description {a : AVar α} (h : kindOf a = some .description) : ∃ v, a = .descr v := by cases a <;> simp [kindOf] at h ⊢
theorem kind_source {a : AVar α} (h : kindOf a = some .source) : ∃ v, a = .src v := by cases a <;> simp [kindOf] at h ⊢
theorem kind_photon {a : AVar α} (h : kindOf a = some .photon) : ∃ o P, a = .photon o P := by cases a <;> simp [kindOf] at h ⊢
theorem kind_result {a : AVar α} (h : kindOf a = some .result) : ∃ j te, a = .result j te := by cases a <;> simp [kindOf] at h ⊢

theorem good_tail {a : NdArr α} (h : GoodArr a) : a.raw a.size = some a.values ∧ a.size ≤ a.tail.length := by
  have := (contiguous_array_partial a h.1 h.2).1
  refine ⟨this, ?_⟩
  unfold NdArr.raw at this
  split at this
  · assumption
  · cases this

theorem afterLaunch_good {pre : List (Stmt α)} {t : PSt (ASt α)} (I : PInv pre t) (n : Nat) (rv : Int) (w : WOut α) (late : Option Code) :
    Good pre (afterLaunch n rv w late t) := by
  unfold afterLaunch
  cases w with
  | untouched => exact I
  | _ =>
    dsimp only
    cases late with
    | some c => exact I
    | none =>
      dsimp only
      split
      · exact I
      · split
        · exact I
        · exact I

/-- what discipline means for the next statement -/
def Allowed (pre : List (Stmt α)) (st : Stmt α) : Prop :=
  ∀ i c j, relies st = some i → (ctors pre)[i]? = some c → madeFrom c = some j → .collect j ∉ pre

theorem pyStep_good (x : Xrl α) {pre : List (Stmt α)} {t : PSt (ASt α)} (I : PInv pre t) (st : Stmt α) (g : GoodStmt st) (al : Allowed pre st) :
    Good (pre ++ [st]) (pyStep x (astep fit lib sim) st t) := by
  cases st with
  | profile a =>
    refine good_construct fit lib sim rfl I ?_
    simp only [astep]
    split
    · refine .ok _ _ _ rfl ⟨rfl, ?_, by simp [ownerOf]⟩ (.inl rfl)
      intro fld; cases fld <;> simp [pick, arr]
    · exact .null _ rfl
  | profileIgnore => exact g.elim
  | profileFromArrays e c z =>
    simp only [pyStep]
    split
    · exact I.dead rfl
    · next hsz =>
      simp only [not_or, not_not] at hsz
      obtain ⟨g1, g2, g3⟩ := g
      have t1 := (good_tail g1).2
      have t2 := (good_tail g2).2
      have t3 := (good_tail g3).2
      refine good_construct fit lib sim rfl I ?_
      simp only [astep]
      split
      · exact .null _ rfl
      · rw [if_pos (by omega)]
        refine .ok _ _ _ rfl ⟨rfl, ?_, by simp [ownerOf]⟩ (.inr rfl)
        intro fld; cases fld <;> simp [pick] <;> omega
  | getProfile i fld =>
    simp only [pyStep]
    split
    · next h => exact absurd h (I.noNull i)
    · refine I.expect rfl fun v a h1 h2 h3 => ?_
      obtain ⟨p, rfl⟩ := kind_profile h3
      have sz : (pick fld p).length = p.1 + 1 := I.size _ _ h2 fld
      simp only [call, astep, h2]
      rw [List.getElem?_eq_getElem (by omega)]
      exact I.quiet rfl
  | description i sig n comp rho =>
    simp only [pyStep]
    split
    · next h => exact absurd h (I.noNull i)
    · refine I.expectNew rfl fun v a h1 h2 h3 => ?_
      obtain ⟨p, rfl⟩ := kind_profile h3
      split
      · exact I.dead rfl
      split
      · exact I.dead rfl
      · refine good_construct fit lib sim rfl I ?_
        simp only [astep, h2]
        split
        · exact .ok _ _ _ rfl ⟨rfl, trivial, by simp [ownerOf]⟩ (.inl rfl)
        · split
          · exact .null _ rfl
          · exact .null _ rfl
  | source i p e =>
    refine I.expectNew rfl fun v a h1 h2 h3 => ?_
    obtain ⟨D, rfl⟩ := kind_description h3
    rw [(good_tail g).1]
    refine good_construct fit lib sim rfl I ?_
    simp only [astep, h2]
    split
    · exact .ok _ _ _ rfl ⟨rfl, trivial, by simp [ownerOf]⟩ (.inl rfl)
    · exact .null _ rfl
  | photon i c d E =>
    refine I.expectNew rfl fun v a h1 h2 h3 => ?_
    obtain ⟨D, rfl⟩ := kind_description h3
    split
    · refine good_construct fit lib sim rfl I ?_
      simp only [astep, h2]
      split
      · exact .null _ rfl
      · refine .ok _ _ _ rfl ⟨rfl, trivial, ?_⟩ (.inl rfl)
        intro kd w hw
        simp only [ownerOf] at hw
        cases hw
        exact ⟨i, rfl, h1⟩
    · exact I.dead rfl
  | getPhoton i u fuel n =>
    refine I.expectNew rfl fun v a h1 h2 h3 => ?_
    obtain ⟨S, rfl⟩ := kind_source h3
    refine good_construct fit lib sim rfl I ?_
    simp only [astep, h2]
    split
    · refine .ok _ _ _ rfl ⟨rfl, trivial, ?_⟩ (.inr rfl)
      intro kd w hw
      simp only [ownerOf] at hw
      cases hw
      exact ⟨i, rfl, h1⟩
    · exact .inner
  | launch i e leak fuel k late =>
    refine I.expect rfl fun v a h1 h2 h3 => ?_
    obtain ⟨o, P, rfl⟩ := kind_photon h3
    rw [(good_tail g).1]
    simp only [call, astep, h2]
    have hopt : ∃ D, t.c.optic o = some D := by
      cases o with
      | ofDescr w =>
        obtain ⟨c, j, c1, c2, c3⟩ := I.own _ _ _ _ _ _ h1 h2 rfl
        obtain ⟨b, b1, b2⟩ := I.live _ _ _ (c3 (al i c j rfl c1 c2))
        obtain ⟨D, rfl⟩ := kind_description b2
        exact ⟨D.optic, by simp [ASt.optic, b1]⟩
      | ofSrc w =>
        obtain ⟨c, j, c1, c2, c3⟩ := I.own _ _ _ _ _ _ h1 h2 rfl
        obtain ⟨b, b1, b2⟩ := I.live _ _ _ (c3 (al i c j rfl c1 c2))
        obtain ⟨D, rfl⟩ := kind_source b2
        exact ⟨D.descr.optic, by simp [ASt.optic, b1]⟩
    obtain ⟨D, hD⟩ := hopt
    by_cases hb : (e.values.isEmpty || e.values.any energyBad) = true
    · rw [if_pos hb]
      exact afterLaunch_good (I.quiet rfl) _ _ _ _
    · rw [if_neg hb, hD]
      dsimp only
      cases hl : launch lib (some D) leak fuel k (some P) (some e.values) true with
      | ok r =>
        obtain ⟨rv, w, P'⟩ := r
        cases P' with
        | none => trivial
        | some P' =>
          dsimp only
          refine afterLaunch_good ?_ _ _ _ _
          have := Inv.setVar I h2 (a' := .photon o P') rfl (by cases o <;> rfl) trivial
          exact this.quiet rfl
      | _ => trivial
  | simulate i mt np leak =>
    refine I.expectNew rfl fun v a h1 h2 h3 => ?_
    split
    · exact I.dead rfl
    · obtain ⟨S, rfl⟩ := kind_source h3
      by_cases hr : simRejects (⟨some (S.pars, some S.descr.optic), false, mt, np, leak, false⟩ : SimArgs α) = true
      · refine good_construct fit lib sim rfl I ?_
        simp only [astep, h2]
        rw [if_pos hr]
        exact .null _ rfl
      · cases hs : sim t.c.sims ⟨some (S.pars, some S.descr.optic), false, mt, np, leak, false⟩ with
        | none =>
          refine good_construct fit lib sim rfl I ?_
          simp only [astep, h2]
          rw [if_neg hr, hs]
          exact .inner
        | some te =>
          have I' := Inv.setVar I h2 (a' := .src { S with descr := { S.descr with open_area := te.openArea } }) rfl rfl trivial
          refine good_construct fit lib sim rfl I' ?_
          simp only [astep, h2]
          rw [if_neg hr, hs]
          refine .ok _ _ _ rfl ⟨rfl, trivial, ?_⟩ (.inr rfl)
          intro kd w hw
          simp only [ownerOf] at hw
          cases hw
          exact ⟨i, rfl, h1⟩
  | results i =>
    refine I.expect rfl fun v a h1 h2 h3 => ?_
    obtain ⟨j, te, rfl⟩ := kind_result h3
    simp only [call, astep, h2]
    exact I.quiet rfl
  | write i =>
    refine I.expect rfl fun v a h1 h2 h3 => ?_
    obtain ⟨w, te, rfl⟩ := kind_result h3
    obtain ⟨c, j, c1, c2, c3⟩ := I.own _ _ _ _ _ _ h1 h2 rfl
    obtain ⟨b, b1, b2⟩ := I.live _ _ _ (c3 (al i c j rfl c1 c2))
    obtain ⟨D, rfl⟩ := kind_source b2
    simp only [call, astep, h2, b1]
    exact I.quiet rfl
  | collect i =>
    simp only [pyStep]
    split
    · next k v h =>
      obtain ⟨a, a1, a2⟩ := I.live _ _ _ h
      simp only [call, free_value fit lib sim a1 (by rw [a2]; rfl)]
      exact Inv.collect I h
    · next h => exact absurd h (I.noNull i)
    · exact I.quiet rfl

theorem pyRun_good (x : Xrl α) (prog : List (Stmt α)) (hg : ∀ st ∈ prog, GoodStmt st) (hd : Disciplined prog) :
    ∀ (rest pre : List (Stmt α)) (t : PSt (ASt α)), prog = pre ++ rest → PInv pre t →
      (pyRun x (astep fit lib sim) rest t).2 ≠ .crash ∧ ∀ t', (pyRun x (astep fit lib sim) rest t).2 = .fine t' → PInv prog t'
  | [], pre, t, hp, I => by
    simp only [List.append_nil] at hp
    subst hp
    exact ⟨by simp [pyRun], fun t' h => by simp only [pyRun, PEnd.fine.injEq] at h; exact h ▸ I⟩
  | st :: rest, pre, t, hp, I => by
    have gs := pyStep_good fit lib sim x I st (hg st (by simp [hp])) (fun i c j h1 h2 h3 => hd pre st rest hp i c j h1 h2 h3)
    simp only [pyRun]
    cases hs : pyStep x (astep fit lib sim) st t with
    | ok t' v =>
      rw [hs] at gs
      exact pyRun_good x prog hg hd rest (pre ++ [st]) t' (by simp [hp]) gs
    | raised t' v =>
      rw [hs] at gs
      exact pyRun_good x prog hg hd rest (pre ++ [st]) t' (by simp [hp]) gs
    | inner => simp
    | crash => rw [hs] at gs; exact gs.elim

theorem inv_start : PInv (α := α) [] (pyStart astart) := by
  refine ⟨rfl, rfl, ?_, ?_, ?_, ?_, ?_, ?_⟩ <;> intros <;> simp_all [pyStart, astart]

/-- the library as it is and the value machine -/
theorem lib_follows (op : Op α) (s : Sess.St α) (t : ASt α) (h : Reached s t) : Follows Reached (step fit lib sim op s) (astep fit lib sim op t) := by
  obtain ⟨fp, lk, R⟩ := h
  have := step_refines fit lib sim R op
  cases hg : astep fit lib sim op t with
  | next t' o =>
    rw [hg] at this
    obtain ⟨s', fp', lk', e, R'⟩ := this
    exact ⟨s', e, fp', lk', R'⟩
  | inner => rw [hg] at this; exact this
  | stale => trivial

/-- **C67.**  A program that keeps the discipline never crashes the interpreter: every statement gives a value or raises an exception, and it is
the one the value machine gives. -/
theorem python_program_correct (x : Xrl α) (prog : List (Stmt α)) (hg : ∀ st ∈ prog, GoodStmt st) (hd : Disciplined prog) :
    (pyRun x (step fit lib sim) prog (pyStart start)).2 ≠ .crash ∧
    (pyRun x (step fit lib sim) prog (pyStart start)).1 = (pyRun x (astep fit lib sim) prog (pyStart astart)).1 := by
  obtain ⟨h1, _⟩ := pyRun_good fit lib sim x prog hg hd prog [] _ rfl inv_start
  obtain ⟨e1, e2⟩ := pyRun_follows x (lib_follows fit lib sim) prog (pyStart start) (pyStart astart) ⟨reached_start, rfl, rfl, rfl⟩ h1
  refine ⟨?_, e1⟩
  intro hc
  rw [hc] at e2
  cases ha : (pyRun x (astep fit lib sim) prog (pyStart astart)).2 with
  | fine t => rw [ha] at e2; obtain ⟨s, e, _⟩ := e2; cases e
  | inner => rw [ha] at e2; cases e2
  | crash => exact h1 ha

/-- **C67.**  When the program is over and every object is collected, the library's memory is empty again except for one block for each
`Description` refused because of its profile (C07). -/
theorem python_program_memory (x : Xrl α) (prog : List (Stmt α)) (hg : ∀ st ∈ prog, GoodStmt st) (hd : Disciplined prog) (s : PSt (Sess.St α))
    (hs : (pyRun x (step fit lib sim) prog (pyStart start)).2 = .fine s) (he : ∀ o ∈ s.objs, o = .dead) :
    ∃ t : PSt (ASt α), (pyRun x (astep fit lib sim) prog (pyStart astart)).2 = .fine t ∧
      ∃ lk : List Nat, lk.Nodup ∧ lk.length = t.c.refused ∧ ∀ a, s.c.heap.mem a ≠ none ↔ a ∈ lk := by
  obtain ⟨h1, h2⟩ := pyRun_good fit lib sim x prog hg hd prog [] _ rfl inv_start
  obtain ⟨e1, e2⟩ := pyRun_follows x (lib_follows fit lib sim) prog (pyStart start) (pyStart astart) ⟨reached_start, rfl, rfl, rfl⟩ h1
  cases ha : (pyRun x (astep fit lib sim) prog (pyStart astart)).2 with
  | crash => exact absurd ha h1
  | inner => rw [ha, hs] at e2; cases e2
  | fine t =>
    rw [ha, hs] at e2
    obtain ⟨s', e, ⟨fp, lk, R⟩, ho, _⟩ := e2
    cases e
    have I := h2 t ha
    refine ⟨t, rfl, lk, R.lknd, R.lkl, fun a => ⟨fun hx => ?_, R.lklive a⟩⟩
    rcases R.cover a hx with h | ⟨i, h⟩
    · exact h
    · exfalso
      by_cases hi : i < t.c.vars.length
      · have g1 : t.c.vars[i]? = some t.c.vars[i] := List.getElem?_eq_getElem _
        obtain ⟨v, hv, r⟩ := R.get g1
        have hk : kindOf t.c.vars[i] = none := by
          cases hk : kindOf t.c.vars[i] with
          | none => rfl
          | some k =>
            obtain ⟨j, k', hj⟩ := I.cov i _ g1 (by rw [hk]; rfl)
            rw [← ho] at hj
            cases he _ (List.mem_of_getElem? hj)
        revert hk r
        generalize t.c.vars[i] = av
        intro r hk
        cases av with
        | null =>
          cases v with
          | null => simp only [RelVar] at r; rw [r] at h; cases h
          | _ => simp [RelVar] at r
        | gone => simp only [RelVar] at r; rw [r] at h; cases h
        | _ => cases hk
      · rw [R.out i (by omega)] at h; cases h

end value

end Polycap.Py
