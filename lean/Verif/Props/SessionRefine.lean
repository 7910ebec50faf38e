import Verif.Props.SessionProps

/-!
# C61: the memory machine implements the value machine
-/
namespace Polycap.Sess
open CNum CM Mem
variable {α : Type} [CNum α]
set_option linter.unusedSectionVars false
set_option linter.unusedVariables false
set_option linter.unusedSimpArgs false

/-- the description member of a source struct -/
def descrOf : Block α → Ptr
  | .source d _ _ _ _ _ _ _ _ _ _ _ => d
  | _ => none

/-- a variable of the program holds an object with the specified value, made of the blocks `f` -/
def RelVar (h : Heap (Block α)) (sv : List (Var α)) (tv : List (AVar α)) (f : List Nat) : AVar α → Var α → Prop
  | .null, .null => f = []
  | .prof v, .prof (some a) => OwnsProf h a v f
  | .descr v, .descr (some a) => OwnsDescr h a v f
  | .src v, .src (some a) => ∃ d, OwnsSrc h a v d f
  | .photon (.ofDescr j) P, .photon d P' => f = [] ∧ P = P' ∧ sv[j]? = some (.descr d)
  | .photon (.ofSrc j) P, .photon d P' => f = [] ∧ P = P' ∧ ∃ q, sv[j]? = some (.src (some q)) ∧
      ∀ v, tv[j]? = some (.src v) → ∃ b, h.mem q = some b ∧ descrOf b = d
  | .result j te, .result q te' => f = [] ∧ te = te' ∧ sv[j]? = some (.src q)
  | .gone, _ => f = []
  | _, _ => False

theorem RelVar.live {h : Heap (Block α)} {sv tv f a v} (r : RelVar h sv tv f a v) {x} (hx : x ∈ f) : h.mem x ≠ none := by
  unfold RelVar at r
  split at r
  · subst r; cases hx
  · exact r.live hx
  · exact r.live hx
  · obtain ⟨d, r⟩ := r; exact r.live hx
  · rw [r.1] at hx; cases hx
  · rw [r.1] at hx; cases hx
  · rw [r.1] at hx; cases hx
  · subst r; cases hx
  · cases r

theorem RelVar.frame {h h' : Heap (Block α)} {sv sv' : List (Var α)} {tv tv' : List (AVar α)} {f a v} (r : RelVar h sv tv f a v)
    (f1 : ∀ x ∈ f, h'.mem x = h.mem x)
    (f2 : ∀ (j : Nat) d, sv[j]? = some (.descr d) → sv'[j]? = some (.descr d))
    (f3 : ∀ (j : Nat) q, sv[j]? = some (.src q) → sv'[j]? = some (.src q) ∧ ∀ v', tv'[j]? = some (.src v') →
      (∃ v, tv[j]? = some (.src v)) ∧ ∀ a, q = some a → h'.mem a = h.mem a) : RelVar h' sv' tv' f a v := by
  unfold RelVar at r ⊢
  split at r
  · exact r
  · exact r.frame f1
  · exact r.frame f1
  · obtain ⟨d, r⟩ := r; exact ⟨d, r.frame f1⟩
  · exact ⟨r.1, r.2.1, f2 _ _ r.2.2⟩
  · obtain ⟨r1, r2, q, r3, r4⟩ := r
    obtain ⟨g1, g2⟩ := f3 _ _ r3
    refine ⟨r1, r2, q, g1, ?_⟩
    intro v' hv'
    obtain ⟨⟨v, hv⟩, g3⟩ := g2 v' hv'
    rw [g3 q rfl]
    exact r4 v hv
  · exact ⟨r.1, r.2.1, (f3 _ _ r.2.2).1⟩
  · exact r
  · cases r

/-- the program's memory represents the specified values: objects do not share blocks, and every live block belongs to a live object, except
for one lost block for each refused description -/
structure Rel (s : St α) (t : ASt α) (fp : Nat → List Nat) (lk : List Nat) : Prop where
  wf : s.heap.WF
  ok : AllocOk s.heap
  len : s.vars.length = t.vars.length
  sims : s.sims = t.sims
  var : ∀ (i : Nat) a v, t.vars[i]? = some a → s.vars[i]? = some v → RelVar s.heap s.vars t.vars (fp i) a v
  out : ∀ i, t.vars.length ≤ i → fp i = []
  disj : ∀ i j x, x ∈ fp i → x ∈ fp j → i = j
  cover : ∀ x, s.heap.mem x ≠ none → x ∈ lk ∨ ∃ i, x ∈ fp i
  lkfp : ∀ i x, x ∈ lk → x ∉ fp i
  lklive : ∀ x ∈ lk, s.heap.mem x ≠ none
  lknd : lk.Nodup
  lkl : lk.length = t.refused

theorem Rel.get {s : St α} {t : ASt α} {fp lk} (R : Rel s t fp lk) {i : Nat} {a} (h : t.vars[i]? = some a) :
    ∃ v, s.vars[i]? = some v ∧ RelVar s.heap s.vars t.vars (fp i) a v := by
  have hi : i < t.vars.length := by
    by_contra hc
    rw [List.getElem?_eq_none (by omega)] at h
    cases h
  have : s.vars[i]? = some (s.vars[i]'(by rw [R.len]; exact hi)) := List.getElem?_eq_getElem _
  exact ⟨_, this, R.var i a _ h this⟩

theorem Rel.fplive {s : St α} {t : ASt α} {fp lk} (R : Rel s t fp lk) {i x : Nat} (hx : x ∈ fp i) : s.heap.mem x ≠ none := by
  by_cases hi : i < t.vars.length
  · have ht : t.vars[i]? = some t.vars[i] := List.getElem?_eq_getElem _
    obtain ⟨v, hv, r⟩ := R.get ht
    exact r.live hx
  · rw [R.out i (by omega)] at hx; cases hx

theorem getElem?_push_old {β : Type} {l : List β} {x y : β} {j : Nat} (h : l[j]? = some y) : (l ++ [x])[j]? = some y := by
  have hj : j < l.length := by
    by_contra hc
    rw [List.getElem?_eq_none (by omega)] at h
    cases h
  rw [List.getElem?_append_left hj, h]

theorem getElem?_push_cases {β : Type} {l : List β} {x y : β} {j : Nat} (h : (l ++ [x])[j]? = some y) :
    l[j]? = some y ∧ j < l.length ∨ j = l.length ∧ y = x := by
  by_cases hj : j < l.length
  · left; rw [List.getElem?_append_left hj] at h; exact ⟨h, hj⟩
  · right
    rw [List.getElem?_append_right (by omega)] at h
    rcases Nat.lt_or_ge 0 (j - l.length) with h0 | h0
    · rw [List.getElem?_eq_none (by simp; omega)] at h; cases h
    · have : j - l.length = 0 := by omega
      rw [this] at h
      simp at h
      exact ⟨by omega, h.symm⟩

theorem Rel.src_live {s : St α} {t : ASt α} {fp lk} (R : Rel s t fp lk) {j : Nat} {v a} (h : t.vars[j]? = some (.src v))
    (h' : s.vars[j]? = some (.src (some a))) : s.heap.mem a ≠ none ∧ a ∈ fp j := by
  have r := R.var j _ _ h h'
  obtain ⟨d, r⟩ := r
  have : a ∈ fp j := by obtain ⟨_, _, _, _, _, _, _, hf, _⟩ := r; rw [hf]; simp
  exact ⟨r.live this, this⟩

/-- a creating call -/
theorem Rel.push {s : St α} {t t' : ASt α} {fp lk} (R : Rel s t fp lk) {A : Type} {x : CM (Block α) A} {r h' nf nl}
    (m : Makes x s.heap r h' nf nl) {a v} (hv : t'.vars = t.vars ++ [a]) (hs : t'.sims = t.sims) (hr : t'.refused = t.refused + nl.length)
    (rv : RelVar h' (s.vars ++ [v]) (t.vars ++ [a]) nf a v) :
    ∃ fp' lk', Rel ⟨h', s.vars ++ [v], s.sims⟩ t' fp' lk' := by
  have agree : ∀ y, s.heap.mem y ≠ none → h'.mem y = s.heap.mem y := fun y hy => m.mk_agree R.wf hy
  have fresh : ∀ y, y ∈ nf ∨ y ∈ nl → s.heap.mem y = none := fun y hy => R.wf y (m.fresh y hy)
  refine ⟨fun i => if i = t.vars.length then nf else fp i, lk ++ nl, ⟨m.wf, ?_, ?_, ?_, ?_, ?_, ?_, ?_, ?_, ?_, ?_, ?_⟩⟩
  · intro k; rw [m.orc]; exact R.ok k
  · simp [hv, R.len]
  · simp [hs, R.sims]
  · intro i b w h1 h2
    rw [hv] at h1 ⊢
    dsimp only at h2 ⊢
    rcases getElem?_push_cases h1 with ⟨g1, l1⟩ | ⟨g1, rfl⟩
    · rcases getElem?_push_cases h2 with ⟨g2, l2⟩ | ⟨g2, _⟩
      · rw [if_neg (by omega)]
        refine (R.var i b w g1 g2).frame (fun y hy => agree y (R.fplive hy)) (fun j d hj => getElem?_push_old hj) ?_
        intro j q hj
        refine ⟨getElem?_push_old hj, fun v' hv' => ?_⟩
        rcases getElem?_push_cases hv' with ⟨k1, l3⟩ | ⟨k1, _⟩
        · refine ⟨⟨v', k1⟩, ?_⟩
          rintro a rfl
          exact agree a (R.src_live k1 hj).1
        · exfalso
          rw [k1, ← R.len] at hj
          simp at hj
      · have := R.len; omega
    · rcases getElem?_push_cases h2 with ⟨g2, l2⟩ | ⟨g2, rfl⟩
      · have := R.len; omega
      · rw [if_pos g1]; exact rv
  · intro i hi
    simp only [hv, List.length_append, List.length_singleton] at hi
    rw [if_neg (by omega)]
    exact R.out i (by omega)
  · intro i j y h1 h2
    split at h1 <;> split at h2
    · omega
    · exact absurd (fresh y (Or.inl h1)) (R.fplive h2)
    · exact absurd (fresh y (Or.inl h2)) (R.fplive h1)
    · exact R.disj i j y h1 h2
  · intro y hy
    dsimp only at hy
    by_cases h0 : y < s.heap.next
    · rw [m.old y h0] at hy
      rcases R.cover y hy with h1 | ⟨i, h1⟩
      · left; simp [h1]
      · right
        refine ⟨i, ?_⟩
        rw [if_neg]
        · exact h1
        · rintro rfl; rw [R.out _ (le_refl _)] at h1; cases h1
    · rcases m.cover y (by omega) hy with h1 | h1
      · right; exact ⟨t.vars.length, by simp [h1]⟩
      · left; simp [h1]
  · intro i y hy h2
    simp only [List.mem_append] at hy
    split at h2
    · rcases hy with hy | hy
      · exact absurd (fresh y (Or.inl h2)) (R.lklive y hy)
      · rcases m.one with ⟨h3, _⟩ | h3
        · rw [h3] at h2; cases h2
        · rw [h3] at hy; cases hy
    · rcases hy with hy | hy
      · exact R.lkfp i y hy h2
      · exact absurd (fresh y (Or.inr hy)) (R.fplive h2)
  · intro y hy
    simp only [List.mem_append] at hy
    rcases hy with hy | hy
    · have := R.lklive y hy
      dsimp only
      rw [agree y this]; exact this
    · exact m.lost y hy
  · rw [List.nodup_append]
    refine ⟨R.lknd, ?_, ?_⟩
    · rcases m.one with ⟨_, h3⟩ | h3
      · match nl, h3 with
        | [], _ => exact List.nodup_nil
        | [z], _ => exact List.nodup_singleton z
      · rw [h3]; exact List.nodup_nil
    · intro y hy z hz he
      subst he
      exact R.lklive y hy (fresh y (Or.inr hz))
  · rw [List.length_append, R.lkl, hr]

/-- a creating call that touches no memory -/
theorem Rel.push_plain {s : St α} {t t' : ASt α} {fp lk} (R : Rel s t fp lk) {a v} (hv : t'.vars = t.vars ++ [a]) (hs : t'.sims = t.sims)
    (hr : t'.refused = t.refused) (rv : RelVar s.heap (s.vars ++ [v]) (t.vars ++ [a]) [] a v) :
    ∃ fp' lk', Rel ⟨s.heap, s.vars ++ [v], s.sims⟩ t' fp' lk' := by
  have m : Makes (Pure.pure () : CM (Block α) Unit) s.heap () s.heap [] [] := Makes.nothing (Good.pure _) rfl R.wf R.wf rfl
  exact R.push m hv hs (by simp [hr]) rv

/-- freeing object `i`, made of the blocks `fp i` -/
theorem Rel.free {s : St α} {t : ASt α} {fp lk} (R : Rel s t fp lk) {i : Nat} (hi : i < t.vars.length) :
    Rel { s with heap := without s.heap (fp i) } { t with vars := t.vars.set i .gone } (fun j => if j = i then [] else fp j) lk := by
  refine ⟨?_, R.ok, by simp [R.len], R.sims, ?_, ?_, ?_, ?_, ?_, ?_, R.lknd, R.lkl⟩
  · intro x hx
    simp only [without]
    split
    · rfl
    · exact R.wf x hx
  · intro j a v h1 h2
    dsimp only at h1 h2 ⊢
    by_cases hj : j = i
    · subst hj
      rw [List.getElem?_set_self hi] at h1
      simp only [Option.some.injEq] at h1
      subst h1
      rw [if_pos rfl]
      exact rfl
    · rw [if_neg hj]
      rw [List.getElem?_set_ne (Ne.symm hj)] at h1
      refine (R.var j a v h1 h2).frame (fun x hx => without_mem _ (fun hx' => hj (R.disj _ _ x hx hx'))) (fun _ _ h => h) ?_
      intro k q hq
      refine ⟨hq, fun v' hv' => ?_⟩
      by_cases hk : k = i
      · subst hk
        rw [List.getElem?_set_self hi] at hv'
        cases hv'
      · rw [List.getElem?_set_ne (Ne.symm hk)] at hv'
        refine ⟨⟨v', hv'⟩, ?_⟩
        rintro a rfl
        exact without_mem _ (fun hx' => hk (R.disj _ _ a (R.src_live hv' hq).2 hx'))
  · intro j hj
    simp only [List.length_set] at hj
    split
    · rfl
    · exact R.out j hj
  · intro j k x h1 h2
    split at h1
    · cases h1
    · split at h2
      · cases h2
      · exact R.disj j k x h1 h2
  · intro x hx
    dsimp only [without] at hx
    split at hx
    · exact absurd rfl hx
    · rename_i hn
      rcases R.cover x hx with h1 | ⟨j, h1⟩
      · exact Or.inl h1
      · right
        refine ⟨j, ?_⟩
        rw [if_neg]
        · exact h1
        · rintro rfl; exact hn h1
  · intro j x hx h2
    split at h2
    · cases h2
    · exact R.lkfp j x hx h2
  · intro x hx
    dsimp only
    rw [without_mem _ (R.lkfp i x hx)]
    exact R.lklive x hx

/-- replacing a photon or result by one that owns no blocks either -/
theorem Rel.set {s : St α} {t : ASt α} {fp lk} (R : Rel s t fp lk) {i : Nat} {a v a' v'} (h1 : t.vars[i]? = some a) (h2 : s.vars[i]? = some v)
    (hf : fp i = []) (hd : ∀ d, v ≠ .descr d) (hq : ∀ q, v ≠ .src q) (ha' : ∀ w, a' ≠ .src w)
    (rv : RelVar s.heap (s.vars.set i v') (t.vars.set i a') [] a' v') :
    Rel { s with vars := s.vars.set i v' } { t with vars := t.vars.set i a' } fp lk := by
  have hi : i < t.vars.length := by
    by_contra hc
    rw [List.getElem?_eq_none (by omega)] at h1
    cases h1
  have hi' : i < s.vars.length := by rw [R.len]; exact hi
  refine ⟨R.wf, R.ok, by simp [R.len], R.sims, ?_, ?_, R.disj, R.cover, R.lkfp, R.lklive, R.lknd, R.lkl⟩
  · intro j b w g1 g2
    dsimp only at g1 g2 ⊢
    by_cases hj : j = i
    · subst hj
      rw [List.getElem?_set_self hi] at g1
      rw [List.getElem?_set_self hi'] at g2
      simp only [Option.some.injEq] at g1 g2
      subst g1 g2
      rw [hf]; exact rv
    · rw [List.getElem?_set_ne (Ne.symm hj)] at g1 g2
      refine (R.var j b w g1 g2).frame (fun _ _ => rfl) ?_ ?_
      · intro k d hk
        by_cases hk' : k = i
        · subst hk'; rw [h2] at hk; simp at hk; exact absurd hk (hd d)
        · rw [List.getElem?_set_ne (Ne.symm hk')]; exact hk
      · intro k q hk
        by_cases hk' : k = i
        · subst hk'; rw [h2] at hk; simp at hk; exact absurd hk (hq q)
        · rw [List.getElem?_set_ne (Ne.symm hk')]
          refine ⟨hk, fun v' hv' => ?_⟩
          rw [List.getElem?_set_ne (Ne.symm hk')] at hv'
          exact ⟨⟨v', hv'⟩, fun _ _ => rfl⟩
  · intro j hj
    simp only [List.length_set] at hj
    exact R.out j hj

/-- a call that leaves the blocks as they are -/
theorem Rel.quiet {s : St α} {t : ASt α} {fp lk} (R : Rel s t fp lk) {h' : Heap (Block α)} (hm : h'.mem = s.heap.mem) (wf : h'.WF)
    (ho : h'.orc = s.heap.orc) : Rel { s with heap := h' } t fp lk := by
  refine ⟨wf, ?_, R.len, R.sims, ?_, R.out, R.disj, ?_, R.lkfp, ?_, R.lknd, R.lkl⟩
  · intro k; dsimp only; rw [ho]; exact R.ok k
  · intro i a v h1 h2
    exact (R.var i a v h1 h2).frame (fun x _ => by rw [hm]) (fun _ _ h => h) (fun j q hq => ⟨hq, fun v' hv' => ⟨⟨v', hv'⟩, fun _ _ => by rw [hm]⟩⟩)
  · intro x hx; dsimp only at hx; rw [hm] at hx; exact R.cover x hx
  · intro x hx; dsimp only; rw [hm]; exact R.lklive x hx

theorem readArray_run {h : Heap (Block α)} {a v f} (o : OwnsProf h a v f) (wf : h.WF) (ok : AllocOk h) (fld : ProfField) :
    ∃ h', (readArray fld (some a)).run h = some (some (v.1, pick fld v), h') ∧ h'.mem = h.mem ∧ h'.WF ∧ h'.orc = h.orc := by
  obtain ⟨l1, l2, l3⟩ := o.lens
  have hr := o.read
  obtain ⟨n, zs, cs, es⟩ := v
  obtain ⟨b, h1, r1, m1, ⟨x1, x2⟩, wf1, o1⟩ := profile_get_correct fld h wf ok (some a) n zs cs es hr l1 l2 l3
  have hp : fieldOf fld zs cs es = pick fld (n, zs, cs, es) := by cases fld <;> rfl
  have hl : (pick fld (n, zs, cs, es)).length = n + 1 := by cases fld <;> assumption
  rw [hp] at m1
  refine ⟨without h1 [b], ?_, ?_, ?_, o1⟩
  · unfold readArray
    rw [run_bind_some r1]
    dsimp only
    rw [if_pos rfl, run_bind_some (show (loadArr (α := α) (some b) (n + 1)).run h1 = some (pick fld (n, zs, cs, es), h1) by
        simp [loadArr, run_bind, run_load, m1, hl, List.take_of_length_le (Nat.le_of_eq hl)]), run_bind_some (free_without (by simp [m1]))]
    rfl
  · funext x
    by_cases hx : x = b
    · subst hx; simp [without, (x2 x (by simp)).1]
    · rw [without_mem _ (by simpa using hx)]; exact x1 x (by simpa using hx)
  · intro x hx
    simp only [without]
    split
    · rfl
    · exact wf1 x hx

/-- a description with another open area -/
def withArea (v : SrcView α) (oa : α) : SrcView α := { v with descr := { v.descr with open_area := oa } }

theorem OwnsSrc.setArea {h : Heap (Block α)} {a v d f} (o : OwnsSrc h a v d f) (oa : α) :
    ∃ b, (setOpenArea (some d) oa).run h = some ((), { h with mem := upd h.mem d (some b) }) ∧
      OwnsSrc { h with mem := upd h.mem d (some b) } a (withArea v oa) d f ∧ d ∈ f ∧
      ∀ q c, h.mem q = some c → descrOf c ≠ none → q ≠ d := by
  obtain ⟨r, en, g, m1, m2, m3, od, hf, nd⟩ := o
  obtain ⟨i, w, p, g', n1, n2, n3, l1, l2, op, hg, nd'⟩ := od
  have ad : a ≠ d := by rintro rfl; rw [m1] at n1; cases n1
  have rd : r ≠ d := by rintro rfl; rw [m2] at n1; cases n1
  have ed : en ≠ d := by rintro rfl; rw [m3] at n1; cases n1
  have idd : i ≠ d := by rintro rfl; rw [n2] at n1; cases n1
  have wd : w ≠ d := by rintro rfl; rw [n3] at n1; cases n1
  have gd : d ∉ g' := by rw [hg] at nd'; simp at nd'; tauto
  refine ⟨.descr v.descr.sig_rough v.descr.n_cap oa v.descr.nelem (some i) (some w) v.descr.density (some p), ?_, ?_, ?_, ?_⟩
  · unfold setOpenArea
    rw [run_bind_some (load_owned n1)]
    simp [run_store, n1]
  · refine ⟨r, en, g, ?_, ?_, ?_, ⟨i, w, p, g', ?_, ?_, ?_, l1, l2, op.frame ?_, hg, nd'⟩, hf, nd⟩
    · simp only [withArea]; rw [upd_other _ _ ad, m1]
    · rw [show (_ : Heap (Block α)).mem = _ from rfl]; dsimp only; rw [upd_other _ _ rd, m2]
    · simp only [withArea]; rw [upd_other _ _ ed, m3]
    · simp [withArea]
    · simp only [withArea]; rw [upd_other _ _ idd, n2]
    · simp only [withArea]; rw [upd_other _ _ wd, n3]
    · intro x hx; dsimp only; rw [upd_other]; rintro rfl; exact gd hx
  · rw [hf, hg]; simp
  · rintro q c hq hc rfl
    rw [n1] at hq
    simp only [Option.some.injEq] at hq
    subst hq
    exact hc rfl

theorem Rel.setArea {s : St α} {t : ASt α} {fp lk} (R : Rel s t fp lk) {i : Nat} {v a d} (h1 : t.vars[i]? = some (.src v))
    (h2 : s.vars[i]? = some (.src (some a))) (o : OwnsSrc s.heap a v d (fp i)) (oa : α) :
    ∃ h', (setOpenArea (some d) oa).run s.heap = some ((), h') ∧
      Rel { s with heap := h' } { t with vars := t.vars.set i (.src (withArea v oa)) } fp lk := by
  obtain ⟨b, r, o', hd, hne⟩ := o.setArea oa
  have hi : i < t.vars.length := by
    by_contra hc
    rw [List.getElem?_eq_none (by omega)] at h1
    cases h1
  have dl := o.live hd
  have hmem : ∀ x, (upd s.heap.mem d (some b)) x ≠ none ↔ s.heap.mem x ≠ none := by
    intro x
    by_cases hx : x = d
    · subst hx; simp [dl]
    · rw [upd_other _ _ hx]
  refine ⟨_, r, ⟨?_, R.ok, by simp [R.len], R.sims, ?_, ?_, R.disj, ?_, R.lkfp, ?_, R.lknd, R.lkl⟩⟩
  · intro x hx
    dsimp only at hx ⊢
    by_contra hc
    exact (hmem x).mp hc (R.wf x hx)
  · intro j b' w g1 g2
    dsimp only at g1 g2 ⊢
    by_cases hj : j = i
    · subst hj
      rw [List.getElem?_set_self hi] at g1
      rw [h2] at g2
      simp only [Option.some.injEq] at g1 g2
      subst g1 g2
      exact ⟨d, o'⟩
    · rw [List.getElem?_set_ne (Ne.symm hj)] at g1
      refine (R.var j b' w g1 g2).frame (fun x hx => upd_other _ _ ?_) (fun _ _ h => h) ?_
      · rintro rfl; exact hj (R.disj _ _ x hx hd)
      · intro k q hk
        refine ⟨hk, fun v' hv' => ?_⟩
        have hsrc : ∃ v, t.vars[k]? = some (.src v) := by
          by_cases hk' : k = i
          · subst hk'; exact ⟨v, h1⟩
          · rw [List.getElem?_set_ne (Ne.symm hk')] at hv'; exact ⟨v', hv'⟩
        refine ⟨hsrc, ?_⟩
        rintro a' rfl
        obtain ⟨v2, hv2⟩ := hsrc
        obtain ⟨d2, o2⟩ := R.var k _ _ hv2 hk
        obtain ⟨_, _, _, m1, _⟩ := o2
        exact upd_other _ _ (hne _ _ m1 (by simp [descrOf]))
  · intro j hj
    simp only [List.length_set] at hj
    exact R.out j hj
  · intro x hx; exact R.cover x ((hmem x).mp hx)
  · intro x hx; exact (hmem x).mpr (R.lklive x hx)

theorem St.run_some {A : Type} {s : St α} {x : CM (Block α) A} {a : A} {h : Heap (Block α)} (e : x.run s.heap = some (a, h))
    (k : A → St α → Res (St α) α) : s.run x k = k a { s with heap := h } := by
  simp [St.run, e]

/-! ## One call -/

/-- what the step theorem says -/
def Refines (s : St α) (r : Res (St α) α) : Res (ASt α) α → Prop
  | .next t' o => ∃ s' fp' lk', r = .next s' o ∧ Rel s' t' fp' lk'
  | .inner => r = .inner
  | .stale => True

theorem refines_push {s : St α} {t t' : ASt α} {fp lk} (R : Rel s t fp lk) {x : CM (Block α) (Ptr × EArg)} {b : Nat} {e h' nf} {mk : Ptr → Var α} {a}
    (m : Makes x s.heap (some b, e) h' nf []) (ht : t' = t.push a) (rv : RelVar h' (s.vars ++ [mk (some b)]) (t.vars ++ [a]) nf a (mk (some b))) :
    Refines s (s.run x fun r s => s.made mk r) (.next t' (.made true e)) := by
  obtain ⟨fp', lk', R'⟩ := R.push (t' := t') m (a := a) (v := mk (some b)) (by rw [ht]; rfl) (by rw [ht]; rfl) (by rw [ht]; rfl) rv
  exact ⟨_, fp', lk', by rw [St.run_some m.run]; rfl, R'⟩

theorem refines_null {s : St α} {t t' : ASt α} {fp lk} (R : Rel s t fp lk) {x : CM (Block α) (Ptr × EArg)} {e h' nl} {mk : Ptr → Var α}
    (m : Makes x s.heap (none, e) h' [] nl) (ht : t'.vars = t.vars ++ [.null]) (hs : t'.sims = t.sims) (hr : t'.refused = t.refused + nl.length) :
    Refines s (s.run x fun r s => s.made mk r) (.next t' (.made false e)) := by
  obtain ⟨fp', lk', R'⟩ := R.push (t' := t') m (a := .null) (v := .null) ht hs hr rfl
  exact ⟨_, fp', lk', by rw [St.run_some m.run]; rfl, R'⟩

theorem refines_plain {s : St α} {t t' : ASt α} {fp lk} (R : Rel s t fp lk) {o} {a v} (ht : t' = t.push a)
    (rv : RelVar s.heap (s.vars ++ [v]) (t.vars ++ [a]) [] a v) : Refines s (.next (s.push v) o) (.next t' o) := by
  obtain ⟨fp', lk', R'⟩ := R.push_plain (t' := t') (a := a) (v := v) (by rw [ht]; rfl) (by rw [ht]; rfl) (by rw [ht]; rfl) rv
  exact ⟨_, fp', lk', rfl, R'⟩

theorem refines_same {s : St α} {t : ASt α} {fp lk} (R : Rel s t fp lk) {o} : Refines s (.next s o) (.next t o) := ⟨s, fp, lk, rfl, R⟩

theorem OwnsProf.move {h h1 : Heap (Block α)} {a v f} (o : OwnsProf h a v f) (ag : ∀ x, h.mem x ≠ none → h1.mem x = h.mem x) : OwnsProf h1 a v f :=
  o.frame (fun x hx => ag x (o.live hx))
theorem OwnsDescr.move {h h1 : Heap (Block α)} {a v f} (o : OwnsDescr h a v f) (ag : ∀ x, h.mem x ≠ none → h1.mem x = h.mem x) : OwnsDescr h1 a v f :=
  o.frame (fun x hx => ag x (o.live hx))

theorem plus_old {h : Heap (Block α)} (wf : h.WF) (b : Block α) {x : Nat} (hx : h.mem x ≠ none) : (plus h b).mem x = h.mem x := by
  simp only [plus]
  rw [upd_other]
  rintro rfl
  exact hx (wf _ (le_refl _))

theorem plus_new (h : Heap (Block α)) (b : Block α) : (plus h b).mem h.next = some b := by simp [plus]

variable (fit : Fit α) (lib : Xray α) (sim : Nat → SimArgs α → Option (TE α))

theorem step_newProfile {s : St α} {t : ASt α} {fp lk} (R : Rel s t fp lk) (a : ProfArgs α) :
    Refines s (step fit lib sim (.newProfile a) s) (astep fit lib sim (.newProfile a) t) := by
  simp only [step, astep]
  rcases profileNew_makes fit a s.heap R.wf R.ok with ⟨f, h', nf, h1, h2, m, o⟩ | ⟨h', hn, m⟩
  · rw [h1, h2]
    exact refines_push R m rfl o
  · split
    · rename_i f h1 h2
      exact absurd ⟨h1, by simp [h2]⟩ hn
    · exact refines_null R m rfl rfl rfl

theorem step_fromArrays {s : St α} {t : ASt α} {fp lk} (R : Rel s t fp lk) (nid : Int) (ext cap z : List α) :
    Refines s (step fit lib sim (.newProfileFromArrays nid ext cap z) s) (astep fit lib sim (.newProfileFromArrays nid ext cap z) t) := by
  simp only [step, astep]
  have w1 := plus_wf R.wf (.doubles ext)
  have w2 := plus_wf w1 (.doubles cap)
  have w3 := plus_wf w2 (.doubles z)
  have o1 : AllocOk (plus s.heap (.doubles ext)) := R.ok
  have o2 : AllocOk (plus (plus s.heap (.doubles ext)) (.doubles cap)) := R.ok
  have o3 : AllocOk (plus (plus (plus s.heap (.doubles ext)) (.doubles cap)) (.doubles z)) := R.ok
  by_cases hn : nid ≤ 1
  · rw [if_pos hn]
    have m0 : Makes (profileNewFromArrays nid (some s.heap.next) (some (s.heap.next + 1)) (some (s.heap.next + 2)) (some none))
        (plus (plus (plus s.heap (.doubles ext)) (.doubles cap)) (.doubles z)) (none, badArg) _ [] [] :=
      Makes.nothing (good_fromArrays _ _ _ _ _) (new_from_arrays_rejects _ _ _ _ _ _ (Or.inr (Or.inr (Or.inr hn)))) w3 w3 rfl
    exact refines_null R (Makes.with R.ok (Makes.with o1 (Makes.with o2 m0))) rfl rfl rfl
  · rw [if_neg hn]
    split
    · rename_i hl
      obtain ⟨n, rfl⟩ : ∃ n : Nat, nid = n := ⟨nid.toNat, by omega⟩
      simp only [Int.toNat_natCast] at hl ⊢
      have p3 : (plus (plus (plus s.heap (.doubles ext)) (.doubles cap)) (.doubles z)).mem s.heap.next = some (.doubles ext) := by
        rw [plus_old w2 _ (by rw [plus_old w1 _ (by rw [plus_new]; simp), plus_new]; simp), plus_old w1 _ (by rw [plus_new]; simp), plus_new]
      have p2 : (plus (plus (plus s.heap (.doubles ext)) (.doubles cap)) (.doubles z)).mem (s.heap.next + 1) = some (.doubles cap) := by
        have : (plus (plus s.heap (.doubles ext)) (.doubles cap)).mem (s.heap.next + 1) = some (.doubles cap) := plus_new (plus s.heap (.doubles ext)) _
        rw [plus_old w2 _ (by rw [this]; simp), this]
      have p1 : (plus (plus (plus s.heap (.doubles ext)) (.doubles cap)) (.doubles z)).mem (s.heap.next + 2) = some (.doubles z) :=
        plus_new (plus (plus s.heap (.doubles ext)) (.doubles cap)) _
      obtain ⟨b, h', nf, m0, o⟩ := fromArrays_makes n (by omega) ext cap z _ _ _ _ w3 o3 p3 p2 p1 hl.1 hl.2.1 hl.2.2
      have fr := m0.fresh
      refine refines_push R (Makes.with R.ok (Makes.with o1 (Makes.with o2 m0))) rfl ?_
      refine OwnsProf.frame o ?_
      intro x hx
      have := fr x (Or.inl hx)
      simp only [plus] at this
      rw [without_mem _ (by simp; omega), without_mem _ (by simp [plus]; omega), without_mem _ (by simp [plus]; omega)]
    · trivial

theorem step_newDescription {s : St α} {t : ASt α} {fp lk} (R : Rel s t fp lk) (i : Nat) (sig : α) (n_cap : Int) (comp : List (Int × α)) (rho : α) :
    Refines s (step fit lib sim (.newDescription i sig n_cap comp rho) s) (astep fit lib sim (.newDescription i sig n_cap comp rho) t) := by
  simp only [step, astep]
  cases hi : t.vars[i]? with
  | none => trivial
  | some a =>
    obtain ⟨v, hv, r⟩ := R.get hi
    cases a <;> try trivial
    rename_i pv
    cases v <;> simp only [RelVar] at r
    rename_i p
    cases p <;> simp only at r
    rename_i p
    rw [hv]
    dsimp only
    have w1 := plus_wf R.wf (.ints (comp.map (·.1)))
    have w2 := plus_wf w1 (.doubles (comp.map (·.2)))
    have o1 : AllocOk (plus s.heap (.ints (comp.map (·.1)))) := R.ok
    have o2 : AllocOk (plus (plus s.heap (.ints (comp.map (·.1)))) (.doubles (comp.map (·.2)))) := R.ok
    have own : OwnsProf (plus (plus s.heap (.ints (comp.map (·.1)))) (.doubles (comp.map (·.2)))) p pv (fp i) := by
      refine r.move (fun x hx => ?_)
      rw [plus_old w1 _ (by rw [plus_old R.wf _ hx]; exact hx), plus_old R.wf _ hx]
    have p1 : (plus (plus s.heap (.ints (comp.map (·.1)))) (.doubles (comp.map (·.2)))).mem s.heap.next = some (.ints (comp.map (·.1))) := by
      rw [plus_old w1 _ (by rw [plus_new]; simp), plus_new]
    have p2 : (plus (plus s.heap (.ints (comp.map (·.1)))) (.doubles (comp.map (·.2)))).mem (s.heap.next + 1) = some (.doubles (comp.map (·.2))) :=
      plus_new (plus s.heap (.ints (comp.map (·.1)))) _
    rcases descriptionNew_makes sig n_cap comp rho p _ _ pv (fp i) _ w2 o2 own p1 p2 with ⟨h', nf, b, dm, m, o⟩ | ⟨h', x, dm, hr, m⟩ | ⟨h', dm, hr, m⟩
    · rw [if_pos dm]
      have fr := m.fresh
      refine refines_push R (Makes.with R.ok (Makes.with o1 m)) rfl ?_
      refine OwnsDescr.frame o ?_
      intro x hx
      have := fr x (Or.inl hx)
      simp only [plus] at this
      rw [without_mem _ (by simp; omega), without_mem _ (by simp [plus]; omega)]
    · rw [if_neg dm, if_pos hr]
      exact refines_null R (Makes.with R.ok (Makes.with o1 m)) rfl rfl rfl
    · rw [if_neg dm, if_neg hr]
      exact refines_null R (Makes.with R.ok (Makes.with o1 m)) rfl rfl rfl

theorem step_newSource {s : St α} {t : ASt α} {fp lk} (R : Rel s t fp lk) (i : Nat) (a : SrcPars α) :
    Refines s (step fit lib sim (.newSource i a) s) (astep fit lib sim (.newSource i a) t) := by
  simp only [step, astep]
  cases hi : t.vars[i]? with
  | none => trivial
  | some c =>
    obtain ⟨v, hv, r⟩ := R.get hi
    cases c <;> try trivial
    · cases v <;> simp only [RelVar] at r
      rw [hv]
      exact refines_plain R rfl rfl
    · rename_i dv
      cases v <;> simp only [RelVar] at r
      rename_i p
      cases p <;> simp only at r
      rename_i p
      rw [hv]
      dsimp only
      have w1 := plus_wf R.wf (.doubles a.energies)
      have o1 : AllocOk (plus s.heap (.doubles a.energies)) := R.ok
      have own : OwnsDescr (plus s.heap (.doubles a.energies)) p dv (fp i) := r.move (fun x hx => plus_old R.wf _ hx)
      rcases sourceNew_makes a p _ dv (fp i) _ w1 o1 own (plus_new _ _) with ⟨h', nf, b, d', dm, m, o⟩ | ⟨h', dm, m⟩
      · rw [if_pos dm]
        have fr := m.fresh
        refine refines_push R (Makes.with R.ok m) rfl ?_
        refine ⟨d', OwnsSrc.frame o ?_⟩
        intro x hx
        have := fr x (Or.inl hx)
        simp only [plus] at this
        rw [without_mem _ (by simp; omega)]
      · rw [if_neg dm]
        exact refines_null R (Makes.with R.ok m) rfl rfl rfl

theorem step_getArray {s : St α} {t : ASt α} {fp lk} (R : Rel s t fp lk) (i : Nat) (fld : ProfField) :
    Refines s (step fit lib sim (.getArray i fld) s) (astep fit lib sim (.getArray i fld) t) := by
  simp only [step, astep]
  cases hi : t.vars[i]? with
  | none => trivial
  | some c =>
    obtain ⟨v, hv, r⟩ := R.get hi
    cases c <;> try trivial
    · cases v <;> simp only [RelVar] at r
      rw [hv]
      exact refines_same R
    · cases v <;> simp only [RelVar] at r
      rename_i pv p
      cases p <;> simp only at r
      rw [hv]
      obtain ⟨h', e, hm, wf, ho⟩ := readArray_run r R.wf R.ok fld
      dsimp only
      rw [St.run_some e]
      exact ⟨_, fp, lk, rfl, R.quiet hm wf ho⟩

theorem step_getDescrArray {s : St α} {t : ASt α} {fp lk} (R : Rel s t fp lk) (i : Nat) (fld : ProfField) :
    Refines s (step fit lib sim (.getDescrArray i fld) s) (astep fit lib sim (.getDescrArray i fld) t) := by
  simp only [step, astep]
  cases hi : t.vars[i]? with
  | none => trivial
  | some c =>
    obtain ⟨v, hv, r⟩ := R.get hi
    cases c <;> try trivial
    cases v <;> simp only [RelVar] at r
    rename_i pv p
    cases p <;> simp only at r
    rename_i a
    rw [hv]
    obtain ⟨i', w, p, g, m1, m2, m3, l1, l2, op, _⟩ := r
    obtain ⟨h', e, hm, wf, ho⟩ := readArray_run op R.wf R.ok fld
    have e2 : (do readArray fld (← descriptionGetProfile (some a)) : CM (Block α) _).run s.heap = some (some (pv.profile.1, pick fld pv.profile), h') := by
      rw [run_bind_some (show (descriptionGetProfile (α := α) (some a)).run s.heap = some (some p, s.heap) by
        unfold descriptionGetProfile; rw [run_bind_some (load_owned m1)]; rfl)]
      exact e
    dsimp only
    rw [St.run_some e2]
    exact ⟨_, fp, lk, rfl, R.quiet hm wf ho⟩

theorem step_newPhoton {s : St α} {t : ASt α} {fp lk} (R : Rel s t fp lk) (i : Nat) (c d E : V3 α) :
    Refines s (step fit lib sim (.newPhoton i c d E) s) (astep fit lib sim (.newPhoton i c d E) t) := by
  simp only [step, astep]
  cases hi : t.vars[i]? with
  | none => trivial
  | some a =>
    obtain ⟨v, hv, r⟩ := R.get hi
    cases a <;> try trivial
    · cases v <;> simp only [RelVar] at r
      rw [hv]
      exact refines_plain R rfl rfl
    · cases v <;> simp only [RelVar] at r
      rw [hv]
      dsimp only
      cases photonNew c d E with
      | none => exact refines_plain R rfl rfl
      | some P => exact refines_plain R rfl ⟨rfl, rfl, getElem?_push_old hv⟩

theorem step_getPhoton {s : St α} {t : ASt α} {fp lk} (R : Rel s t fp lk) (i : Nat) (u : Nat → α) (fuel n : Nat) :
    Refines s (step fit lib sim (.getPhoton i u fuel n) s) (astep fit lib sim (.getPhoton i u fuel n) t) := by
  simp only [step, astep]
  cases hi : t.vars[i]? with
  | none => trivial
  | some a =>
    obtain ⟨v, hv, r⟩ := R.get hi
    cases a <;> try trivial
    · cases v <;> simp only [RelVar] at r
      rw [hv]
      exact refines_plain R rfl rfl
    · rename_i sv
      cases v <;> simp only [RelVar] at r
      rename_i q
      cases q <;> simp only at r
      rename_i q
      obtain ⟨d, o⟩ := r
      rw [hv]
      dsimp only
      rw [St.run_some o.fetch]
      dsimp only
      cases hg : getPhoton sv.pars sv.descr.optic u fuel n with
      | ok x =>
        refine refines_plain R rfl ⟨rfl, rfl, q, getElem?_push_old hv, fun v _ => ?_⟩
        obtain ⟨_, _, _, m1, _⟩ := o
        exact ⟨_, m1, rfl⟩
      | ub => rfl
      | fuel => rfl

theorem step_launch {s : St α} {t : ASt α} {fp lk} (R : Rel s t fp lk) (i : Nat) (es : List α) (leak : Bool) (fuel k : Nat) :
    Refines s (step fit lib sim (.launch i es leak fuel k) s) (astep fit lib sim (.launch i es leak fuel k) t) := by
  simp only [step, astep]
  cases hi : t.vars[i]? with
  | none => trivial
  | some a =>
    obtain ⟨v, hv, r⟩ := R.get hi
    cases a <;> try trivial
    · cases v <;> simp only [RelVar] at r
      rw [hv]
      exact refines_same R
    · rename_i o P
      have key : ∃ d, v = .photon d P ∧ fp i = [] ∧
          (∀ D, t.optic o = some D → ∃ oa, (fetchDescr d).run s.heap = some ((D, oa), s.heap)) ∧
          (∀ P', RelVar s.heap (s.vars.set i (.photon d P')) (t.vars.set i (.photon o P')) [] (.photon o P') (.photon d P')) := by
        cases o with
        | ofDescr j =>
          cases v <;> simp only [RelVar] at r
          rename_i d P2
          obtain ⟨r1, rfl, r3⟩ := r
          refine ⟨d, rfl, r1, ?_, ?_⟩
          · intro D hD
            simp only [ASt.optic] at hD
            split at hD
            · rename_i dv hj
              have rj := R.var j _ _ hj r3
              cases d <;> simp only [RelVar] at rj
              simp only [Option.some.injEq] at hD
              subst hD
              exact ⟨_, rj.fetch⟩
            · cases hD
          · intro P'
            refine ⟨rfl, rfl, ?_⟩
            rw [List.getElem?_set_ne]
            · exact r3
            · rintro rfl; rw [hv] at r3; cases r3
        | ofSrc j =>
          cases v <;> simp only [RelVar] at r
          rename_i d P2
          obtain ⟨r1, rfl, q, r3, r4⟩ := r
          refine ⟨d, rfl, r1, ?_, ?_⟩
          · intro D hD
            simp only [ASt.optic] at hD
            split at hD
            · rename_i dv hj
              have rj := R.var j _ _ hj r3
              simp only [RelVar] at rj
              obtain ⟨d', o'⟩ := rj
              obtain ⟨b, hb, hbd⟩ := r4 _ hj
              obtain ⟨_, _, _, m1, _, _, od, _⟩ := o'
              rw [m1] at hb
              simp only [Option.some.injEq] at hb
              subst hb
              simp only [descrOf] at hbd
              subst hbd
              simp only [Option.some.injEq] at hD
              subst hD
              exact ⟨_, od.fetch⟩
            · cases hD
          · intro P'
            refine ⟨rfl, rfl, q, ?_, ?_⟩
            · rw [List.getElem?_set_ne]
              · exact r3
              · rintro rfl; rw [hv] at r3; cases r3
            · intro v hv'
              refine r4 v ?_
              by_cases hji : i = j
              · subst hji
                rw [List.getElem?_set_self (by
                  by_contra hc
                  rw [List.getElem?_eq_none (by omega)] at hi
                  cases hi)] at hv'
                cases hv'
              · rw [List.getElem?_set_ne hji] at hv'; exact hv'
      obtain ⟨d, rfl, hf, hopt, hrel⟩ := key
      rw [hv]
      dsimp only
      split
      · exact refines_same R
      · cases ho : t.optic o with
        | none => trivial
        | some D =>
          obtain ⟨oa, hfe⟩ := hopt D ho
          rw [St.run_some hfe]
          dsimp only
          cases hl : launch lib (some D) leak fuel k (some P) (some es) true with
          | ok x =>
            obtain ⟨rv, w, P'⟩ := x
            cases P' with
            | none => rfl
            | some P' =>
              refine ⟨_, fp, lk, rfl, ?_⟩
              exact R.set hi hv hf (by intro d; simp) (by intro q; simp) (by intro w; simp) (hrel P')
          | ub => rfl
          | fuel => rfl

theorem step_simulate {s : St α} {t : ASt α} {fp lk} (R : Rel s t fp lk) (i : Nat) (mt np : Int) (leak : Bool) :
    Refines s (step fit lib sim (.simulate i mt np leak) s) (astep fit lib sim (.simulate i mt np leak) t) := by
  simp only [step, astep]
  cases hi : t.vars[i]? with
  | none => trivial
  | some a =>
    obtain ⟨v, hv, r⟩ := R.get hi
    cases a <;> try trivial
    · cases v <;> simp only [RelVar] at r
      rw [hv]
      exact refines_plain R rfl rfl
    · rename_i sv
      cases v <;> simp only [RelVar] at r
      rename_i q
      cases q <;> simp only at r
      rename_i q
      obtain ⟨d, o⟩ := r
      rw [hv]
      dsimp only
      rw [St.run_some o.fetch]
      dsimp only
      split
      · exact refines_plain R rfl rfl
      · have hsim := R.sims
        simp only [hsim]
        cases hs : sim t.sims ⟨some (sv.pars, some sv.descr.optic), false, mt, np, leak, false⟩ with
        | none => rfl
        | some te =>
          dsimp only
          obtain ⟨h', e, R'⟩ := R.setArea hi hv o te.openArea
          have e' : (setOpenArea (some d) te.openArea).run ({ heap := s.heap, vars := s.vars, sims := t.sims } : St α).heap = some ((), h') := e
          rw [St.run_some e']
          rw [hsim] at R'
          obtain ⟨fp2, lk2, R2⟩ := R'.push_plain (t' := (ASt.push { t with vars := t.vars.set i (.src (withArea sv te.openArea)) } (.result i te)))
            (a := .result i te) (v := .result (some q) te) rfl rfl rfl ⟨rfl, rfl, getElem?_push_old hv⟩
          refine ⟨_, fp2, lk2, rfl, ⟨R2.wf, R2.ok, R2.len, ?_, R2.var, R2.out, R2.disj, R2.cover, R2.lkfp, R2.lklive, R2.lknd, R2.lkl⟩⟩
          simp [St.push, ASt.push]

theorem step_readResult {s : St α} {t : ASt α} {fp lk} (R : Rel s t fp lk) (i : Nat) :
    Refines s (step fit lib sim (.readResult i) s) (astep fit lib sim (.readResult i) t) := by
  simp only [step, astep]
  cases hi : t.vars[i]? with
  | none => trivial
  | some a =>
    obtain ⟨v, hv, r⟩ := R.get hi
    cases a <;> try trivial
    · cases v <;> simp only [RelVar] at r
      rw [hv]
      exact refines_same R
    · cases v <;> simp only [RelVar] at r
      obtain ⟨_, rfl, _⟩ := r
      rw [hv]
      exact refines_same R

theorem step_write {s : St α} {t : ASt α} {fp lk} (R : Rel s t fp lk) (i : Nat) :
    Refines s (step fit lib sim (.write i) s) (astep fit lib sim (.write i) t) := by
  simp only [step, astep]
  cases hi : t.vars[i]? with
  | none => trivial
  | some a =>
    obtain ⟨v, hv, r⟩ := R.get hi
    cases a <;> try trivial
    · cases v <;> simp only [RelVar] at r
      rw [hv]
      exact refines_same R
    · rename_i j te
      cases v <;> simp only [RelVar] at r
      rename_i q te'
      obtain ⟨_, rfl, r3⟩ := r
      rw [hv]
      dsimp only
      cases hj : t.vars[j]? with
      | none => trivial
      | some c =>
        cases c <;> try trivial
        rename_i sv
        have rj := R.var j _ _ hj r3
        cases q <;> simp only [RelVar] at rj
        obtain ⟨d, o⟩ := rj
        rw [St.run_some o.fetch]
        exact refines_same R

theorem step_free {s : St α} {t : ASt α} {fp lk} (R : Rel s t fp lk) (i : Nat) :
    Refines s (step fit lib sim (.free i) s) (astep fit lib sim (.free i) t) := by
  simp only [step, astep]
  cases hi : t.vars[i]? with
  | none => trivial
  | some a =>
    have hlt : i < t.vars.length := by
      by_contra hc
      rw [List.getElem?_eq_none (by omega)] at hi
      cases hi
    obtain ⟨v, hv, r⟩ := R.get hi
    have nof : ∀ v', (∀ d, v ≠ .descr d) → (∀ q, v ≠ .src q) → fp i = [] →
        Refines s (.next { s with vars := s.vars.set i v' } .none) (.next { t with vars := t.vars.set i .gone } .none) := by
      intro v' h1 h2 h3
      exact ⟨_, fp, lk, rfl, R.set hi hv h3 h1 h2 (by intro w; simp) rfl⟩
    cases a
    · cases v <;> simp only [RelVar] at r
      rw [hv]
      exact refines_same R
    · cases v <;> simp only [RelVar] at r
      rename_i p
      cases p <;> simp only at r
      rw [hv]
      dsimp only
      rw [St.run_some r.free]
      exact ⟨_, _, _, rfl, R.free hlt⟩
    · cases v <;> simp only [RelVar] at r
      rename_i p
      cases p <;> simp only at r
      rw [hv]
      dsimp only
      rw [St.run_some r.free]
      exact ⟨_, _, _, rfl, R.free hlt⟩
    · cases v <;> simp only [RelVar] at r
      rename_i p
      cases p <;> simp only at r
      rw [hv]
      dsimp only
      obtain ⟨d, o⟩ := r
      rw [St.run_some o.free]
      exact ⟨_, _, _, rfl, R.free hlt⟩
    · rename_i o P
      have hv2 : ∃ d P', v = .photon d P' ∧ fp i = [] := by
        cases o <;> cases v <;> simp only [RelVar] at r
        · exact ⟨_, _, rfl, r.1⟩
        · exact ⟨_, _, rfl, r.1⟩
      obtain ⟨d, P', rfl, hf⟩ := hv2
      rw [hv]
      exact nof _ (by intro d; simp) (by intro q; simp) hf
    · cases v <;> simp only [RelVar] at r
      rw [hv]
      exact nof _ (by intro d; simp) (by intro q; simp) r.1
    · trivial

theorem step_refines {s : St α} {t : ASt α} {fp lk} (R : Rel s t fp lk) (op : Op α) :
    Refines s (step fit lib sim op s) (astep fit lib sim op t) := by
  cases op with
  | newProfile a => exact step_newProfile fit lib sim R a
  | newProfileFromArrays n a b c => exact step_fromArrays fit lib sim R n a b c
  | getArray i f => exact step_getArray fit lib sim R i f
  | newDescription i a b c d => exact step_newDescription fit lib sim R i a b c d
  | getDescrArray i f => exact step_getDescrArray fit lib sim R i f
  | newSource i a => exact step_newSource fit lib sim R i a
  | newPhoton i a b c => exact step_newPhoton fit lib sim R i a b c
  | getPhoton i a b c => exact step_getPhoton fit lib sim R i a b c
  | launch i a b c d => exact step_launch fit lib sim R i a b c d
  | simulate i a b c => exact step_simulate fit lib sim R i a b c
  | readResult i => exact step_readResult fit lib sim R i
  | write i => exact step_write fit lib sim R i
  | free i => exact step_free fit lib sim R i

end Polycap.Sess
