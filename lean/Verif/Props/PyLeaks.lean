import Verif.PyResults
import Verif.Props.MemoryProps

/-!
# C71: leaks of a photon read from Python
-/
namespace Polycap.Py
open CM Mem Memo
variable {α : Type}

/-! ## Specification -/

/-- the `Leak` object of a leak -/
def ofView (v : LView α) : PyLeak α := ⟨v.coords, v.dir, v.elecv, v.weights, v.n_refl⟩

/-- the leak array `q` of a photon holds the leaks `vs` (in the blocks `xs`) -/
def LeakField (m : Nat → Option (Block α)) (q : Ptr) (xs : List (Nat × Nat)) (vs : List (LView α)) : Prop :=
  match q with
  | none => xs = [] ∧ vs = []
  | some a => LeaksAt m a xs vs

/-- a photon in memory, with its external leaks `vE` and its internal leaks `vI` -/
structure PhotonHolds (m : Nat → Option (Block α)) (p : Nat) (ext int : Ptr) (xe xi : List (Nat × Nat)) (vE vI : List (LView α)) (en w amu sc : Ptr) : Prop where
  photon : m p = some (.photon ext int vE.length vI.length en w amu sc)
  extL : LeakField m ext xe vE
  intL : LeakField m int xi vI
  enA : OptArr m en
  wA : OptArr m w
  amuA : OptArr m amu
  scA : OptArr m sc
  nodup : (owned p ext int xe xi en w amu sc).Nodup

/-- what reading gives: one `Leak` per leak; `ValueError` when there is none -/
def leaksGiven (vs : List (LView α)) : LeakSeen α := if vs = [] then .raised .valueError else .leaks (vs.map fun v => some (ofView v))

/-! ## Proof -/

theorem createLoop_run (a : Nat) (ps : List Ptr) : ∀ (xs : List (Nat × Nat)) (vs : List (LView α)) (i : Nat) (h : Heap (Block α)),
    h.mem a = some (.ptrs ps) → (∀ (j : Nat) x, xs[j]? = some x → ps[i + j]? = some (some x.1)) → xs.length = vs.length →
    (∀ (j : Nat) x v, xs[j]? = some x → vs[j]? = some v → LeakAt h.mem x v) →
    (createLoop (some a) i xs.length).run h = some (vs.map (fun v => some (ofView v)), h)
  | [], [], i, h, _, _, _, _ => by simp [createLoop]
  | [], v :: vs, i, h, _, _, hl, _ => by simp at hl
  | x :: xs, [], i, h, _, _, hl, _ => by simp at hl
  | x :: xs, v :: vs, i, h, ha, hp, hl, hv => by
    have hx := hv 0 x v rfl rfl
    have hp0 := hp 0 x rfl
    have ih := createLoop_run a ps xs vs (i + 1) h ha (fun j y hy => by
      have := hp (j + 1) y (by simpa using hy)
      rwa [show i + (j + 1) = i + 1 + j by omega] at this) (by simpa using hl) (fun j y u hy hu => hv (j + 1) y u (by simpa using hy) (by simpa using hu))
    rw [List.length_cons, createLoop, run_bind_some (a := some x.1) (h' := h) (by simp at hp0; simp [ptrAt, run_bind, run_load, ha, hp0]),
      run_bind_some (a := some (ofView v)) (h' := h) (by simp [leakCreate, run_bind, run_load, hx.1, loadArr, hx.2, ofView]),
      run_bind_some ih]
    rfl

theorem createLoop_leaks {h : Heap (Block α)} {a : Nat} {xs : List (Nat × Nat)} {vs : List (LView α)} (L : LeaksAt h.mem a xs vs) :
    (createLoop (some a) 0 vs.length).run h = some (vs.map (fun v => some (ofView v)), h) := by
  obtain ⟨rest, hr⟩ := L.arr
  rw [← L.len]
  exact createLoop_run a _ xs vs 0 h hr (fun j x hx => by
      rw [Nat.zero_add, List.getElem?_append_left (by
        rw [List.length_map]; exact (List.getElem?_eq_some_iff.1 hx).1), List.getElem?_map, hx]; rfl) L.len L.leaks

/-- the cache of one kind: empty, or a copy of the leaks -/
def Cache (m : Nat → Option (Block α)) (arr : Ptr) (n : Nat) (xs : List (Nat × Nat)) (vs : List (LView α)) : Prop :=
  (n = 0 ∧ arr = none ∧ xs = []) ∨ ∃ d, arr = some d ∧ n = vs.length ∧ 0 < n ∧ LeaksAt m d xs vs

def cached (o : PhObj) (xe xi : List (Nat × Nat)) : List Nat := (addrs xe ++ o.ext.toList) ++ (addrs xi ++ o.int.toList)

/-- the state while the leaks of a photon are read; `m0` is the memory before -/
structure Reading (m0 : Nat → Option (Block α)) (p : Nat) (vE vI : List (LView α)) (h : Heap (Block α)) (o : PhObj) (xe xi : List (Nat × Nat)) : Prop where
  wf : h.WF
  orc : ∀ k, h.orc k = true
  p : o.p = some p
  ext : Cache h.mem o.ext o.nExt xe vE
  int : Cache h.mem o.int o.nInt xi vI
  nodup : (cached o xe xi).Nodup
  back : without h.mem (cached o xe xi) = m0

theorem Reading.old {m0 : Nat → Option (Block α)} {p vE vI h o xe xi} (R : Reading m0 p vE vI h o xe xi) {x : Nat} {b : Block α} (hx : m0 x = some b) :
    h.mem x = some b ∧ x ∉ cached o xe xi := by
  rw [← R.back] at hx
  simp only [Memo.without] at hx
  split_ifs at hx with hc
  exact ⟨hx, hc⟩

theorem leaksAt_same {m m' : Nat → Option (Block α)} {a : Nat} {xs vs} (L : LeaksAt m a xs vs) (hm : ∀ x b, m x = some b → m' x = some b) :
    LeaksAt m' a xs vs where
  arr := by obtain ⟨r, hr⟩ := L.arr; exact ⟨r, hm _ _ hr⟩
  len := L.len
  leaks i x v hx hv := ⟨hm _ _ (L.leaks i x v hx hv).1, hm _ _ (L.leaks i x v hx hv).2⟩

theorem LeakField.same {m m' : Nat → Option (Block α)} {q : Ptr} {xs vs} (L : LeakField m q xs vs) (hm : ∀ x b, m x = some b → m' x = some b) :
    LeakField m' q xs vs := by
  cases q with
  | none => exact L
  | some a => exact leaksAt_same L hm

theorem Cache.same {m m' : Nat → Option (Block α)} {q : Ptr} {n xs vs} (L : Cache m q n xs vs) (hm : ∀ x b, m x = some b → m' x = some b) :
    Cache m' q n xs vs := by
  rcases L with h | ⟨d, h1, h2, h3, h4⟩
  · exact Or.inl h
  · exact Or.inr ⟨d, h1, h2, h3, leaksAt_same h4 hm⟩

/-- computations that only use memory through the C functions keep fresh addresses fresh -/
def Tame {A : Type} (x : CM (Block α) A) : Prop := ∀ h a h', x.run h = some (a, h') → (h.WF → h'.WF) ∧ h'.orc = h.orc

theorem Tame.pure {A : Type} (a : A) : Tame (Pure.pure a : CM (Block α) A) := fun h b h' e => by
  rw [run_pure] at e; cases e; exact ⟨id, rfl⟩
theorem Tame.ub {A : Type} : Tame (CM.ub : CM (Block α) A) := fun h b h' e => by cases e
theorem Tame.bind {A B : Type} {x : CM (Block α) A} {f : A → CM (Block α) B} (hx : Tame x) (hf : ∀ a, Tame (f a)) : Tame (x >>= f) := fun h b h' e => by
  rw [run_bind] at e
  cases hr : x.run h with
  | none => rw [hr] at e; cases e
  | some r =>
    rw [hr] at e
    obtain ⟨w1, o1⟩ := hx h r.1 r.2 hr
    obtain ⟨w2, o2⟩ := hf r.1 r.2 b h' e
    exact ⟨w2 ∘ w1, o2.trans o1⟩
theorem Tame.malloc (b : Block α) : Tame (CM.malloc b) := fun h a h' e => by
  rw [run_malloc] at e
  split_ifs at e <;> cases e <;> refine ⟨fun wf x hx => ?_, rfl⟩
  · have hx' : h.next + 1 ≤ x := hx
    show upd h.mem h.next _ x = none
    rw [upd_other _ _ (by omega)]; exact wf x (by omega)
  · exact wf x (Nat.le_of_succ_le hx)
theorem Tame.load (p : Ptr) : Tame (CM.load p : CM (Block α) (Block α)) := fun h a h' e => by
  cases p with
  | none => cases e
  | some q => rw [run_load] at e; split at e <;> cases e; exact ⟨id, rfl⟩
theorem Tame.free (p : Ptr) : Tame (CM.free p : CM (Block α) Unit) := fun h a h' e => by
  cases p with
  | none => cases e; exact ⟨id, rfl⟩
  | some q =>
    rw [run_free] at e; split at e <;> cases e
    refine ⟨fun wf x hx => ?_, rfl⟩
    show upd h.mem q none x = none
    simp only [upd]; split_ifs
    · rfl
    · exact wf x hx
theorem Tame.store (p : Ptr) (b : Block α) : Tame (CM.store p b : CM (Block α) Unit) := fun h a h' e => by
  cases p with
  | none => cases e
  | some q =>
    rw [run_store] at e
    cases hq : h.mem q with
    | none => rw [hq] at e; cases e
    | some c =>
      rw [hq] at e; cases e
      refine ⟨fun wf x hx => ?_, rfl⟩
      show upd h.mem q (some b) x = none
      have : x ≠ q := fun hxq => by subst hxq; rw [wf x hx] at hq; cases hq
      rw [upd_other _ _ this]; exact wf x hx
theorem Tame.ite {A : Type} {c : Prop} [Decidable c] {x y : CM (Block α) A} (hx : Tame x) (hy : Tame y) : Tame (if c then x else y) := by
  split_ifs <;> assumption

theorem tame_loadArr (p : Ptr) (n : Nat) : Tame (loadArr p n : CM (Block α) (List α)) := by
  unfold loadArr
  refine (Tame.load p).bind fun b => ?_
  cases b <;> first | exact Tame.ub | (dsimp only; exact Tame.ite (Tame.pure _) Tame.ub)

theorem tame_storeArr (p : Ptr) (xs : List α) : Tame (storeArr p xs : CM (Block α) Unit) := by
  unfold storeArr
  refine (Tame.load p).bind fun b => ?_
  cases b <;> first | exact Tame.ub | (dsimp only; exact Tame.ite (Tame.store _ _) Tame.ub)

theorem tame_ptrAt (p : Ptr) (i : Nat) : Tame (ptrAt p i : CM (Block α) Ptr) := by
  unfold ptrAt
  refine (Tame.load p).bind fun b => ?_
  cases b <;> first | exact Tame.ub | (dsimp only; split <;> first | exact Tame.pure _ | exact Tame.ub)

theorem tame_setPtrAt (p : Ptr) (i : Nat) (q : Ptr) : Tame (setPtrAt p i q : CM (Block α) Unit) := by
  unfold setPtrAt
  refine (Tame.load p).bind fun b => ?_
  cases b <;> first | exact Tame.ub | (dsimp only; exact Tame.ite (Tame.store _ _) Tame.ub)

theorem tame_copyLoop (src dst : Ptr) : ∀ (k i : Nat), Tame (copyLoop src dst i k : CM (Block α) Bool)
  | 0, i => Tame.pure _
  | k + 1, i => by
    unfold copyLoop
    refine (Tame.malloc _).bind fun q => (tame_setPtrAt _ _ _).bind fun _ => Tame.ite (Tame.pure _) ((tame_ptrAt _ _).bind fun l => (Tame.load l).bind fun b => ?_)
    cases b <;> first | exact Tame.ub | skip
    exact (Tame.store _ _).bind fun _ => (Tame.malloc _).bind fun w' => (Tame.store _ _).bind fun _ => Tame.ite (Tame.pure _)
      ((tame_loadArr _ _).bind fun xs => (tame_storeArr _ _).bind fun _ => tame_copyLoop src dst k (i + 1))

theorem tame_getLeaksFrom (arr : Ptr) (n : Nat) (e : EArg) : Tame (getLeaksFrom arr n e : CM (Block α) LeakRet) := by
  unfold getLeaksFrom
  exact Tame.ite (Tame.pure _) ((Tame.malloc _).bind fun out => Tame.ite (Tame.pure _) ((tame_copyLoop _ _ _ _).bind fun b => Tame.ite (Tame.pure _) (Tame.pure _)))

theorem tame_getLeakData (isExt : Bool) (p : Ptr) (e : EArg) : Tame (getLeakData isExt p e : CM (Block α) LeakRet) := by
  unfold getLeakData
  refine Tame.ite (Tame.pure _) ((Tame.load p).bind fun b => ?_)
  cases b <;> first | exact Tame.ub | exact Tame.ite (tame_getLeaksFrom _ _ _) (tame_getLeaksFrom _ _ _)

/-- one read of a kind of which `vs` are the leaks: the new cache -/
theorem leakProp_run {h : Heap (Block α)} (wf : h.WF) (horc : ∀ k, h.orc k = true) (isExt : Bool) {p : Nat} {ext int : Ptr} {nE nI : Nat} {en w amu sc : Ptr}
    (hp : h.mem p = some (.photon ext int nE nI en w amu sc)) {q : Ptr} (hq : (if isExt then ext else int) = q) {xs : List (Nat × Nat)} {vs : List (LView α)}
    (hn : (if isExt then nE else nI) = vs.length) (L : LeakField h.mem q xs vs) {n : Nat} {arr : Ptr} {ys : List (Nat × Nat)} (C : Cache h.mem arr n ys vs) :
    ∃ h' n' arr' ys', (leakProp isExt (some p) n arr).run h = some ((leaksGiven vs, n', arr'), h') ∧ h'.WF ∧ (∀ k, h'.orc k = true) ∧
      Cache h'.mem arr' n' ys' vs ∧ (∀ x b, h.mem x = some b → h'.mem x = some b) ∧
      ((h' = h ∧ n' = n ∧ arr' = arr ∧ ys' = ys) ∨ (arr = none ∧ ys = [] ∧ (addrs ys' ++ arr'.toList).Nodup ∧ (∀ y ∈ addrs ys' ++ arr'.toList, h.mem y = none) ∧
        without h'.mem (addrs ys' ++ arr'.toList) = h.mem)) := by
  rcases C with ⟨rfl, rfl, rfl⟩ | ⟨d, rfl, rfl, h0, C⟩
  · by_cases hv : vs = []
    · subst hv
      refine ⟨h, 0, none, [], ?_, wf, horc, Or.inl ⟨rfl, rfl, rfl⟩, fun _ _ hx => hx, Or.inl ⟨rfl, rfl, rfl, rfl⟩⟩
      rw [leakProp, if_pos rfl, run_bind_some (leak_data_empty isExt h (some none) p ext int nE nI en w amu sc hp hn)]
      simp [EArg.set, leaksGiven, excOf]
    · have hpos : 0 < vs.length := List.length_pos_iff.2 hv
      cases q with
      | none => exact absurd L.2 hv
      | some a =>
        obtain ⟨r, h', e1, e2, e3, e4, -, e6⟩ := leak_data_copies isExt h wf (some none) p ext int nE nI en w amu sc hp a hq xs vs L hn hpos
        obtain ⟨e7, d, ys, e8, e9, e10, e11, e12⟩ := e6 (e4 horc)
        obtain ⟨t1, t2⟩ := tame_getLeakData isExt (some p) (some none) h r h' e1
        refine ⟨h', vs.length, some d, ys, ?_, t1 wf, fun k => by rw [t2]; exact horc k, Or.inr ⟨d, rfl, rfl, hpos, e9⟩, e3,
          Or.inr ⟨rfl, rfl, by simpa using e10, by simpa using e11, by simpa using e12⟩⟩
        rw [leakProp, if_pos rfl, run_bind_some e1]
        simp only [e7, e2, e8, Option.getD_some, hpos, if_true]
        rw [run_bind_some (createLoop_leaks e9), leaksGiven, if_neg hv]
        rfl
  · have hv : vs ≠ [] := List.length_pos_iff.1 h0
    refine ⟨h, vs.length, some d, ys, ?_, wf, horc, Or.inr ⟨d, rfl, rfl, h0, C⟩, fun _ _ hx => hx, Or.inl ⟨rfl, rfl, rfl, rfl⟩⟩
    rw [leakProp, if_neg (by omega), run_bind_some (createLoop_leaks C), leaksGiven, if_neg hv]
    rfl

theorem Cache.live {m : Nat → Option (Block α)} {q : Ptr} {n xs vs} (C : Cache m q n xs vs) : ∀ y ∈ addrs xs ++ q.toList, m y ≠ none := by
  rcases C with ⟨-, rfl, rfl⟩ | ⟨d, rfl, -, -, L⟩
  · intro y hy; simp [addrs] at hy
  · intro y hy
    rw [List.mem_append] at hy
    rcases hy with hy | hy
    · obtain ⟨x, hx, hy⟩ := List.mem_flatMap.1 hy
      obtain ⟨j, hj, rfl⟩ := List.mem_iff_getElem.1 hx
      have hj' : j < vs.length := by rw [← L.len]; exact hj
      have hl := L.leaks j xs[j] vs[j] (List.getElem?_eq_getElem _) (List.getElem?_eq_getElem _)
      simp only [List.mem_cons, List.not_mem_nil, or_false] at hy
      rcases hy with rfl | rfl
      · rw [hl.1]; simp
      · rw [hl.2]; simp
    · obtain ⟨r, hr⟩ := L.arr
      simp at hy; subst hy; rw [hr]; simp

theorem without_comm {B : Type} (m : Nat → Option B) (k l : List Nat) : without m (k ++ l) = without m (l ++ k) := by
  funext x; simp only [Memo.without, List.mem_append]; split_ifs <;> tauto

/-- one read -/
theorem Reading.step {m0 : Nat → Option (Block α)} {p : Nat} {ext int : Ptr} {xe xi : List (Nat × Nat)} {vE vI : List (LView α)} {en w amu sc : Ptr}
    (P : PhotonHolds m0 p ext int xe xi vE vI en w amu sc) {h o ye yi} (R : Reading m0 p vE vI h o ye yi) (b : Bool) :
    ∃ h' o' ye' yi', (readPhotonLeaks b o).run h = some ((leaksGiven (if b then vE else vI), o'), h') ∧ Reading m0 p vE vI h' o' ye' yi' := by
  have hm : ∀ x c, m0 x = some c → h.mem x = some c := fun x c hx => (R.old hx).1
  have nd := R.nodup
  have bk := R.back
  unfold cached at nd bk
  rw [List.nodup_append] at nd
  cases b with
  | true =>
    obtain ⟨h', n', arr', ys', e1, e2, e3, e4, e5, e6⟩ := leakProp_run R.wf R.orc true (hm _ _ P.photon) rfl rfl (P.extL.same hm) R.ext
    refine ⟨h', { o with nExt := n', ext := arr' }, ys', yi, ?_, ⟨e2, e3, R.p, e4, R.int.same e5, ?_, ?_⟩⟩
    · rw [readPhotonLeaks, if_neg (by rw [R.p]; simp), if_pos rfl, R.p, run_bind_some e1]; rfl
    · rcases e6 with ⟨-, -, rfl, rfl⟩ | ⟨f1, f2, f3, f4, f5⟩
      · exact R.nodup
      · exact List.nodup_append.2 ⟨f3, nd.2.1, fun a ha c hc hac => R.int.live c hc (hac ▸ f4 a ha)⟩
    · rcases e6 with ⟨rfl, -, rfl, rfl⟩ | ⟨f1, f2, f3, f4, f5⟩
      · exact R.back
      · rw [f1, f2] at bk
        unfold cached
        rw [← without_append]
        dsimp only
        rw [f5, ← bk]; rfl
  | false =>
    obtain ⟨h', n', arr', ys', e1, e2, e3, e4, e5, e6⟩ := leakProp_run R.wf R.orc false (hm _ _ P.photon) rfl rfl (P.intL.same hm) R.int
    refine ⟨h', { o with nInt := n', int := arr' }, ye, ys', ?_, ⟨e2, e3, R.p, R.ext.same e5, e4, ?_, ?_⟩⟩
    · rw [readPhotonLeaks, if_neg (by rw [R.p]; simp), if_neg (by simp), R.p, run_bind_some e1]; rfl
    · rcases e6 with ⟨-, -, rfl, rfl⟩ | ⟨f1, f2, f3, f4, f5⟩
      · exact R.nodup
      · exact List.nodup_append.2 ⟨nd.1, f3, fun a ha c hc hac => R.ext.live a ha (hac ▸ f4 c hc)⟩
    · rcases e6 with ⟨rfl, -, rfl, rfl⟩ | ⟨f1, f2, f3, f4, f5⟩
      · exact R.back
      · rw [f1, f2] at bk
        unfold cached
        rw [without_comm, ← without_append]
        dsimp only
        rw [f5, ← bk]; simp [addrs]

theorem Reading.run {m0 : Nat → Option (Block α)} {p : Nat} {ext int : Ptr} {xe xi : List (Nat × Nat)} {vE vI : List (LView α)} {en w amu sc : Ptr}
    (P : PhotonHolds m0 p ext int xe xi vE vI en w amu sc) : ∀ (bs : List Bool) {h o ye yi}, Reading m0 p vE vI h o ye yi →
    ∃ h' o' ye' yi', (readAllLeaks bs o).run h = some ((bs.map (fun b => leaksGiven (if b then vE else vI)), o'), h') ∧ Reading m0 p vE vI h' o' ye' yi'
  | [], h, o, ye, yi, R => ⟨h, o, ye, yi, rfl, R⟩
  | b :: bs, h, o, ye, yi, R => by
    obtain ⟨h1, o1, ye1, yi1, e1, R1⟩ := R.step P b
    obtain ⟨h2, o2, ye2, yi2, e2, R2⟩ := Reading.run P bs R1
    refine ⟨h2, o2, ye2, yi2, ?_, R2⟩
    rw [readAllLeaks, run_bind_some e1]
    dsimp only
    rw [run_bind_some e2]; rfl

theorem freeCache_run {h : Heap (Block α)} {q : Ptr} {n xs vs} (C : Cache h.mem q n xs vs) (hn : (addrs xs ++ q.toList).Nodup) :
    (freeCache q n).run h = some ((), { h with mem := without h.mem (addrs xs ++ q.toList) }) := by
  rcases C with ⟨rfl, rfl, rfl⟩ | ⟨d, rfl, rfl, h0, L⟩
  · simp [freeCache, addrs, without_nil]
  · have e := freeLeakArr_run h (some d) xs vs.length ⟨L.len, vs, L⟩ hn
    rw [freeCache, if_pos h0]
    rwa [freeLeakArr, if_neg (by simp)] at e

theorem Cache.without {m : Nat → Option (Block α)} {q : Ptr} {n xs vs} (C : Cache m q n xs vs) {l : List Nat} (hl : ∀ y ∈ addrs xs ++ q.toList, y ∉ l) :
    Cache (without m l) q n xs vs := by
  rcases C with h | ⟨d, rfl, h2, h3, L⟩
  · exact Or.inl h
  · exact Or.inr ⟨d, rfl, h2, h3, L.without (hl d (by simp)) (fun y hy => hl y (by simp [hy]))⟩

/-- **C71.**  With enough memory, however often and in whatever order `extleak_data` and `intleak_data` of a photon are read: every read gives one `Leak` per leak of
the photon, with its values (`ValueError` if there is none); nothing of what was in memory before changes; and when the object is collected, exactly the
photon and what it owns disappears from the memory there was before the first read. -/
theorem photon_leaks_partial {h : Heap (Block α)} (wf : h.WF) (horc : ∀ k, h.orc k = true) {p : Nat} {ext int : Ptr} {xe xi : List (Nat × Nat)}
    {vE vI : List (LView α)} {en w amu sc : Ptr} (P : PhotonHolds h.mem p ext int xe xi vE vI en w amu sc) (bs : List Bool) :
    ∃ h' o' h'', (readAllLeaks bs (phNew (some p))).run h = some ((bs.map (fun b => leaksGiven (if b then vE else vI)), o'), h') ∧
      (∀ x b, h.mem x = some b → h'.mem x = some b) ∧
      (photonDealloc o').run h' = some ((), h'') ∧ h''.mem = without h.mem (owned p ext int xe xi en w amu sc) := by
  have R0 : Reading h.mem p vE vI h (phNew (some p)) [] [] :=
    ⟨wf, horc, rfl, Or.inl ⟨rfl, rfl, rfl⟩, Or.inl ⟨rfl, rfl, rfl⟩, by simp [cached, addrs, phNew], by simp [cached, addrs, phNew, without_nil]⟩
  obtain ⟨h', o', ye, yi, e, R⟩ := R0.run P bs
  have hm : ∀ x c, h.mem x = some c → h'.mem x = some c := fun x c hx => (R.old hx).1
  have nd := R.nodup
  have bk := R.back
  unfold cached at nd bk
  rw [List.nodup_append] at nd
  have leaks : ∀ {q : Ptr} {xs vs}, LeakField h.mem q xs vs → OptLeaks h'.mem q xs vs.length := fun {q xs vs} L => by
    have L' := L.same hm
    cases q with
    | none => exact L'.1
    | some a => exact ⟨LeaksAt.len L', vs, L'⟩
  have arr : ∀ {q : Ptr}, OptArr h.mem q → OptArr h'.mem q := fun A a ha => by obtain ⟨xs, hx⟩ := A a ha; exact ⟨xs, hm _ _ hx⟩
  have PA : PhotonAt h'.mem p ext int xe xi en w amu sc :=
    ⟨⟨vE.length, vI.length, hm _ _ P.photon, leaks P.extL, leaks P.intL⟩, arr P.enA, arr P.wA, arr P.amuA, arr P.scA⟩
  have ownLive : ∀ x ∈ owned p ext int xe xi en w amu sc, h.mem x ≠ none := by
    have la : ∀ {q : Ptr}, OptArr h.mem q → ∀ x ∈ q.toList, h.mem x ≠ none := fun A x hx => by
      obtain ⟨xs, h1⟩ := A x (by simpa using hx); rw [h1]; simp
    have ll : ∀ {q : Ptr} {xs vs}, LeakField h.mem q xs vs → ∀ x ∈ addrs xs ++ q.toList, h.mem x ≠ none := fun {q xs vs} L x hx => by
      cases q with
      | none => obtain ⟨rfl, rfl⟩ := L; simp [addrs] at hx
      | some a =>
        by_cases hv : vs = []
        · subst hv
          have : xs = [] := List.length_eq_zero_iff.1 (LeaksAt.len L)
          subst this
          simp [addrs] at hx; subst hx
          obtain ⟨r, hr⟩ := LeaksAt.arr L; rw [hr]; simp
        · exact Cache.live (n := vs.length) (Or.inr ⟨a, rfl, rfl, List.length_pos_iff.2 hv, L⟩) x hx
    intro x hx
    unfold owned at hx
    simp only [List.mem_append (a := x), List.mem_cons, List.not_mem_nil, or_false] at hx
    rcases hx with (((((hx | hx) | hx) | hx) | hx) | hx) | rfl
    · exact la P.enA x hx
    · exact la P.wA x hx
    · exact la P.amuA x hx
    · exact la P.scA x hx
    · exact ll P.extL x (List.mem_append.2 hx)
    · exact ll P.intL x (List.mem_append.2 hx)
    · rw [P.photon]; simp
  have disj : ∀ x ∈ owned p ext int xe xi en w amu sc, x ∉ cached o' ye yi := fun x hx => by
    cases hb : h.mem x with
    | none => exact absurd hb (ownLive x hx)
    | some c => exact (R.old hb).2
  refine ⟨h', o', { h' with mem := without h.mem (owned p ext int xe xi en w amu sc) }, e, hm, ?_, rfl⟩
  have f1 := (photon_free_correct h').2 p ext int xe xi en w amu sc PA P.nodup
  have f2 := freeCache_run (h := { h' with mem := without h'.mem (owned p ext int xe xi en w amu sc) }) (xs := ye) (vs := vE)
    (R.ext.without (fun y hy hc => disj y hc (List.mem_append.2 (Or.inl hy)))) nd.1
  have f3 := freeCache_run (h := { h' with mem := without (without h'.mem (owned p ext int xe xi en w amu sc)) (addrs ye ++ o'.ext.toList) }) (xs := yi) (vs := vI)
    ((R.int.without (fun y hy hc => disj y hc (List.mem_append.2 (Or.inr hy)))).without (fun y hy hc => nd.2.2 y hc y hy rfl)) nd.2.1
  rw [photonDealloc, R.p, if_neg (by simp), run_bind_some f1, run_bind_some f2, f3]
  dsimp only
  rw [without_append, without_append, without_comm, ← without_append, bk]

/-- FINDING (C71): once read, the leaks are kept: after another launch (any change of the photon and of other memory that leaves the copy alone) the property still
gives the leaks of the first one. -/
theorem photon_leaks_stale {h : Heap (Block α)} {o : PhObj} {d : Nat} {xs : List (Nat × Nat)} {vs : List (LView α)} (hp : o.p ≠ none) (he : o.ext = some d)
    (hn : o.nExt = vs.length) (h0 : 0 < vs.length) (L : LeaksAt h.mem d xs vs) :
    (readPhotonLeaks true o).run h = some ((.leaks (vs.map fun v => some (ofView v)), o), h) := by
  rw [readPhotonLeaks, if_neg hp, if_pos rfl, leakProp, if_neg (by omega), he, hn, run_bind, run_bind_some (createLoop_leaks L)]
  simp [← hn, ← he]

/-- FINDING (C71): when the first allocation fails, the property raises `MemoryError` and leaves a count without an array: reading again and collecting the object both
follow a NULL pointer. -/
theorem photon_leaks_memory_error {h : Heap (Block α)} {p : Nat} {ext int : Ptr} {nE nI : Nat} {en w amu sc : Ptr}
    (hp : h.mem p = some (.photon ext int nE nI en w amu sc)) (h0 : nE ≠ 0) (ho : h.orc h.next = false) :
    ∃ o' h', (readPhotonLeaks true (phNew (some p))).run h = some ((.raised .memoryError, o'), h') ∧
      (readPhotonLeaks true o').run h' = none ∧ ∀ g : Heap (Block α), (photonDealloc o').run g = none := by
  refine ⟨⟨some p, none, nE, none, 0⟩, { h with next := h.next + 1 }, ?_, ?_, fun g => ?_⟩
  · simp [readPhotonLeaks, phNew, leakProp, getLeakData, getLeaksFrom, run_bind, run_load, hp, h0, run_malloc, ho, EArg.set, excOf]
  · obtain ⟨k, rfl⟩ := Nat.exists_eq_succ_of_ne_zero h0
    simp [readPhotonLeaks, leakProp, createLoop, ptrAt, run_bind]
  · obtain ⟨k, rfl⟩ := Nat.exists_eq_succ_of_ne_zero h0
    rw [photonDealloc, if_neg (by simp), run_bind]
    cases (photonFree (some p)).run g with
    | none => rfl
    | some r => simp [freeCache, freeLeaks, ptrAt, run_bind]

/-- the hypotheses are met by a photon with two external leaks and no internal one -/
example :
    let v : LView Rat := ⟨⟨0, 0, 1⟩, ⟨0, 0, 1⟩, ⟨1, 0, 0⟩, 2, [1/2, 1/3]⟩
    let u : LView Rat := ⟨⟨0, 1, 1⟩, ⟨0, 0, 1⟩, ⟨1, 0, 0⟩, 3, [1/4, 1/5]⟩
    let h : Heap (Block Rat) := ⟨fun x => if x = 0 then some (.photon (some 1) none 2 0 (some 6) none none none) else
      if x = 1 then some (.ptrs [some 2, some 4]) else if x = 2 then some (.leak v.coords v.dir v.elecv 2 (some 3) 2) else
      if x = 3 then some (.doubles v.weights) else if x = 4 then some (.leak u.coords u.dir u.elecv 2 (some 5) 3) else
      if x = 5 then some (.doubles u.weights) else if x = 6 then some (.doubles [10, 20]) else none, 7, fun _ => true⟩
    h.WF ∧ PhotonHolds h.mem 0 (some 1) none [(2, 3), (4, 5)] [] [v, u] [] (some 6) none none none := by
  intro v u h
  have L : LeaksAt h.mem 1 [(2, 3), (4, 5)] [v, u] := ⟨⟨[], rfl⟩, rfl, fun i x w hx hw => by
    rcases i with _ | _ | i
    · simp at hx hw; subst hx hw; exact ⟨rfl, rfl⟩
    · simp at hx hw; subst hx hw; exact ⟨rfl, rfl⟩
    · simp at hx⟩
  have n : ∀ (m : Nat → Option (Block Rat)), OptArr m none := fun m a ha => by cases ha
  refine ⟨fun a ha => ?_, ⟨rfl, L, ⟨rfl, rfl⟩, fun a ha => ?_, n _, n _, n _, by decide⟩⟩
  · have : 7 ≤ a := ha
    show (if a = 0 then _ else _) = none
    simp [show a ≠ 0 by omega, show a ≠ 1 by omega, show a ≠ 2 by omega, show a ≠ 3 by omega, show a ≠ 4 by omega, show a ≠ 5 by omega, show a ≠ 6 by omega]
  · injection ha with ha; subst ha; exact ⟨_, rfl⟩
end Polycap.Py
