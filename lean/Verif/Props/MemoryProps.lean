import Verif.Memory
import Verif.Props.ProfileHeap

/-!
# C45, C47: memory of photons and leaks
-/
namespace Polycap.Memo
open CM Mem

section photon
variable {α : Type}

/-! ## Specification -/

/-- A leak as a value. -/
structure LView (α : Type) where
  coords : V3 α
  dir : V3 α
  elecv : V3 α
  n_refl : Int
  weights : List α

/-- The blocks `x.1` (struct) and `x.2` (weights) hold the leak `v`. -/
def LeakAt (m : Nat → Option (Block α)) (x : Nat × Nat) (v : LView α) : Prop :=
  m x.1 = some (.leak v.coords v.dir v.elecv v.weights.length (some x.2) v.n_refl) ∧ m x.2 = some (.doubles v.weights)

/-- The array at `a` points to leaks at `xs` holding `vs`. -/
structure LeaksAt (m : Nat → Option (Block α)) (a : Nat) (xs : List (Nat × Nat)) (vs : List (LView α)) : Prop where
  arr : ∃ rest, m a = some (.ptrs (xs.map (fun x => some x.1) ++ rest))
  len : xs.length = vs.length
  leaks : ∀ (i : Nat) x v, xs[i]? = some x → vs[i]? = some v → LeakAt m x v

/-- `m` without the blocks in `l` -/
def without {B : Type} (m : Nat → Option B) (l : List Nat) : Nat → Option B := fun x => if x ∈ l then none else m x

/-- the addresses of leaks -/
def addrs (xs : List (Nat × Nat)) : List Nat := xs.flatMap (fun x => [x.1, x.2])

/-! ## Releasing -/

theorem without_nil {B : Type} (m : Nat → Option B) : without m [] = m := by funext x; simp [without]
theorem without_append {B : Type} (m : Nat → Option B) (k l : List Nat) : without (without m k) l = without m (k ++ l) := by
  funext x; simp only [without, List.mem_append]; split_ifs <;> simp_all
theorem upd_none {B : Type} (m : Nat → Option B) (a : Nat) : upd m a none = without m [a] := by
  funext x; simp [upd, without]

theorem leakFree_run (h : Heap (Block α)) (x : Nat × Nat) (v : LView α) (hl : LeakAt h.mem x v) :
    (leakFree (some x.1)).run h = some ((), { h with mem := without h.mem [x.1, x.2] }) := by
  have hne : x.1 ≠ x.2 := by intro e; have := hl.1; rw [e, hl.2] at this; cases this
  simp [leakFree, run_bind, run_load, hl.1, run_free, hl.2, upd, hne]
  funext y; simp [without, upd]; grind

/-- **C47.**  `polycap_leak_free` accepts NULL, and releases exactly the two blocks of a leak. -/
theorem leak_free_correct (h : Heap (Block α)) :
    (leakFree none).run h = some ((), h) ∧
    ∀ (x : Nat × Nat) (v : LView α), LeakAt h.mem x v → (leakFree (some x.1)).run h = some ((), { h with mem := without h.mem [x.1, x.2] }) :=
  ⟨rfl, leakFree_run h⟩

theorem freeLeaks_run (a : Nat) (ps : List Ptr) : ∀ (xs : List (Nat × Nat)) (vs : List (LView α)) (i : Nat) (h : Heap (Block α)),
    h.mem a = some (.ptrs ps) → (∀ (j : Nat) x, xs[j]? = some x → ps[i + j]? = some (some x.1)) → xs.length = vs.length →
    (∀ (j : Nat) x v, xs[j]? = some x → vs[j]? = some v → LeakAt h.mem x v) → (addrs xs).Nodup → a ∉ addrs xs →
    (freeLeaks (some a) i xs.length).run h = some ((), { h with mem := without h.mem (addrs xs) })
  | [], _, i, h, _, _, _, _, _, _ => by simp [freeLeaks, addrs, without_nil]
  | x :: xs, [], i, h, _, _, hl, _, _, _ => by simp at hl
  | x :: xs, v :: vs, i, h, ha, hp, hl, hv, hn, hna => by
    have hx := hv 0 x v rfl rfl
    have hp0 := hp 0 x rfl
    simp only [addrs, List.flatMap_cons, List.cons_append, List.nil_append, List.nodup_cons, List.mem_cons, not_or] at hn hna
    have ih := freeLeaks_run a ps xs vs (i + 1) { h with mem := without h.mem [x.1, x.2] }
      (by simp [without, hna.1, hna.2.1, ha]) (fun j y hy => by rw [show i + 1 + j = i + (j + 1) by omega]; exact hp (j + 1) y hy)
      (by simpa using hl) (fun j y w hy hw => by
        have hm : y ∈ xs := List.mem_of_getElem? hy
        have h1 : y.1 ∈ addrs xs := List.mem_flatMap.2 ⟨y, hm, by simp⟩
        have h2 : y.2 ∈ addrs xs := List.mem_flatMap.2 ⟨y, hm, by simp⟩
        obtain ⟨l1, l2⟩ := hv (j + 1) y w hy hw
        have e1 : y.1 ≠ x.1 := fun e => hn.1.2 (e ▸ h1)
        have e2 : y.1 ≠ x.2 := fun e => hn.2.1 (e ▸ h1)
        have e3 : y.2 ≠ x.1 := fun e => hn.1.2 (e ▸ h2)
        have e4 : y.2 ≠ x.2 := fun e => hn.2.1 (e ▸ h2)
        exact ⟨by simp [without, e1, e2, l1], by simp [without, e3, e4, l2]⟩) hn.2.2 hna.2.2
    rw [List.length_cons, freeLeaks]
    have hq : (ptrAt (some a) i).run h = some (some x.1, h) := by
      simp only [ptrAt, run_bind, run_load, ha]
      rw [show ps[i]? = some (some x.1) from by simpa using hp0]
      rfl
    rw [run_bind_some hq, run_bind_some (leakFree_run h x v hx), ih]
    simp only [without_append]
    rfl

/-- an optional array of `double`: NULL or a live block -/
def OptArr (m : Nat → Option (Block α)) (p : Ptr) : Prop := ∀ a, p = some a → ∃ xs, m a = some (.doubles xs)

/-- an optional array of leaks -/
def OptLeaks (m : Nat → Option (Block α)) (p : Ptr) (xs : List (Nat × Nat)) (n : Nat) : Prop :=
  match p with
  | none => xs = []
  | some a => xs.length = n ∧ ∃ vs, LeaksAt m a xs vs

/-- The photon at `p` and everything it owns: four optional arrays and two arrays of leaks. -/
structure PhotonAt (m : Nat → Option (Block α)) (p : Nat) (ext int : Ptr) (xe xi : List (Nat × Nat)) (en w amu sc : Ptr) : Prop where
  photon : ∃ nE nI, m p = some (.photon ext int nE nI en w amu sc) ∧ OptLeaks m ext xe nE ∧ OptLeaks m int xi nI
  en : OptArr m en
  w : OptArr m w
  amu : OptArr m amu
  sc : OptArr m sc

/-- everything a photon owns -/
def owned (p : Nat) (ext int : Ptr) (xe xi : List (Nat × Nat)) (en w amu sc : Ptr) : List Nat :=
  en.toList ++ w.toList ++ amu.toList ++ sc.toList ++ (addrs xe ++ ext.toList) ++ (addrs xi ++ int.toList) ++ [p]

theorem free_opt {B : Type} (h : Heap B) (p : Ptr) (hp : ∀ a, p = some a → h.mem a ≠ none) :
    (free p).run h = some ((), { h with mem := without h.mem p.toList }) := by
  cases p with
  | none => simp [without_nil]
  | some a =>
    cases hb : h.mem a with
    | none => exact absurd hb (hp a rfl)
    | some b => rw [run_free_ok hb, upd_none]; rfl

theorem LeaksAt.without {m : Nat → Option (Block α)} {a : Nat} {xs : List (Nat × Nat)} {vs : List (LView α)} (H : LeaksAt m a xs vs) {l : List Nat}
    (h1 : a ∉ l) (h2 : ∀ y ∈ addrs xs, y ∉ l) : LeaksAt (without m l) a xs vs where
  arr := by obtain ⟨r, hr⟩ := H.arr; exact ⟨r, by simp [Memo.without, h1, hr]⟩
  len := H.len
  leaks i x v hx hv := by
    obtain ⟨l1, l2⟩ := H.leaks i x v hx hv
    have hm : x ∈ xs := List.mem_of_getElem? hx
    have a1 := h2 x.1 (List.mem_flatMap.2 ⟨x, hm, by simp⟩)
    have a2 := h2 x.2 (List.mem_flatMap.2 ⟨x, hm, by simp⟩)
    exact ⟨by simp [Memo.without, a1, l1], by simp [Memo.without, a2, l2]⟩

theorem freeLeakArr_run (h : Heap (Block α)) (p : Ptr) (xs : List (Nat × Nat)) (n : Nat) (H : OptLeaks h.mem p xs n)
    (hn : (addrs xs ++ p.toList).Nodup) :
    (freeLeakArr p n).run h = some ((), { h with mem := without h.mem (addrs xs ++ p.toList) }) := by
  cases p with
  | none =>
    have hx : xs = [] := H
    subst hx
    simp [freeLeakArr, addrs, without_nil]
  | some a =>
    obtain ⟨hlen, vs, L⟩ := H
    obtain ⟨rest, hr⟩ := L.arr
    rw [List.nodup_append] at hn
    have hna : a ∉ addrs xs := fun hm => hn.2.2 a hm a (by simp) rfl
    have h1 := freeLeaks_run a _ xs vs 0 h hr (fun j x hx => by
      rw [Nat.zero_add, List.getElem?_append_left (by
        rw [List.length_map]; exact (List.getElem?_eq_some_iff.1 hx).1), List.getElem?_map, hx]; rfl) L.len L.leaks hn.1 hna
    simp only [freeLeakArr, reduceCtorEq, if_false]
    rw [← hlen, run_bind_some h1, free_opt _ (some a) (fun b hb => by
      injection hb with hb; subst hb; simp [Memo.without, hna, hr])]
    simp only [without_append]

/-- **C47.**  `polycap_photon_free` accepts NULL; a photon whose blocks are all different is released completely: exactly its struct, its
arrays, its leaks with their weights and the two arrays of leaks disappear. -/
theorem photon_free_correct (h : Heap (Block α)) :
    (photonFree none).run h = some ((), h) ∧
    ∀ p ext int xe xi en w amu sc, PhotonAt h.mem p ext int xe xi en w amu sc → (owned p ext int xe xi en w amu sc).Nodup →
      (photonFree (some p)).run h = some ((), { h with mem := without h.mem (owned p ext int xe xi en w amu sc) }) := by
  refine ⟨rfl, fun p ext int xe xi en w amu sc H hn => ?_⟩
  obtain ⟨⟨nE, nI, hp, HE, HI⟩, He, Hw, Ha, Hs⟩ := H
  unfold owned at hn ⊢
  have N := hn
  simp only [List.nodup_append, List.mem_append, List.mem_cons, List.not_mem_nil, or_false] at hn
  have live : ∀ (q : Ptr) (l : List Nat), OptArr h.mem q → (∀ a ∈ q.toList, a ∉ l) →
      ∀ a, q = some a → without h.mem l a ≠ none := fun q l hq hl a ha => by
    obtain ⟨xs, hx⟩ := hq a ha
    have : a ∉ l := hl a (by simp [ha])
    simp [Memo.without, this, hx]
  have leaks : ∀ (q : Ptr) (xs : List (Nat × Nat)) (n : Nat) (l : List Nat), OptLeaks h.mem q xs n → (∀ a ∈ addrs xs ++ q.toList, a ∉ l) →
      OptLeaks (without h.mem l) q xs n := fun q xs n l hq hl => by
    cases q with
    | none => exact hq
    | some a =>
      obtain ⟨h1, vs, L⟩ := hq
      exact ⟨h1, vs, L.without (hl a (by simp)) (fun y hy => hl y (by simp [hy]))⟩
  simp only [photonFree, reduceCtorEq, if_false, run_bind, run_load, hp]
  rw [free_opt h en (fun a ha => by obtain ⟨xs, hx⟩ := He a ha; simp [hx])]
  dsimp only
  rw [free_opt _ w (live w _ Hw (fun a ha hb => hn.1.1.1.1.1.2.2 a hb a ha rfl))]
  dsimp only
  rw [without_append, free_opt _ amu (live amu _ Ha (fun a ha hb => hn.1.1.1.1.2.2 a (List.mem_append.1 hb) a ha rfl))]
  dsimp only
  rw [without_append, free_opt _ sc (live sc _ Hs (fun a ha hb => hn.1.1.1.2.2 a (by simpa [or_assoc] using hb) a ha rfl))]
  dsimp only
  rw [without_append, freeLeakArr_run _ ext xe nE (leaks ext xe nE _ HE (fun a ha hb => hn.1.1.2.2 a (by simpa [or_assoc] using hb) a (List.mem_append.1 ha) rfl))
    (by rw [List.nodup_append]; simpa using hn.1.1.2.1)]
  dsimp only
  rw [without_append, freeLeakArr_run _ int xi nI (leaks int xi nI _ HI (fun a ha hb => hn.1.2.2 a (by simpa [or_assoc] using hb) a (List.mem_append.1 ha) rfl))
    (by rw [List.nodup_append]; simpa using hn.1.2.1)]
  dsimp only
  rw [without_append, free_opt _ (some p) (fun a ha => by
    injection ha with ha; subst ha
    have : p ∉ en.toList ++ w.toList ++ amu.toList ++ sc.toList ++ (addrs xe ++ ext.toList) ++ (addrs xi ++ int.toList) := fun hm =>
      hn.2.2 p (by simpa [or_assoc] using hm) p rfl rfl
    simp only [Memo.without, this, if_false, hp]; simp)]
  simp only [without_append, Option.toList_some]

/-! ## Copies of the leaks -/

theorem LeakAt.mono {m m' : Nat → Option (Block α)} {x : Nat × Nat} {v : LView α} (H : LeakAt m x v) (h1 : m' x.1 = m x.1) (h2 : m' x.2 = m x.2) :
    LeakAt m' x v := ⟨h1.trans H.1, h2.trans H.2⟩

theorem live_lt {B : Type} {h : Heap B} (wf : h.WF) {x : Nat} {b : B} (hx : h.mem x = some b) : x < h.next := by
  by_contra hc
  rw [wf x (by omega)] at hx; cases hx

/-- one pass of the loop with enough memory -/
theorem copyStep (a d : Nat) (sps dps : List Ptr) (x : Nat × Nat) (v : LView α) (i k : Nat) (h : Heap (Block α)) (wf : h.WF)
    (ha : h.mem a = some (.ptrs sps)) (hi : sps[i]? = some (some x.1)) (hx : LeakAt h.mem x v) (hd : h.mem d = some (.ptrs dps))
    (hdi : i < dps.length) (hda : d ≠ a) :
    (copyLoop (some a) (some d) i (k + 1)).run h =
      if h.orc h.next then
        (if h.orc (h.next + 1) then
          (copyLoop (some a) (some d) (i + 1) k).run { h with
            mem := upd (upd (upd h.mem d (some (.ptrs (dps.set i (some h.next))))) h.next
              (some (.leak v.coords v.dir v.elecv v.weights.length (some (h.next + 1)) v.n_refl))) (h.next + 1) (some (.doubles v.weights))
            next := h.next + 2 }
        else some (false, { h with
            mem := upd (upd h.mem d (some (.ptrs (dps.set i (some h.next))))) h.next
              (some (.leak v.coords v.dir v.elecv v.weights.length none v.n_refl))
            next := h.next + 2 }))
      else some (false, { h with mem := upd h.mem d (some (.ptrs (dps.set i none))), next := h.next + 1 }) := by
  have la := live_lt wf ha
  have ld := live_lt wf hd
  have l1 := live_lt wf hx.1
  have l2 := live_lt wf hx.2
  have e1 : x.1 ≠ d := by intro e; have := hx.1; rw [e, hd] at this; cases this
  have e2 : x.2 ≠ d := by intro e; have := hx.2; rw [e, hd] at this; cases this
  rw [copyLoop]
  cases o0 : h.orc h.next with
  | false => simp [run_bind, run_malloc, o0, setPtrAt, run_load, hd, hdi, run_store]
  | true =>
    cases o1 : h.orc (h.next + 1) with
    | false =>
      simp [run_bind, run_malloc, o0, o1, setPtrAt, ptrAt, run_load, hd, hdi, run_store, upd, ha, hi, hda.symm, hx.1, e1, ld.ne, la.ne, l1.ne, ld.ne']
      funext y; simp only [upd]; grind
    | true =>
      simp [run_bind, run_malloc, o0, o1, setPtrAt, ptrAt, run_load, hd, hdi, run_store, upd, ha, hi, hda.symm, hx.1, e1, ld.ne, la.ne, l1.ne, ld.ne',
        loadArr, storeArr, hx.2, e2, l2.ne, show x.2 ≠ h.next + 1 by omega]
      congr 2
      funext y; simp only [upd]; grind

theorem copyLoop_run (a d : Nat) (sps : List Ptr) : ∀ (xs : List (Nat × Nat)) (vs : List (LView α)) (i : Nat) (dps : List Ptr) (h : Heap (Block α)),
    h.WF → h.mem a = some (.ptrs sps) → h.mem d = some (.ptrs dps) → d ≠ a → (∀ (j : Nat) x, xs[j]? = some x → sps[i + j]? = some (some x.1)) →
    xs.length = vs.length → (∀ (j : Nat) x v, xs[j]? = some x → vs[j]? = some v → LeakAt h.mem x v) → i + xs.length ≤ dps.length →
    ∃ b h', (copyLoop (some a) (some d) i xs.length).run h = some (b, h') ∧ (∀ x < h.next, x ≠ d → h'.mem x = h.mem x) ∧
      (b = false → ∃ k, h.next ≤ k ∧ h.orc k = false) ∧
      (b = true → ∃ ys : List (Nat × Nat), ys.length = xs.length ∧ h'.mem d = some (.ptrs (dps.take i ++ ys.map (fun y => some y.1) ++ dps.drop (i + xs.length))) ∧
        (∀ (j : Nat) y v, ys[j]? = some y → vs[j]? = some v → LeakAt h'.mem y v) ∧ (addrs ys).Nodup ∧ (∀ y ∈ addrs ys, h.next ≤ y) ∧
        ∀ x, x ≠ d → x ∉ addrs ys → h'.mem x = h.mem x)
  | [], vs, i, dps, h, _, _, hd, _, _, hl, _, _ => by
    refine ⟨true, h, rfl, fun _ _ _ => rfl, by simp, fun _ => ⟨[], rfl, by simp [hd], by simp, by simp [addrs], by simp [addrs], fun _ _ _ => rfl⟩⟩
  | x :: xs, [], _, _, _, _, _, _, _, _, hl, _, _ => by simp at hl
  | x :: xs, v :: vs, i, dps, h, wf, ha, hd, hda, hs, hl, hv, hlen => by
    have hx := hv 0 x v rfl rfl
    have la := live_lt wf ha
    have ld := live_lt wf hd
    rw [List.length_cons] at hlen
    have st := copyStep a d sps dps x v i xs.length h wf ha (by simpa using hs 0 x rfl) hx hd (by omega) hda
    rw [List.length_cons, st]
    cases o0 : h.orc h.next with
    | false =>
      simp only [Bool.false_eq_true, if_false]
      exact ⟨false, _, rfl, fun y _ hy => by simp [upd, hy], fun _ => ⟨_, le_refl _, o0⟩, by simp⟩
    | true =>
    cases o1 : h.orc (h.next + 1) with
    | false =>
      simp only [Bool.false_eq_true, if_false, if_true]
      exact ⟨false, _, rfl, fun y hy hy' => by simp [upd, hy', hy.ne], fun _ => ⟨_, by omega, o1⟩, by simp⟩
    | true =>
      simp only [if_true]
      generalize hg : ({ h with
            mem := upd (upd (upd h.mem d (some (.ptrs (dps.set i (some h.next))))) h.next
              (some (.leak v.coords v.dir v.elecv v.weights.length (some (h.next + 1)) v.n_refl))) (h.next + 1) (some (.doubles v.weights))
            next := h.next + 2 } : Heap (Block α)) = g
      have gn : g.next = h.next + 2 := by rw [← hg]
      have go : g.orc = h.orc := by rw [← hg]
      have gm : g.mem = upd (upd (upd h.mem d (some (.ptrs (dps.set i (some h.next))))) h.next
              (some (.leak v.coords v.dir v.elecv v.weights.length (some (h.next + 1)) v.n_refl))) (h.next + 1) (some (.doubles v.weights)) := by rw [← hg]
      have old : ∀ y < h.next, y ≠ d → g.mem y = h.mem y := fun y hy hy' => by
        rw [gm]; simp [upd, hy', hy.ne, show y ≠ h.next + 1 by omega]
      have gd : g.mem d = some (.ptrs (dps.set i (some h.next))) := by
        rw [gm]; simp [upd, ld.ne, show d ≠ h.next + 1 by omega]
      have gwf : g.WF := fun y hy => by
        rw [gn] at hy
        rw [gm]; simp [upd, show y ≠ d by omega, show y ≠ h.next by omega, show y ≠ h.next + 1 by omega, wf y (by omega)]
      have ld2 : ∀ (j : Nat) y w, (x :: xs)[j]? = some y → (v :: vs)[j]? = some w → LeakAt g.mem y w := fun j y w hy hw => by
        have H := hv j y w hy hw
        refine H.mono (old _ (live_lt wf H.1) ?_) (old _ (live_lt wf H.2) ?_)
        · intro e; have := H.1; rw [e, hd] at this; cases this
        · intro e; have := H.2; rw [e, hd] at this; cases this
      obtain ⟨b, h', r, u, f, t⟩ := copyLoop_run a d sps xs vs (i + 1) (dps.set i (some h.next)) g gwf (by rw [old a la hda.symm]; exact ha) gd hda
        (fun j y hy => by rw [show i + 1 + j = i + (j + 1) by omega]; exact hs (j + 1) y hy) (by simpa using hl)
        (fun j y w hy hw => ld2 (j + 1) y w hy hw) (by rw [List.length_set]; omega)
      refine ⟨b, h', r, fun y hy hy' => by rw [u y (by omega) hy', old y hy hy'], fun hb => ?_, fun hb => ?_⟩
      · obtain ⟨k, hk, hk'⟩ := f hb
        exact ⟨k, by omega, by rw [← go]; exact hk'⟩
      · obtain ⟨ys, y1, y2, y3, y4, y5, y6⟩ := t hb
        refine ⟨(h.next, h.next + 1) :: ys, by simp [y1], ?_, ?_, ?_, ?_, ?_⟩
        · rw [y2]
          have hi : i < dps.length := by omega
          rw [List.take_set, List.drop_set, if_pos (by omega), List.take_add_one, List.getElem?_eq_getElem hi, List.set_append_right _ _ (by simp)]
          simp [Nat.min_eq_left hi.le, Nat.add_assoc, Nat.add_comm 1]
        · intro j y w hy hw
          rcases j with _ | j
          · simp only [List.getElem?_cons_zero, Option.some.injEq] at hy hw
            subst hy hw
            have g1 : g.mem h.next = some (.leak v.coords v.dir v.elecv v.weights.length (some (h.next + 1)) v.n_refl) := by
              rw [gm]; simp [upd]
            have g2 : g.mem (h.next + 1) = some (.doubles v.weights) := by rw [gm]; simp [upd]
            exact ⟨by rw [u _ (by omega) (by omega), g1], by rw [u _ (by omega) (by simp only; omega), g2]⟩
          · exact y3 j y w hy hw
        · simp only [addrs, List.flatMap_cons, List.cons_append, List.nil_append, List.nodup_cons, List.mem_cons, not_or]
          refine ⟨⟨by omega, fun hm => ?_⟩, fun hm => ?_, y4⟩
          · have := y5 _ hm; omega
          · have := y5 _ hm; omega
        · intro y hy
          simp only [addrs, List.flatMap_cons, List.cons_append, List.nil_append, List.mem_cons] at hy
          rcases hy with rfl | rfl | hy
          · omega
          · omega
          · have := y5 y hy; omega
        · intro y hy hy'
          simp only [addrs, List.flatMap_cons, List.cons_append, List.nil_append, List.mem_cons, not_or] at hy'
          rw [y6 y hy hy'.2.2, gm]
          simp [upd, hy, hy'.1, hy'.2.1]

/-- **C45 (no photon).**  A NULL photon: `false`, INVALID_ARGUMENT, and neither output is assigned. -/
theorem leak_data_null (ext : Bool) (h : Heap (Block α)) (e : EArg) :
    (getLeakData ext none e).run h = some (⟨false, e.set .invalidArgument, none, none⟩, h) := rfl

/-- **C45 (no leak).**  A photon without leaks of the asked kind: `false`, INVALID_ARGUMENT, count 0, a NULL array, and no memory is touched. -/
theorem leak_data_empty (isExt : Bool) (h : Heap (Block α)) (e : EArg) (p : Nat) (ext int : Ptr) (nE nI : Nat) (en w amu sc : Ptr)
    (hp : h.mem p = some (.photon ext int nE nI en w amu sc)) (h0 : (if isExt then nE else nI) = 0) :
    (getLeakData isExt (some p) e).run h = some (⟨false, e.set .invalidArgument, some 0, some none⟩, h) := by
  cases isExt <;> simp at h0 <;> simp [getLeakData, run_bind, run_load, hp, getLeaksFrom, h0]

theorem getLeaksFrom_run (h : Heap (Block α)) (wf : h.WF) (e : EArg) (a : Nat) (xs : List (Nat × Nat)) (vs : List (LView α)) (L : LeaksAt h.mem a xs vs)
    (hn : 0 < xs.length) :
    ∃ r h', (getLeaksFrom (some a) xs.length e).run h = some (r, h') ∧ r.n = some vs.length ∧ (∀ x < h.next, h'.mem x = h.mem x) ∧
      (r.ret = false → r.err = e.set .memory ∧ ∃ k, h.next ≤ k ∧ h.orc k = false) ∧
      (r.ret = true → r.err = e ∧ ∃ d ys, r.leaks = some (some d) ∧ LeaksAt h'.mem d ys vs ∧ (addrs ys ++ [d]).Nodup ∧
        (∀ y ∈ addrs ys ++ [d], h.next ≤ y) ∧ without h'.mem (addrs ys ++ [d]) = h.mem) := by
  obtain ⟨rest, hr⟩ := L.arr
  have la := live_lt wf hr
  rw [getLeaksFrom, if_neg (by omega)]
  cases o : h.orc h.next with
  | false =>
    refine ⟨⟨false, e.set .memory, some vs.length, some none⟩, { h with next := h.next + 1 }, ?_, rfl, fun _ _ => rfl,
      fun _ => ⟨rfl, _, le_refl _, o⟩, fun hc => by cases hc⟩
    simp [run_bind, run_malloc, o, L.len]
  | true =>
    have r0 : (malloc (Block.ptrs (α := α) (List.replicate xs.length none))).run h = some (some h.next,
        { h with mem := upd h.mem h.next (some (.ptrs (List.replicate xs.length none))), next := h.next + 1 }) := by rw [run_malloc, o]; rfl
    rw [run_bind_some r0]
    simp only [reduceCtorEq, if_false]
    generalize hg : ({ h with mem := upd h.mem h.next (some (.ptrs (List.replicate xs.length none))), next := h.next + 1 } : Heap (Block α)) = g
    have gn : g.next = h.next + 1 := by rw [← hg]
    have go : g.orc = h.orc := by rw [← hg]
    have old : ∀ y, y ≠ h.next → g.mem y = h.mem y := fun y hy => by rw [← hg]; simp [upd, hy]
    have gd : g.mem h.next = some (.ptrs (List.replicate xs.length none)) := by rw [← hg]; simp [upd]
    have gwf : g.WF := fun y hy => by rw [old y (by omega)]; exact wf y (by omega)
    obtain ⟨b, h', r, u, f, t⟩ := copyLoop_run a h.next _ xs vs 0 (List.replicate xs.length none) g gwf (by rw [old a la.ne]; exact hr) gd la.ne'
      (fun j x hx => by
        rw [Nat.zero_add, List.getElem?_append_left (by rw [List.length_map]; exact (List.getElem?_eq_some_iff.1 hx).1), List.getElem?_map, hx]; rfl)
      L.len (fun j x v hx hv => by
        have H := L.leaks j x v hx hv
        exact H.mono (old _ (live_lt wf H.1).ne) (old _ (live_lt wf H.2).ne)) (by simp)
    rw [run_bind_some r]
    cases b with
    | false =>
      refine ⟨⟨false, e.set .memory, some xs.length, some (some h.next)⟩, h', rfl, by rw [L.len], fun x hx => by rw [u x (by omega) hx.ne, old x hx.ne],
        fun _ => ⟨rfl, ?_⟩, fun hc => by cases hc⟩
      obtain ⟨k, hk, hk'⟩ := f rfl
      exact ⟨k, by omega, by rw [← go]; exact hk'⟩
    | true =>
      obtain ⟨ys, y1, y2, y3, y4, y5, y6⟩ := t rfl
      refine ⟨⟨true, e, some xs.length, some (some h.next)⟩, h', rfl, by rw [L.len], fun x hx => by rw [u x (by omega) hx.ne, old x hx.ne],
        fun hc => (by cases hc), fun _ => ⟨rfl, h.next, ys, rfl, ⟨⟨[], by rw [y2]; simp⟩, by rw [y1, L.len], y3⟩, ?_, ?_, ?_⟩⟩
      · rw [List.nodup_append]
        refine ⟨y4, by simp, fun y hy z hz => ?_⟩
        simp at hz; have := y5 y hy; omega
      · intro y hy
        rw [List.mem_append, List.mem_singleton] at hy
        rcases hy with hy | rfl
        · have := y5 y hy; omega
        · exact le_refl _
      · funext x
        by_cases hx : x ∈ addrs ys ++ [h.next]
        · have : h.next ≤ x := by
            rw [List.mem_append, List.mem_singleton] at hx
            rcases hx with hx | rfl
            · have := y5 x hx; omega
            · exact le_refl _
          simp [without, hx, wf x this]
        · simp only [without, hx, if_false]
          rw [List.mem_append, List.mem_singleton, not_or] at hx
          rw [y6 x hx.2 hx.1, old x hx.2]

/-- **C45.**  A photon whose leaks of the asked kind (`isExt`: external, otherwise internal) are `vs`, at least one: the getter assigns their
number; with enough memory it returns `true` and an array of leaks equal to `vs`, weights included, whose blocks are all different and all
fresh, and every block that was live before keeps its content; when an allocation fails it returns `false` with a MEMORY error, and still
changes no block that was live before. -/
theorem leak_data_copies (isExt : Bool) (h : Heap (Block α)) (wf : h.WF) (e : EArg) (p : Nat) (ext int : Ptr) (nE nI : Nat) (en w amu sc : Ptr)
    (hp : h.mem p = some (.photon ext int nE nI en w amu sc)) (a : Nat) (ha : (if isExt then ext else int) = some a)
    (xs : List (Nat × Nat)) (vs : List (LView α)) (L : LeaksAt h.mem a xs vs) (hn : (if isExt then nE else nI) = vs.length) (h0 : 0 < vs.length) :
    ∃ r h', (getLeakData isExt (some p) e).run h = some (r, h') ∧ r.n = some vs.length ∧ (∀ x b, h.mem x = some b → h'.mem x = some b) ∧
      ((∀ k, h.orc k = true) → r.ret = true) ∧
      (r.ret = false → r.err = e.set .memory) ∧
      (r.ret = true → r.err = e ∧ ∃ d ys, r.leaks = some (some d) ∧ LeaksAt h'.mem d ys vs ∧ (addrs ys ++ [d]).Nodup ∧
        (∀ y ∈ addrs ys ++ [d], h.mem y = none) ∧ without h'.mem (addrs ys ++ [d]) = h.mem) := by
  obtain ⟨r, h', r1, r2, r3, r4, r5⟩ := getLeaksFrom_run h wf e a xs vs L (by rw [L.len]; exact h0)
  refine ⟨r, h', ?_, r2, fun x b hx => by rw [r3 x (live_lt wf hx), hx], fun ho => ?_, fun hr => (r4 hr).1, fun hr => ?_⟩
  · rw [L.len] at r1
    cases isExt <;> simp only [Bool.false_eq_true, if_false, if_true] at ha hn <;> subst ha hn <;>
      simp only [getLeakData, reduceCtorEq, if_false, run_bind, run_load, hp, Bool.false_eq_true, if_true, r1]
  · cases hr : r.ret with
    | true => rfl
    | false => obtain ⟨_, k, _, hk⟩ := r4 hr; rw [ho k] at hk; cases hk
  · obtain ⟨e1, d, ys, e2, e3, e4, e5, e6⟩ := r5 hr
    exact ⟨e1, d, ys, e2, e3, e4, fun y hy => wf y (e5 y hy), e6⟩

/-- **C45/C47.**  Releasing the copies - each leak with `polycap_leak_free`, then the array - gives back exactly the memory that was there before the
getter was called: the copies share no block with the photon. -/
theorem leak_data_then_free (h : Heap (Block α)) (h' : Heap (Block α)) (d : Nat) (ys : List (Nat × Nat)) (vs : List (LView α)) (H : LeaksAt h'.mem d ys vs)
    (hn : (addrs ys ++ [d]).Nodup) (hw : without h'.mem (addrs ys ++ [d]) = h.mem) :
    (freeLeakArr (some d) vs.length).run h' = some ((), { h' with mem := h.mem }) := by
  rw [freeLeakArr_run h' (some d) ys vs.length ⟨H.len, vs, H⟩ hn]
  simp only [Option.toList_some, hw]

/-- **C07/C45 (finding).**  When an allocation fails after the array was obtained, the caller gets `false` together with a partially filled array. -/
theorem leak_data_oom_keeps :
    let h : Heap (Block Rat) := ⟨fun x => if x = 0 then some (.photon (some 1) none 1 0 none none none none) else
      if x = 1 then some (.ptrs [some 2]) else if x = 2 then some (.leak ⟨0, 0, 0⟩ ⟨0, 0, 0⟩ ⟨0, 0, 0⟩ 1 (some 3) 0) else
      if x = 3 then some (.doubles [1]) else none, 4, fun k => decide (k ≠ 6)⟩
    ∃ h', (getLeakData true (some 0) (some none)).run h = some (⟨false, some (some .memory), some 1, some (some 4)⟩, h') ∧
      h'.mem 4 = some (.ptrs [some 5]) ∧ h'.mem 5 = some (.leak ⟨0, 0, 0⟩ ⟨0, 0, 0⟩ ⟨0, 0, 0⟩ 1 none 0) := by
  refine ⟨_, rfl, rfl, rfl⟩

/-- **C07 (finding).**  `polycap_leak_new` does not check its second allocation: when it fails the behaviour is undefined (for any number of
energies; in C `memcpy` into NULL). -/
theorem leak_new_oom_ub (h : Heap (Block α)) (c d el : V3 α) (nr : Int) (ws : List α) (a : Nat) (e : EArg) (ha : h.mem a = some (.doubles ws))
    (o0 : h.orc h.next = true) (o1 : h.orc (h.next + 1) = false) (lt : a < h.next) :
    (leakNew c d el nr ws.length (some a) e).run h = none := by
  simp [leakNew, run_bind, run_malloc, o0, o1, run_store, upd, loadArr, run_load, lt.ne, ha, storeArr]

/-- `polycap_leak_new` with enough memory: two fresh blocks that hold the leak, nothing else changes; on failure of the first allocation NULL
and a MEMORY error. -/
theorem leak_new_correct (h : Heap (Block α)) (wf : h.WF) (c d el : V3 α) (nr : Int) (ws : List α) (a : Nat) (e : EArg) (ha : h.mem a = some (.doubles ws)) :
    (h.orc h.next = true → h.orc (h.next + 1) = true → ∃ h', (leakNew c d el nr ws.length (some a) e).run h = some ((some h.next, e), h') ∧
      LeakAt h'.mem (h.next, h.next + 1) ⟨c, d, el, nr, ws⟩ ∧ without h'.mem [h.next, h.next + 1] = h.mem) ∧
    (h.orc h.next = false → ∃ h', (leakNew c d el nr ws.length (some a) e).run h = some ((none, e.set .memory), h') ∧ h'.mem = h.mem) := by
  have lt := live_lt wf ha
  constructor
  · intro o0 o1
    refine ⟨⟨upd (upd h.mem h.next (some (.leak c d el ws.length (some (h.next + 1)) nr))) (h.next + 1) (some (.doubles ws)), h.next + 2, h.orc⟩, ?_,
      ⟨by simp [upd], by simp [upd]⟩, ?_⟩
    · simp [leakNew, run_bind, run_malloc, o0, o1, run_store, upd, loadArr, run_load, lt.ne, ha, storeArr, show a ≠ h.next + 1 by omega]
      funext y; simp only [upd]; grind
    · funext x
      simp only [without, upd]
      have h0 := wf h.next (le_refl _)
      have h1 := wf (h.next + 1) (by omega)
      simp only [List.mem_cons, List.not_mem_nil, or_false]
      grind
  · intro o0
    exact ⟨⟨h.mem, h.next + 1, h.orc⟩, by simp [leakNew, run_bind, run_malloc, o0], rfl⟩

/-- a photon with two external leaks and no internal one: the hypotheses of the theorems above -/
example :
    let v : LView Rat := ⟨⟨0, 0, 1⟩, ⟨0, 0, 1⟩, ⟨1, 0, 0⟩, 2, [1/2, 1/3]⟩
    let u : LView Rat := ⟨⟨0, 1, 1⟩, ⟨0, 0, 1⟩, ⟨1, 0, 0⟩, 3, [1/4, 1/5]⟩
    let h : Heap (Block Rat) := ⟨fun x => if x = 0 then some (.photon (some 1) none 2 0 (some 6) none none none) else
      if x = 1 then some (.ptrs [some 2, some 4]) else if x = 2 then some (.leak v.coords v.dir v.elecv 2 (some 3) 2) else
      if x = 3 then some (.doubles v.weights) else if x = 4 then some (.leak u.coords u.dir u.elecv 2 (some 5) 3) else
      if x = 5 then some (.doubles u.weights) else if x = 6 then some (.doubles [10, 20]) else none, 7, fun _ => true⟩
    h.WF ∧ LeaksAt h.mem 1 [(2, 3), (4, 5)] [v, u] ∧ PhotonAt h.mem 0 (some 1) none [(2, 3), (4, 5)] [] (some 6) none none none ∧
      (owned 0 (some 1) none [(2, 3), (4, 5)] [] (some 6) none none none).Nodup := by
  intro v u h
  have L : LeaksAt h.mem 1 [(2, 3), (4, 5)] [v, u] := ⟨⟨[], rfl⟩, rfl, fun i x w hx hw => by
    rcases i with _ | _ | i
    · simp at hx hw; subst hx hw; exact ⟨rfl, rfl⟩
    · simp at hx hw; subst hx hw; exact ⟨rfl, rfl⟩
    · simp at hx⟩
  have n : ∀ (m : Nat → Option (Block Rat)), OptArr m none := fun m a ha => by cases ha
  refine ⟨fun a ha => ?_, L, ⟨⟨2, 0, rfl, ⟨rfl, _, L⟩, rfl⟩, fun a ha => ?_, n _, n _, n _⟩, by decide⟩
  · have : 7 ≤ a := ha
    show (if a = 0 then _ else _) = none
    simp [show a ≠ 0 by omega, show a ≠ 1 by omega, show a ≠ 2 by omega, show a ≠ 3 by omega, show a ≠ 4 by omega, show a ≠ 5 by omega, show a ≠ 6 by omega]
  · injection ha with ha; subst ha; exact ⟨_, rfl⟩

end photon
end Polycap.Memo
