import Verif.Props.MemoryProps

/-!
# C07, C47: memory of the results of a simulation
-/
namespace Polycap.Memo
open CM Mem Classical

/-! ## Specification -/

/-- The results at `te` with their arrays (`en`, `ef`, the struct `im` of images and its members `f`), and further arrays `ts`, are live, all
different, and outside them the memory is `m0`, where they are not live. -/
structure Res (m0 : Nat → Option RBlock) (m : Nat → Option RBlock) (te : Nat) (en ef im : Ptr) (f : Img → Ptr) (ts : List Nat) : Prop where
  teAt : m te = some (.teff en ef im)
  arrays : ∀ a ∈ en.toList ++ ef.toList ++ ts, m a ≠ none
  imAt : ∀ a, im = some a → m a = some (.images f)
  noim : im = none → ∀ i, f i = none
  imgs : ∀ i a, f i = some a → m a ≠ none
  inj : ∀ i j a, f i = some a → f j = some a → i = j
  nodup : (te :: (en.toList ++ ef.toList ++ im.toList ++ ts)).Nodup
  apart : ∀ i a, f i = some a → a ∉ te :: (en.toList ++ ef.toList ++ im.toList ++ ts)
  frame : ∀ x, x ∉ te :: (en.toList ++ ef.toList ++ im.toList ++ ts) → (∀ i, f i ≠ some x) → m x = m0 x
  fresh : ∀ x, x ∈ te :: (en.toList ++ ef.toList ++ im.toList ++ ts) ∨ (∃ i, f i = some x) → m0 x = none

/-! ## Releasing -/

/-- every member of the images is released, and once -/
theorem freeOrder_complete : freeOrder.Nodup ∧ ∀ i : Img, i ∈ freeOrder := by
  refine ⟨by decide, fun i => by cases i <;> decide⟩

theorem freeAll_run : ∀ (ps : List Ptr) (h : Heap RBlock), (ps.filterMap id).Nodup → (∀ a ∈ ps.filterMap id, h.mem a ≠ none) →
    (freeAll ps).run h = some ((), { h with mem := without h.mem (ps.filterMap id) })
  | [], h, _, _ => by simp [freeAll, without_nil]
  | none :: ps, h, hn, hl => by
    have ih := freeAll_run ps h (by simpa using hn) (by simpa using hl)
    rw [freeAll, run_bind_some (run_free_null h), ih]; rfl
  | some a :: ps, h, hn, hl => by
    simp only [List.filterMap_cons, id, List.nodup_cons, List.mem_cons, forall_eq_or_imp] at hn hl
    have e := free_opt h (some a) (fun b hb => by injection hb with hb; subst hb; exact hl.1)
    have ih := freeAll_run ps { h with mem := without h.mem [a] } hn.2 (fun b hb => by
      have : b ≠ a := fun e => hn.1 (by rw [← e]; exact hb)
      simp [Memo.without, this, hl.2 b hb])
    rw [freeAll, run_bind_some e, Option.toList_some, ih]
    simp only [without_append, List.filterMap_cons, id]
    rfl

theorem imagesFree_run (h : Heap RBlock) (im : Nat) (f : Img → Ptr) (hi : h.mem im = some (.images f)) (hl : ∀ i a, f i = some a → h.mem a ≠ none)
    (inj : ∀ i j a, f i = some a → f j = some a → i = j) (ha : ∀ i, f i ≠ some im) :
    ∃ h', (imagesFree (some im)).run h = some ((), h') ∧ h'.next = h.next ∧ h'.orc = h.orc ∧
      ∀ x, h'.mem x = if x = im ∨ (∃ i, f i = some x) then none else h.mem x := by
  have fm : (freeOrder.map f).filterMap id = freeOrder.filterMap f := by rw [List.filterMap_map]; rfl
  have mem : ∀ a, a ∈ freeOrder.filterMap f ↔ ∃ i, f i = some a := fun a => by
    rw [List.mem_filterMap]
    exact ⟨fun ⟨i, _, h⟩ => ⟨i, h⟩, fun ⟨i, h⟩ => ⟨i, freeOrder_complete.2 i, h⟩⟩
  have nd : (freeOrder.filterMap f).Nodup := freeOrder_complete.1.filterMap (fun i j a hi hj => inj i j a hi hj)
  have r := freeAll_run (freeOrder.map f) h (by rw [fm]; exact nd) (fun a ha => by
    rw [fm, mem] at ha; obtain ⟨i, hi⟩ := ha; exact hl i a hi)
  rw [fm] at r
  have him : im ∉ freeOrder.filterMap f := fun hm => by obtain ⟨i, hi⟩ := (mem im).1 hm; exact ha i hi
  refine ⟨{ h with mem := without h.mem (freeOrder.filterMap f ++ [im]) }, ?_, rfl, rfl, fun x => ?_⟩
  · simp only [imagesFree, reduceCtorEq, if_false, run_bind, run_load, hi, r]
    rw [free_opt _ (some im) (fun a ha => by injection ha with ha; subst ha; simp [Memo.without, him, hi])]
    simp only [without_append, Option.toList_some]
  · simp only [Memo.without, List.mem_append, List.mem_singleton, mem, or_comm]

/-- **C47.**  `polycap_transmission_efficiencies_free` (which calls `polycap_images_free`) accepts NULL, and releases the results completely:
the struct, both arrays, the images and every array in them, each once; the other arrays `ts` stay. -/
theorem results_free (h : Heap RBlock) :
    (teFree none).run h = some ((), h) ∧ (imagesFree none).run h = some ((), h) ∧
    ∀ m0 te en ef im f ts, Res m0 h.mem te en ef im f ts →
      ∃ h', (teFree (some te)).run h = some ((), h') ∧ h'.next = h.next ∧ h'.orc = h.orc ∧
        ∀ x, h'.mem x = if x ∈ ts then h.mem x else m0 x := by
  refine ⟨rfl, rfl, fun m0 te en ef im f ts R => ?_⟩
  have N := R.nodup
  simp only [List.nodup_cons, List.nodup_append, List.mem_append, not_or] at N
  obtain ⟨⟨⟨⟨nte1, nte2⟩, nte3⟩, nte4⟩, ⟨⟨n1, n2, n12⟩, n3, n123⟩, n4, n1234⟩ := N
  have e1 := free_opt h en (fun a ha => R.arrays a (by simp [ha]))
  have e2 := free_opt { h with mem := without h.mem en.toList } ef (fun a ha => by
    have : a ∉ en.toList := fun hm => n12 a hm a (by simp [ha]) rfl
    have l := R.arrays a (by simp [ha])
    simp [Memo.without, this, l])
  simp only [without_append] at e2
  have hte : te ∉ en.toList ++ ef.toList := by rw [List.mem_append, not_or]; exact ⟨nte1, nte2⟩
  have fin : ∀ (g : Heap RBlock), g.mem te ≠ none → (∀ x, x ≠ te → g.mem x = if x ∈ en.toList ++ ef.toList ++ im.toList ∨ (∃ i, f i = some x) then none else h.mem x) →
      ∀ x, without g.mem [te] x = if x ∈ ts then h.mem x else m0 x := fun g _ hg x => by
    by_cases hx : x = te
    · subst hx
      rw [if_neg nte4, R.fresh x (Or.inl (by simp))]
      simp [Memo.without]
    · simp only [Memo.without, List.mem_singleton, hx, if_false]
      rw [hg x hx]
      by_cases ht : x ∈ ts
      · rw [if_pos ht, if_neg]
        rintro (hm | ⟨i, hi⟩)
        · rw [List.mem_append, List.mem_append] at hm
          exact n1234 x (by tauto) x ht rfl
        · exact R.apart i x hi (by simp [ht])
      · rw [if_neg ht]
        split_ifs with hc
        · refine (R.fresh x ?_).symm
          rcases hc with hc | hc
          · left; simp only [List.mem_append, List.mem_cons] at hc ⊢; tauto
          · exact Or.inr hc
        · refine R.frame x ?_ (fun i hi => hc (Or.inr ⟨i, hi⟩))
          simp only [List.mem_append, List.mem_cons, not_or] at hc ⊢
          tauto
  cases him : im with
  | none =>
    subst him
    refine ⟨{ h with mem := without h.mem (en.toList ++ ef.toList ++ [te]) }, ?_, rfl, rfl, fun x => ?_⟩
    · simp only [teFree, reduceCtorEq, if_false, run_bind, run_load, R.teAt, e1]
      rw [e2]
      simp only [imagesFree, if_true, run_pure]
      rw [free_opt _ (some te) (fun a ha => by injection ha with ha; subst ha; simp [Memo.without, nte1, nte2, R.teAt])]
      simp only [without_append, Option.toList_some]
    · rw [← fin { h with mem := without h.mem (en.toList ++ ef.toList) } (by simp [Memo.without, nte1, nte2, R.teAt]) (fun x hx => by
        have hf : ¬ ∃ i, f i = some x := fun ⟨i, hi⟩ => by rw [R.noim rfl i] at hi; cases hi
        simp [Memo.without, hf]) x, without_append]
  | some im =>
    subst him
    have hi := R.imAt im rfl
    have g1 : im ∉ en.toList ++ ef.toList := fun hm => n123 im (List.mem_append.1 hm) im (by simp) rfl
    obtain ⟨h', r, r1, r2, r3⟩ := imagesFree_run { h with mem := without h.mem (en.toList ++ ef.toList) } im f (by simp only [Memo.without, g1, if_false, hi])
      (fun i a ha => by
        have : a ∉ en.toList ++ ef.toList := fun hm => R.apart i a ha (by simp only [List.mem_append, List.mem_cons] at hm ⊢; tauto)
        simp only [Memo.without, this, if_false]; exact R.imgs i a ha) R.inj (fun i hc => R.apart i im hc (by simp))
    have hte' : h'.mem te = some (.teff en ef (some im)) := by
      rw [r3, if_neg]
      · simp only [Memo.without, hte, if_false, R.teAt]
      · rintro (e | ⟨i, hi⟩)
        · exact nte3 (by simp [e])
        · exact R.apart i te hi (by simp)
    refine ⟨{ h' with mem := without h'.mem [te] }, ?_, r1, r2, fun x => ?_⟩
    · simp only [teFree, reduceCtorEq, if_false, run_bind, run_load, R.teAt, e1]
      rw [e2]
      simp only [r]
      rw [free_opt _ (some te) (fun a ha => by injection ha with ha; subst ha; rw [hte']; simp)]
      rfl
    · refine fin h' (by rw [hte']; simp) (fun x hx => ?_) x
      rw [r3]
      simp only [Memo.without, List.mem_append, Option.toList_some, List.mem_singleton]
      split_ifs <;> simp_all

/-! ## Allocating -/

theorem setImg_none {f : Img → Ptr} {i : Img} (h : f i = none) : setImg f i none = f := by
  funext j; simp only [setImg]; split_ifs with e
  · rw [e, h]
  · rfl

theorem Res.live_list {m0 m : Nat → Option RBlock} {te : Nat} {en ef im : Ptr} {f : Img → Ptr} {ts : List Nat} (R : Res m0 m te en ef im f ts) :
    ∀ x ∈ te :: (en.toList ++ ef.toList ++ im.toList ++ ts), m x ≠ none := by
  intro x hx
  simp only [List.mem_cons, List.mem_append] at hx
  rcases hx with rfl | ((hx | hx) | hx) | hx
  · rw [R.teAt]; simp
  · exact R.arrays x (by simp only [List.mem_append]; tauto)
  · exact R.arrays x (by simp only [List.mem_append]; tauto)
  · have := R.imAt x (by cases im <;> simp_all)
    rw [this]; simp
  · exact R.arrays x (by simp only [List.mem_append]; tauto)

/-- The only change: member `i` of the images becomes a fresh array. -/
theorem Res.add {m0 m : Nat → Option RBlock} {te im q : Nat} {en ef : Ptr} {f : Img → Ptr} {ts : List Nat} (R : Res m0 m te en ef (some im) f ts) {i : Img}
    (hq : m q = none) (hq0 : m0 q = none) (b : RBlock) :
    Res m0 (upd (upd m q (some b)) im (some (.images (setImg f i (some q))))) te en ef (some im) (setImg f i (some q)) ts ∨ f i ≠ none := by
  by_cases hf : f i = none
  swap
  · exact Or.inr hf
  left
  have L := R.live_list
  have ql : q ∉ te :: (en.toList ++ ef.toList ++ (some im).toList ++ ts) := fun hm => L q hm hq
  have N := R.nodup
  have qte : te ≠ q := fun e => ql (by simp [e])
  have qim : im ≠ q := fun e => ql (by simp [e])
  have iml : im ∈ te :: (en.toList ++ ef.toList ++ (some im).toList ++ ts) := by simp
  have tim : te ≠ im := by
    intro e; rw [List.nodup_cons] at N; exact N.1 (by simp [e])
  have sf : ∀ j a, setImg f i (some q) j = some a → (j = i ∧ a = q) ∨ (j ≠ i ∧ f j = some a) := fun j a h => by
    simp only [setImg] at h; split_ifs at h with e
    · injection h with h; exact Or.inl ⟨e, h.symm⟩
    · exact Or.inr ⟨e, h⟩
  have fq : ∀ j, f j ≠ some q := fun j h => R.imgs j q h hq
  refine ⟨?_, ?_, ?_, (by simp), ?_, ?_, N, ?_, ?_, ?_⟩
  · simp [upd, tim, qte, R.teAt]
  · intro a ha
    have hal : a ∈ te :: (en.toList ++ ef.toList ++ (some im).toList ++ ts) := by
      simp only [List.mem_append, List.mem_cons] at ha ⊢; tauto
    have := L a hal
    have h2 : a ≠ q := fun e => ql (e ▸ hal)
    by_cases h1 : a = im <;> simp [upd, h1, h2, this]
  · intro a ha; injection ha with ha; subst ha; simp [upd]
  · intro j a ha
    rcases sf j a ha with ⟨_, rfl⟩ | ⟨_, hj⟩
    · simp [upd, qim.symm]
    · have h1 : a ≠ im := fun e => R.apart j a hj (e ▸ iml)
      have h2 : a ≠ q := fun e => fq j (e ▸ hj)
      simp [upd, h1, h2, R.imgs j a hj]
  · intro j k a hj hk
    rcases sf j a hj with ⟨e1, e2⟩ | ⟨_, hj'⟩ <;> rcases sf k a hk with ⟨e3, e4⟩ | ⟨_, hk'⟩
    · rw [e1, e3]
    · exact absurd (e2 ▸ hk') (fq k)
    · exact absurd (e4 ▸ hj') (fq j)
    · exact R.inj j k a hj' hk'
  · intro j a ha
    rcases sf j a ha with ⟨_, rfl⟩ | ⟨_, hj⟩
    · exact ql
    · exact R.apart j a hj
  · intro x hx hfx
    have h1 : x ≠ im := fun e => hx (e ▸ iml)
    have h2 : x ≠ q := fun e => hfx i (by simp [setImg, e])
    rw [upd_other _ _ h1, upd_other _ _ h2]
    exact R.frame x hx (fun j hj => by
      by_cases e : j = i
      · rw [e, hf] at hj; cases hj
      · exact hfx j (by simp [setImg, e, hj]))
  · rintro x (hx | ⟨j, hj⟩)
    · exact R.fresh x (Or.inl hx)
    · rcases sf j x hj with ⟨_, rfl⟩ | ⟨_, hj⟩
      · exact hq0
      · exact R.fresh x (Or.inr ⟨j, hj⟩)

theorem allocImgs_run (m0 : Nat → Option RBlock) (te im : Nat) (en ef : Ptr) (ts : List Nat) : ∀ (is : List Img) (f : Img → Ptr) (h : Heap RBlock), h.WF →
    (∀ a, h.next ≤ a → m0 a = none) → Res m0 h.mem te en ef (some im) f ts → is.Nodup → (∀ i ∈ is, f i = none) →
    ∃ b h' f', (allocImgs (some im) is).run h = some (b, h') ∧ h'.WF ∧ h.next ≤ h'.next ∧ h'.orc = h.orc ∧ Res m0 h'.mem te en ef (some im) f' ts ∧
      (∀ i, i ∉ is → f' i = f i) ∧ (b = true → ∀ i ∈ is, f' i ≠ none) ∧ (b = false → ∃ k, h.next ≤ k ∧ h.orc k = false)
  | [], f, h, wf, _, R, _, _ => ⟨true, h, f, rfl, wf, le_refl _, rfl, R, fun _ _ => rfl, by simp, by simp⟩
  | i :: is, f, h, wf, hm, R, nd, hf => by
    rw [List.nodup_cons] at nd
    have fi := hf i (by simp)
    have hi := R.imAt im rfl
    have li := live_lt wf hi
    cases o : h.orc h.next with
    | false =>
      refine ⟨false, { h with next := h.next + 1 }, f, ?_, fun a ha => wf a (by simp only at ha; omega), by simp, rfl, R, fun _ _ => rfl, by simp, fun _ => ⟨_, le_refl _, o⟩⟩
      rw [allocImgs]
      simp [run_bind, run_malloc, o, run_load, hi, run_store, setImg_none fi]
      funext x; simp only [upd]; split_ifs with e
      · rw [e, hi]
      · rfl
    | true =>
      rcases R.add (i := i) (q := h.next) (wf _ (le_refl _)) (hm _ (le_refl _)) (.arr 0) with R' | c
      swap
      · exact absurd fi c
      obtain ⟨b, h', f', r, w, n, oo, R2, r1, r2, r3⟩ := allocImgs_run m0 te im en ef ts is (setImg f i (some h.next))
        ⟨upd (upd h.mem h.next (some (.arr 0))) im (some (.images (setImg f i (some h.next)))), h.next + 1, h.orc⟩
        (fun a ha => by simp only at ha; simp [upd, show a ≠ im by omega, show a ≠ h.next by omega, wf a (by omega)])
        (fun a ha => hm a (by simp only at ha; omega)) R' nd.2 (fun j hj => by
          have : j ≠ i := fun e => nd.1 (e ▸ hj)
          simp [setImg, this, hf j (by simp [hj])])
      refine ⟨b, h', f', ?_, w, by simp only at n; omega, oo, R2, fun j hj => ?_, fun hb j hj => ?_, fun hb => ?_⟩
      · rw [allocImgs, ← r]
        simp [run_bind, run_malloc, o, run_load, run_store, upd, hi, li.ne]
      · simp only [List.mem_cons, not_or] at hj
        rw [r1 j hj.2]; simp [setImg, hj.1]
      · rw [List.mem_cons] at hj
        rcases hj with rfl | hj
        · rw [r1 j nd.1]; simp [setImg]
        · exact r2 hb j hj
      · obtain ⟨k, hk, hk'⟩ := r3 hb
        exact ⟨k, by simp only at hk; omega, hk'⟩

theorem reallocImgs_run (m0 : Nat → Option RBlock) (te im : Nat) (en ef : Ptr) (ts : List Nat) : ∀ (is : List Img) (f : Img → Ptr) (h : Heap RBlock), h.WF →
    (∀ a, h.next ≤ a → m0 a = none) → Res m0 h.mem te en ef (some im) f ts → is.Nodup → (∀ i ∈ is, f i = none) →
    ∃ h' f', (reallocImgs (some im) is).run h = some ((), h') ∧ h'.WF ∧ Res m0 h'.mem te en ef (some im) f' ts
  | [], f, h, wf, _, R, _, _ => ⟨h, f, rfl, wf, R⟩
  | i :: is, f, h, wf, hm, R, nd, hf => by
    rw [List.nodup_cons] at nd
    have fi := hf i (by simp)
    have hi := R.imAt im rfl
    have li := live_lt wf hi
    cases o : h.orc h.next with
    | false =>
      obtain ⟨h', f', r, w, R2⟩ := reallocImgs_run m0 te im en ef ts is f { h with next := h.next + 1 }
        (fun a ha => wf a (by simp only at ha; omega)) (fun a ha => hm a (by simp only at ha; omega)) R nd.2 (fun j hj => hf j (by simp [hj]))
      refine ⟨h', f', ?_, w, R2⟩
      rw [reallocImgs, ← r]
      simp [run_bind, run_malloc, o, run_load, hi, run_store, setImg_none fi]
      congr 2
      funext x; simp only [upd]; split_ifs with e
      · rw [e, hi]
      · rfl
    | true =>
      rcases R.add (i := i) (q := h.next) (wf _ (le_refl _)) (hm _ (le_refl _)) (.arr 0) with R' | c
      swap
      · exact absurd fi c
      obtain ⟨h', f', r, w, R2⟩ := reallocImgs_run m0 te im en ef ts is (setImg f i (some h.next))
        ⟨upd (upd h.mem h.next (some (.arr 0))) im (some (.images (setImg f i (some h.next)))), h.next + 1, h.orc⟩
        (fun a ha => by simp only at ha; simp [upd, show a ≠ im by omega, show a ≠ h.next by omega, wf a (by omega)])
        (fun a ha => hm a (by simp only at ha; omega)) R' nd.2 (fun j hj => by
          have : j ≠ i := fun e => nd.1 (e ▸ hj)
          simp [setImg, this, hf j (by simp [hj])])
      refine ⟨h', f', ?_, w, R2⟩
      rw [reallocImgs, ← r]
      simp [run_bind, run_malloc, o, run_load, run_store, upd, hi, li.ne]

theorem orders_disjoint : allocOrder.Nodup ∧ leakOrder.Nodup ∧ (∀ i ∈ leakOrder, i ∉ allocOrder) ∧ ∀ i : Img, i ∈ allocOrder ++ leakOrder := by
  refine ⟨by decide, by decide, by decide, fun i => by cases i <;> decide⟩

/-- memory with the four temporaries at `n .. n+3` -/
def mem4 (m : Nat → Option RBlock) (n : Nat) : Nat → Option RBlock :=
  fun x => if x = n ∨ x = n + 1 ∨ x = n + 2 ∨ x = n + 3 then some (.arr 0) else m x

theorem res_stage (m : Nat → Option RBlock) (n : Nat) (hm : ∀ a, n ≤ a → m a = none) :
    Res m (upd (mem4 m n) (n + 4) (some (.teff none none none))) (n + 4) none none none (fun _ => none) [n, n + 1, n + 2, n + 3] ∧
    Res m (upd (upd (mem4 m n) (n + 4) (some (.teff (some (n + 5)) none none))) (n + 5) (some (.arr 0)))
      (n + 4) (some (n + 5)) none none (fun _ => none) [n, n + 1, n + 2, n + 3] ∧
    Res m (upd (upd (upd (mem4 m n) (n + 4) (some (.teff (some (n + 5)) (some (n + 6)) none))) (n + 5) (some (.arr 0))) (n + 6) (some (.arr 0)))
      (n + 4) (some (n + 5)) (some (n + 6)) none (fun _ => none) [n, n + 1, n + 2, n + 3] ∧
    Res m (upd (upd (upd (upd (mem4 m n) (n + 4) (some (.teff (some (n + 5)) (some (n + 6)) (some (n + 7))))) (n + 5) (some (.arr 0))) (n + 6) (some (.arr 0)))
        (n + 7) (some (.images (fun _ => none))))
      (n + 4) (some (n + 5)) (some (n + 6)) (some (n + 7)) (fun _ => none) [n, n + 1, n + 2, n + 3] := by
  refine ⟨?_, ?_, ?_, ?_⟩
  all_goals
    constructor
    · simp [upd]
    · intro a ha
      simp only [Option.toList_none, Option.toList_some, List.mem_append, List.mem_cons, List.not_mem_nil, or_false, false_or] at ha
      simp only [upd, mem4]; grind
    · intro a ha
      first | (cases ha; done) | (injection ha with ha; subst ha; simp [upd])
    · intro _ _; rfl
    · intro i a h; cases h
    · intro i j a h; cases h
    · simp
    · intro i a h; cases h
    · intro x hx _
      simp only [Option.toList_none, Option.toList_some, List.mem_append, List.mem_cons, List.not_mem_nil, or_false, false_or, not_or] at hx
      simp only [upd, mem4]; grind
    · rintro x (hx | ⟨i, hi⟩)
      · simp only [Option.toList_none, Option.toList_some, List.mem_append, List.mem_cons, List.not_mem_nil, or_false, false_or] at hx
        exact hm x (by omega)
      · cases hi

theorem mem4_wf {h : Heap RBlock} (wf : h.WF) : ∀ a, h.next + 4 ≤ a → mem4 h.mem h.next a = none := fun a ha => by
  simp [mem4, show a ≠ h.next by omega, show a ≠ h.next + 1 by omega, show a ≠ h.next + 2 by omega, show a ≠ h.next + 3 by omega, wf a (by omega)]

/-- what remains of a call that failed after the temporaries: three of them -/
theorem fail_tail (h g : Heap RBlock) (wf : h.WF) (te : Nat) (en ef im : Ptr) (f : Img → Ptr) (R : Res h.mem g.mem te en ef im f [h.next, h.next + 1, h.next + 2, h.next + 3])
    (e : EArg) :
    ∃ h', ((do
        teFree (some te)
        free (some h.next)
        pure (none, e.set .memory)) : CM RBlock (Option (Temps × Ptr) × EArg)).run g = some ((none, e.set .memory), h') ∧
      ∀ x, h'.mem x = if x = h.next + 1 ∨ x = h.next + 2 ∨ x = h.next + 3 then g.mem x else h.mem x := by
  obtain ⟨g', r, _, _, r3⟩ := (results_free g).2.2 _ _ _ _ _ _ _ R
  have l0 : g.mem h.next ≠ none := R.arrays _ (by simp)
  have l : g'.mem h.next ≠ none := by rw [r3]; simpa using l0
  refine ⟨{ g' with mem := without g'.mem [h.next] }, ?_, fun x => ?_⟩
  · rw [run_bind_some r, run_bind_some (free_opt g' (some h.next) (fun a ha => by injection ha with ha; subst ha; exact l))]
    rfl
  · have := wf h.next (le_refl _)
    simp only [Memo.without, List.mem_singleton]
    split_ifs with c d d
    · omega
    · rw [c, this]
    · rw [r3]; simp [d]
    · rw [r3, if_neg]; simp; omega

/-- **C07 / C47.**  The allocations of a simulation, for any pattern of failures.  When all succeed, the results and the four temporary arrays are
complete, different and fresh, and nothing else changed.  When one fails the call returns NULL with a MEMORY error, nothing that was live before is
touched, and the results are released; what stays allocated is at most the temporaries. -/
theorem sim_alloc (h : Heap RBlock) (wf : h.WF) (e : EArg) :
    ∃ r e' h', (simAlloc e).run h = some ((r, e'), h') ∧
      (∀ t te, r = some (t, te) → e' = e ∧ h'.WF ∧ h.next + 4 ≤ h'.next ∧ ∃ a f, te = some a ∧ t = ⟨some h.next, some (h.next + 1), some (h.next + 2), some (h.next + 3)⟩ ∧
        (∃ en ef im, Res h.mem h'.mem a (some en) (some ef) (some im) f [h.next, h.next + 1, h.next + 2, h.next + 3]) ∧
        (∀ i ∈ allocOrder, f i ≠ none) ∧ ∀ i ∈ leakOrder, f i = none) ∧
      (r = none → e' = e.set .memory ∧ (∃ k, h.next ≤ k ∧ h.orc k = false) ∧
        ∃ lost, (∀ x ∈ lost, h.mem x = none ∧ h'.mem x ≠ none) ∧ (∀ x ∈ lost, x ∈ [h.next, h.next + 1, h.next + 2, h.next + 3]) ∧ without h'.mem lost = h.mem) := by
  have n0 := wf h.next (le_refl _)
  have n1 := wf (h.next + 1) (by omega)
  have n2 := wf (h.next + 2) (by omega)
  have n3 := wf (h.next + 3) (by omega)
  obtain ⟨S0, S1, S2, S3⟩ := res_stage h.mem h.next wf
  have w4 := mem4_wf wf
  cases o0 : h.orc h.next with
  | false =>
    refine ⟨none, e.set .memory, { h with next := h.next + 1 }, by simp [simAlloc, run_bind, run_malloc, o0], by simp, fun _ => ⟨rfl, ⟨_, le_refl _, o0⟩, [], by simp, by simp, without_nil _⟩⟩
  | true =>
  cases o1 : h.orc (h.next + 1) with
  | false =>
    refine ⟨none, e.set .memory, ⟨upd h.mem h.next (some (.arr 0)), h.next + 2, h.orc⟩, by simp [simAlloc, run_bind, run_malloc, o0, o1], by simp,
      fun _ => ⟨rfl, ⟨_, by omega, o1⟩, [h.next], by simp [n0, upd], by simp, ?_⟩⟩
    funext x; simp only [Memo.without, upd, List.mem_cons, List.not_mem_nil, or_false]; grind
  | true =>
  cases o2 : h.orc (h.next + 2) with
  | false =>
    refine ⟨none, e.set .memory, ⟨upd (upd h.mem h.next (some (.arr 0))) (h.next + 1) (some (.arr 0)), h.next + 3, h.orc⟩, by simp [simAlloc, run_bind, run_malloc, o0, o1, o2], by simp,
      fun _ => ⟨rfl, ⟨_, by omega, o2⟩, [h.next, h.next + 1], by simp [n0, n1, upd], by simp, ?_⟩⟩
    funext x; simp only [Memo.without, upd, List.mem_cons, List.not_mem_nil, or_false]; grind
  | true =>
  cases o3 : h.orc (h.next + 3) with
  | false =>
    refine ⟨none, e.set .memory, ⟨upd (upd (upd h.mem h.next (some (.arr 0))) (h.next + 1) (some (.arr 0))) (h.next + 2) (some (.arr 0)), h.next + 4, h.orc⟩,
      by simp [simAlloc, run_bind, run_malloc, o0, o1, o2, o3], by simp,
      fun _ => ⟨rfl, ⟨_, by omega, o3⟩, [h.next, h.next + 1, h.next + 2], by simp [n0, n1, n2, upd], by simp, ?_⟩⟩
    funext x; simp only [Memo.without, upd, List.mem_cons, List.not_mem_nil, or_false]; grind
  | true =>
  have m4 : upd (upd (upd (upd h.mem h.next (some (.arr 0))) (h.next + 1) (some (.arr 0))) (h.next + 2) (some (.arr 0))) (h.next + 3) (some (.arr 0)) = mem4 h.mem h.next := by
    funext x; simp only [upd, mem4]; grind
  have start : (simAlloc e).run h = (do
      let te ← malloc (RBlock.teff none none none)
      if te = none then (do
        free (some h.next)
        pure (none, e.set .memory)) else
      allocResults ⟨some h.next, some (h.next + 1), some (h.next + 2), some (h.next + 3)⟩ te e).run ⟨mem4 h.mem h.next, h.next + 4, h.orc⟩ := by
    rw [← m4]
    simp [simAlloc, run_bind, run_malloc, o0, o1, o2, o3]
  rw [start]
  have tail : ∀ (g : Heap RBlock) te en ef im f, Res h.mem g.mem te en ef im f [h.next, h.next + 1, h.next + 2, h.next + 3] →
      ∃ h', ((do
        teFree (some te)
        free (some h.next)
        pure (none, e.set .memory)) : CM RBlock (Option (Temps × Ptr) × EArg)).run g = some ((none, e.set .memory), h') ∧
        ∃ lost, (∀ x ∈ lost, h.mem x = none ∧ h'.mem x ≠ none) ∧ (∀ x ∈ lost, x ∈ [h.next, h.next + 1, h.next + 2, h.next + 3]) ∧ without h'.mem lost = h.mem := by
    intro g te en ef im f R
    obtain ⟨h', r, r1⟩ := fail_tail h g wf te en ef im f R e
    refine ⟨h', r, [h.next + 1, h.next + 2, h.next + 3], fun x hx => ?_, fun x hx => by simp only [List.mem_cons] at hx ⊢; tauto, ?_⟩
    · have hx' : x = h.next + 1 ∨ x = h.next + 2 ∨ x = h.next + 3 := by simpa using hx
      refine ⟨wf x (by omega), ?_⟩
      rw [r1, if_pos hx']
      exact R.arrays x (by simp; tauto)
    · funext x
      simp only [Memo.without, List.mem_cons, List.not_mem_nil, or_false]
      split_ifs with c
      · exact (wf x (by omega)).symm
      · rw [r1, if_neg c]
  cases o4 : h.orc (h.next + 4) with
  | false =>
    refine ⟨none, e.set .memory, ⟨upd (mem4 h.mem h.next) h.next none, h.next + 5, h.orc⟩, ?_, by simp, fun _ => ⟨rfl, ⟨_, by omega, o4⟩, [h.next + 1, h.next + 2, h.next + 3], ?_, ?_, ?_⟩⟩
    · simp [run_bind, run_malloc, o4, run_free, mem4]
    · simp [n1, n2, n3, upd, mem4]
    · simp
    · funext x; simp only [Memo.without, upd, mem4, List.mem_cons, List.not_mem_nil, or_false]; grind
  | true =>
  rw [run_bind_some (a := some (h.next + 4)) (h' := ⟨upd (mem4 h.mem h.next) (h.next + 4) (some (.teff none none none)), h.next + 5, h.orc⟩) (by simp [run_malloc, o4])]
  simp only [reduceCtorEq, if_false, allocResults]
  cases o5 : h.orc (h.next + 5) with
  | false =>
    obtain ⟨h', r, l⟩ := tail ⟨upd (mem4 h.mem h.next) (h.next + 4) (some (.teff none none none)), h.next + 6, h.orc⟩ _ _ _ _ _ S0
    refine ⟨none, e.set .memory, h', ?_, by simp, fun _ => ⟨rfl, ⟨_, by omega, o5⟩, l⟩⟩
    rw [← r, run_bind_some (a := none) (h' := ⟨upd (mem4 h.mem h.next) (h.next + 4) (some (.teff none none none)), h.next + 6, h.orc⟩) (by simp [run_malloc, o5])]
    rw [run_bind_some (a := ()) (h' := ⟨upd (mem4 h.mem h.next) (h.next + 4) (some (.teff none none none)), h.next + 6, h.orc⟩) (by simp [run_store, upd_upd])]
    rfl
  | true =>
  rw [run_bind_some (a := some (h.next + 5)) (h' := ⟨upd (upd (mem4 h.mem h.next) (h.next + 4) (some (.teff none none none))) (h.next + 5) (some (.arr 0)), h.next + 6, h.orc⟩) (by simp [run_malloc, o5])]
  rw [run_bind_some (a := ()) (h' := ⟨upd (upd (mem4 h.mem h.next) (h.next + 4) (some (.teff (some (h.next + 5)) none none))) (h.next + 5) (some (.arr 0)), h.next + 6, h.orc⟩)
    (by simp [run_store, upd]; funext x; simp only [upd]; grind)]
  simp only [reduceCtorEq, if_false]
  cases o6 : h.orc (h.next + 6) with
  | false =>
    obtain ⟨h', r, l⟩ := tail ⟨upd (upd (mem4 h.mem h.next) (h.next + 4) (some (.teff (some (h.next + 5)) none none))) (h.next + 5) (some (.arr 0)), h.next + 7, h.orc⟩ _ _ _ _ _ S1
    refine ⟨none, e.set .memory, h', ?_, by simp, fun _ => ⟨rfl, ⟨_, by omega, o6⟩, l⟩⟩
    rw [← r, run_bind_some (a := none) (h' := ⟨upd (upd (mem4 h.mem h.next) (h.next + 4) (some (.teff (some (h.next + 5)) none none))) (h.next + 5) (some (.arr 0)), h.next + 7, h.orc⟩) (by simp [run_malloc, o6])]
    rw [run_bind_some (a := ()) (h' := ⟨upd (upd (mem4 h.mem h.next) (h.next + 4) (some (.teff (some (h.next + 5)) none none))) (h.next + 5) (some (.arr 0)), h.next + 7, h.orc⟩)
      (by simp [run_store, upd]; funext x; simp only [upd]; grind)]
    rfl
  | true =>
  rw [run_bind_some (a := some (h.next + 6)) (h' := ⟨upd (upd (upd (mem4 h.mem h.next) (h.next + 4) (some (.teff (some (h.next + 5)) none none))) (h.next + 5) (some (.arr 0))) (h.next + 6) (some (.arr 0)), h.next + 7, h.orc⟩) (by simp [run_malloc, o6])]
  rw [run_bind_some (a := ()) (h' := ⟨upd (upd (upd (mem4 h.mem h.next) (h.next + 4) (some (.teff (some (h.next + 5)) (some (h.next + 6)) none))) (h.next + 5) (some (.arr 0))) (h.next + 6) (some (.arr 0)), h.next + 7, h.orc⟩)
    (by simp [run_store, upd]; funext x; simp only [upd]; grind)]
  simp only [reduceCtorEq, if_false]
  cases o7 : h.orc (h.next + 7) with
  | false =>
    obtain ⟨h', r, l⟩ := tail ⟨upd (upd (upd (mem4 h.mem h.next) (h.next + 4) (some (.teff (some (h.next + 5)) (some (h.next + 6)) none))) (h.next + 5) (some (.arr 0))) (h.next + 6) (some (.arr 0)), h.next + 8, h.orc⟩ _ _ _ _ _ S2
    refine ⟨none, e.set .memory, h', ?_, by simp, fun _ => ⟨rfl, ⟨_, by omega, o7⟩, l⟩⟩
    rw [← r, run_bind_some (a := none) (h' := ⟨upd (upd (upd (mem4 h.mem h.next) (h.next + 4) (some (.teff (some (h.next + 5)) (some (h.next + 6)) none))) (h.next + 5) (some (.arr 0))) (h.next + 6) (some (.arr 0)), h.next + 8, h.orc⟩) (by simp [run_malloc, o7])]
    rw [run_bind_some (a := ()) (h' := ⟨upd (upd (upd (mem4 h.mem h.next) (h.next + 4) (some (.teff (some (h.next + 5)) (some (h.next + 6)) none))) (h.next + 5) (some (.arr 0))) (h.next + 6) (some (.arr 0)), h.next + 8, h.orc⟩)
      (by simp [run_store, upd]; funext x; simp only [upd]; grind)]
    rfl
  | true =>
  generalize hg : (⟨upd (upd (upd (upd (mem4 h.mem h.next) (h.next + 4) (some (.teff (some (h.next + 5)) (some (h.next + 6)) (some (h.next + 7))))) (h.next + 5) (some (.arr 0)))
    (h.next + 6) (some (.arr 0))) (h.next + 7) (some (.images (fun _ => none))), h.next + 8, h.orc⟩ : Heap RBlock) = g
  have gR : Res h.mem g.mem (h.next + 4) (some (h.next + 5)) (some (h.next + 6)) (some (h.next + 7)) (fun _ => none) [h.next, h.next + 1, h.next + 2, h.next + 3] := by
    rw [← hg]; exact S3
  have gn : g.next = h.next + 8 := by rw [← hg]
  have go : g.orc = h.orc := by rw [← hg]
  have gwf : g.WF := fun a ha => by
    rw [gn] at ha
    rw [← hg]; simp [upd, show a ≠ h.next + 4 by omega, show a ≠ h.next + 5 by omega, show a ≠ h.next + 6 by omega, show a ≠ h.next + 7 by omega, w4 a (by omega)]
  rw [run_bind_some (a := some (h.next + 7)) (h' := ⟨upd (upd (upd (upd (mem4 h.mem h.next) (h.next + 4) (some (.teff (some (h.next + 5)) (some (h.next + 6)) none))) (h.next + 5) (some (.arr 0)))
    (h.next + 6) (some (.arr 0))) (h.next + 7) (some (.images (fun _ => none))), h.next + 8, h.orc⟩) (by simp [run_malloc, o7])]
  rw [run_bind_some (a := ()) (h' := g) (by rw [← hg]; simp [run_store, upd]; funext x; simp only [upd]; grind)]
  simp only [reduceCtorEq, if_false]
  obtain ⟨b, h', f', r, w, n, oo, R2, r1, r2, r3⟩ := allocImgs_run h.mem (h.next + 4) (h.next + 7) (some (h.next + 5)) (some (h.next + 6)) [h.next, h.next + 1, h.next + 2, h.next + 3]
    allocOrder (fun _ => none) g gwf (fun a ha => wf a (by omega)) gR orders_disjoint.1 (fun _ _ => rfl)
  rw [run_bind_some r]
  cases b with
  | true =>
    refine ⟨_, e, h', rfl, fun t te ht => ?_, by simp⟩
    simp only [Option.some.injEq, Prod.mk.injEq] at ht
    obtain ⟨rfl, rfl⟩ := ht
    exact ⟨rfl, w, by omega, h.next + 4, f', rfl, rfl, ⟨_, _, _, R2⟩, r2 rfl, fun i hi => r1 i (orders_disjoint.2.2.1 i hi)⟩
  | false =>
    obtain ⟨h2, r', l⟩ := tail h' _ _ _ _ _ R2
    obtain ⟨k, hk, hk'⟩ := r3 rfl
    refine ⟨none, e.set .memory, h2, ?_, by simp, fun _ => ⟨rfl, ⟨k, by omega, by rw [← go]; exact hk'⟩, l⟩⟩
    rw [← r']; rfl

theorem Res.drop {m0 m : Nat → Option RBlock} {te : Nat} {en ef im : Ptr} {f : Img → Ptr} {t : Nat} {ts : List Nat} (R : Res m0 m te en ef im f (t :: ts)) :
    Res m0 (without m [t]) te en ef im f ts := by
  have N := R.nodup
  have sub : ∀ x, x ∈ te :: (en.toList ++ ef.toList ++ im.toList ++ ts) → x ≠ t := by
    intro x hx e
    subst e
    simp only [List.nodup_cons, List.nodup_append, List.mem_append, List.mem_cons, not_or] at N hx
    rcases hx with rfl | hx | hx
    · exact N.1.2.1 rfl
    · exact N.2.2.2 x (by tauto) x (Or.inl rfl) rfl
    · exact N.2.2.1.1 hx
  have inc : ∀ x, x ∈ te :: (en.toList ++ ef.toList ++ im.toList ++ ts) → x ∈ te :: (en.toList ++ ef.toList ++ im.toList ++ (t :: ts)) := by
    intro x hx; simp only [List.mem_append, List.mem_cons] at hx ⊢; tauto
  have tin : t ∈ te :: (en.toList ++ ef.toList ++ im.toList ++ (t :: ts)) := by simp
  have ft : ∀ i a, f i = some a → a ≠ t := fun i a hi e => R.apart i a hi (e ▸ tin)
  have keep : ∀ x, x ≠ t → without m [t] x = m x := fun x hx => by simp [Memo.without, hx]
  refine ⟨?_, ?_, ?_, R.noim, ?_, R.inj, ?_, ?_, ?_, ?_⟩
  · rw [keep te (sub te (by simp))]; exact R.teAt
  · intro a ha
    have h1 : a ∈ te :: (en.toList ++ ef.toList ++ im.toList ++ ts) := by simp only [List.mem_append, List.mem_cons] at ha ⊢; tauto
    rw [keep a (sub a h1)]
    exact R.arrays a (by simp only [List.mem_append, List.mem_cons] at ha ⊢; tauto)
  · intro a ha
    rw [keep a (sub a (by simp [ha]))]; exact R.imAt a ha
  · intro i a ha
    rw [keep a (ft i a ha)]; exact R.imgs i a ha
  · refine N.sublist ?_
    refine List.Sublist.cons_cons te (List.Sublist.append (List.Sublist.refl _) (List.sublist_cons_self t ts))
  · exact fun i a ha hm => R.apart i a ha (inc a hm)
  · intro x hx hf
    by_cases e : x = t
    · rw [e, R.fresh t (Or.inl tin)]; simp [Memo.without]
    · rw [keep x e]
      refine R.frame x ?_ hf
      simp only [List.mem_append, List.mem_cons, not_or] at hx ⊢; tauto
  · rintro x (hx | hx)
    · exact R.fresh x (Or.inl (inc x hx))
    · exact R.fresh x (Or.inr hx)

/-- the whole life of the results of a simulation, as far as its memory is concerned: the allocations, what follows the loop, and the caller's
`polycap_transmission_efficiencies_free` -/
def simLife (leak : Bool) (e : EArg) : CM RBlock (Bool × EArg) := do
  match ← simAlloc e with
  | (none, e') => pure (false, e')
  | (some (t, te), e') => do
    simEnd leak t te
    teFree te
    pure (true, e')

/-- **C47.**  A simulation that got its memory followed by `polycap_transmission_efficiencies_free` leaves no block behind and releases none twice,
with or without leak events, even if an allocation of the leak arrays failed; if it does not get its memory it reports a MEMORY error, and leaves behind at most the four temporary arrays. -/
theorem sim_life (leak : Bool) (h : Heap RBlock) (wf : h.WF) (e : EArg) :
    ∃ b e' h', (simLife leak e).run h = some ((b, e'), h') ∧ (b = true → e' = e ∧ h'.mem = h.mem) ∧
      (b = false → e' = e.set .memory ∧ (∃ k, h.next ≤ k ∧ h.orc k = false) ∧
        ∃ lost, lost ⊆ [h.next, h.next + 1, h.next + 2, h.next + 3] ∧ without h'.mem lost = h.mem) := by
  obtain ⟨r, e', g, r1, r2, r3⟩ := sim_alloc h wf e
  cases r with
  | none =>
    obtain ⟨q1, q2, lost, q3, q4, q5⟩ := r3 rfl
    refine ⟨false, e', g, ?_, by simp, fun _ => ⟨q1, q2, lost, q4, q5⟩⟩
    rw [simLife, run_bind_some r1]; rfl
  | some tt =>
    obtain ⟨t, te⟩ := tt
    obtain ⟨q1, gwf, gn, a, f, rfl, rfl, ⟨en, ef, im, R⟩, q2, q3⟩ := r2 t te rfl
    have mid : ∃ g' f', (if leak then reallocImgs (some im) leakOrder else pure ()).run g = some ((), g') ∧
        Res h.mem g'.mem a (some en) (some ef) (some im) f' [h.next, h.next + 1, h.next + 2, h.next + 3] := by
      cases leak with
      | false => exact ⟨g, f, rfl, R⟩
      | true =>
        obtain ⟨g', f', r, _, R2⟩ := reallocImgs_run h.mem a im (some en) (some ef) _ leakOrder f g gwf (fun a ha => wf a (by omega)) R orders_disjoint.2.1 q3
        exact ⟨g', f', r, R2⟩
    obtain ⟨g', f', m1, R2⟩ := mid
    have fr : ∀ (k : Heap RBlock) (t : Nat) ts, Res h.mem k.mem a (some en) (some ef) (some im) f' (t :: ts) →
        (free (some t)).run k = some ((), { k with mem := without k.mem [t] }) := fun k t ts R => free_opt k (some t) (fun b hb => by
      injection hb with hb; subst hb; exact R.arrays t (by simp))
    obtain ⟨h', s1, _, _, s2⟩ := (results_free { g' with mem := without (without (without (without g'.mem [h.next]) [h.next + 1]) [h.next + 2]) [h.next + 3] }).2.2 _ _ _ _ _ _ _ R2.drop.drop.drop.drop
    refine ⟨true, e', h', ?_, fun _ => ⟨q1, funext fun x => by rw [s2 x]; simp⟩, by simp⟩
    rw [simLife, run_bind_some r1]
    have eEnd : (simEnd leak ⟨some h.next, some (h.next + 1), some (h.next + 2), some (h.next + 3)⟩ (some a)).run g =
        some ((), { g' with mem := without (without (without (without g'.mem [h.next]) [h.next + 1]) [h.next + 2]) [h.next + 3] }) := by
      rw [simEnd, run_bind_some (a := RBlock.teff (some en) (some ef) (some im)) (h' := g) (by rw [run_load, R.teAt])]
      have e1 : (do if leak then reallocImgs (some im) leakOrder else pure ()
                    free (some h.next)
                    free (some (h.next + 1))
                    free (some (h.next + 2))
                    free (some (h.next + 3)) : CM RBlock Unit) = ((if leak then reallocImgs (some im) leakOrder else pure ()) >>= fun _ => do
                    free (some h.next)
                    free (some (h.next + 1))
                    free (some (h.next + 2))
                    free (some (h.next + 3))) := by cases leak <;> rfl
      refine (congrArg (fun p => p.run g) e1).trans ?_
      rw [run_bind_some m1, run_bind_some (fr g' _ _ R2), run_bind_some (fr { g' with mem := without g'.mem [h.next] } _ _ R2.drop),
        run_bind_some (fr { g' with mem := without (without g'.mem [h.next]) [h.next + 1] } _ _ R2.drop.drop)]
      exact fr { g' with mem := without (without (without g'.mem [h.next]) [h.next + 1]) [h.next + 2] } _ _ R2.drop.drop.drop
    show (simEnd leak _ _ >>= _).run g = _
    rw [run_bind_some eEnd, run_bind_some s1]
    rfl

/-- **C07 (finding).**  When the third of the temporary counters cannot be allocated the call returns NULL but keeps three blocks - also the
array `sum_weights`, which it releases on every later failure. -/
theorem sim_alloc_leaks :
    ∃ h', (simAlloc (some none)).run (⟨fun _ => none, 0, fun k => decide (k ≠ 3)⟩ : Heap RBlock) = some ((none, some (some .memory)), h') ∧
      h'.mem 0 ≠ none ∧ h'.mem 1 ≠ none ∧ h'.mem 2 ≠ none := ⟨_, rfl, by simp [upd], by simp [upd], by simp [upd]⟩

/-- **C07 (finding).**  When the results struct cannot be allocated the call returns NULL but keeps the three counters. -/
theorem sim_alloc_leaks_counters :
    ∃ h', (simAlloc (some none)).run (⟨fun _ => none, 0, fun k => decide (k ≠ 4)⟩ : Heap RBlock) = some ((none, some (some .memory)), h') ∧
      h'.mem 0 = none ∧ h'.mem 1 ≠ none ∧ h'.mem 2 ≠ none ∧ h'.mem 3 ≠ none := ⟨_, rfl, by simp [upd], by simp [upd], by simp [upd], by simp [upd]⟩

/-- a heap in which everything succeeds: `sim_life` gives back the memory -/
example : ∃ e' h', (simLife true none).run (⟨fun x => if x = 0 then some (.arr 3) else none, 1, fun _ => true⟩ : Heap RBlock) = some ((true, e'), h') ∧
    h'.mem = fun x => if x = 0 then some (.arr 3) else none := by
  obtain ⟨b, e', h', r, t, f⟩ := sim_life true (⟨fun x => if x = 0 then some (.arr 3) else none, 1, fun _ => true⟩ : Heap RBlock)
    (fun a ha => by simp only at ha; simp; omega) none
  cases b with
  | false => obtain ⟨_, ⟨k, _, hk⟩, _⟩ := f rfl; cases hk
  | true => exact ⟨e', h', r, (t rfl).2⟩
end Polycap.Memo
