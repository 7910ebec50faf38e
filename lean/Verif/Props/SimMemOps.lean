import Verif.Props.SimMemBase
import Verif.Props.SimProps

/-!
# Memory of a simulation (C83): the thread's arrays of leaks and its photon
-/
namespace Polycap.SMem
open CNum CM Mem Memo LMem

variable {α : Type}

/-! ## Releasing an array of leaks -/

theorem freeBuf_piece {m0 : Nat → Option (Block α)} {h : Heap (Block α)} (g : Good h) {q : Ptr} {xs : List (Nat × Nat)} {ls : List (Leak α)} {r : Nat}
    {rs : List (Piece (Block α))} (s : Sep m0 (bufP q xs ls r :: rs) h.mem) :
    ∃ h', (freeLeakArr q ls.length).run h = some ((), h') ∧ Good h' ∧ Sep m0 rs h'.mem := by
  have L : LArr h.mem q xs ls r := s.holds (bufP q xs ls r) (by simp)
  have nd : (addrs xs ++ q.toList).Nodup := s.nodup (p := bufP q xs ls r) (by simp)
  have hlen : xs.length = ls.length := L.leaks.length_eq
  have fin : ∀ h' : Heap (Block α), h' = { h with mem := without h.mem (addrs xs ++ q.toList) } → Good h' ∧ Sep m0 rs h'.mem := by
    rintro h' rfl
    have f : Frame (addrs xs ++ q.toList) [] h { h with mem := without h.mem (addrs xs ++ q.toList) } := by
      refine ⟨fun a ha _ => (by simp only [without, ha, if_true]), fun a ha _ => (by simp only [without, ha, if_false]), by simp, le_refl _, rfl, fun a ha => ?_⟩
      simp only [without]; split
      · rfl
      · exact g.wf a ha
    exact ⟨g.frame f, Sep.step (ps := [bufP q xs ls r]) (qs := []) s g.wf (by rw [buf_count]; exact f) (by simp) (by simp)⟩
  refine ⟨{ h with mem := without h.mem (addrs xs ++ q.toList) }, ?_, fin _ rfl⟩
  cases q with
  | none =>
    obtain ⟨rfl, -⟩ := L.null rfl
    simp [freeLeakArr, addrs, without_nil]
  | some a =>
    have ha := L.arr a rfl
    have hna : a ∉ addrs xs := fun hm => (List.nodup_append.mp nd).2.2 a hm a (by simp) rfl
    have h1 := freeLeaks_run a _ xs (ls.map lv) 0 h ha (fun j x hx => ptrs_at xs _ j x hx) (by simpa using hlen)
      (fun j x v hx hv => by
        rw [List.getElem?_map] at hv
        obtain ⟨l, hl, rfl⟩ := Option.map_eq_some_iff.mp hv
        obtain ⟨i1, i2⟩ := List.getElem?_eq_some_iff.1 hx
        obtain ⟨i3, i4⟩ := List.getElem?_eq_some_iff.1 hl
        have := (List.forall₂_iff_get.mp L.leaks).2 j i1 i3
        simp only [List.get_eq_getElem, i2, i4] at this
        exact this) (List.nodup_append.mp nd).1 hna
    simp only [freeLeakArr, reduceCtorEq, if_false]
    rw [← hlen, run_bind_some h1, free_opt _ (some a) (fun b hb => by
      injection hb with hb; subst hb; simp [Memo.without, hna, ha])]
    simp only [without_append]

/-! ## Growing and filling -/

theorem growCap_ge (c n : Nat) : n ≤ growCap c n ∧ c ≤ growCap c n := by
  unfold growCap; split
  · split
    · omega
    · split <;> omega
  · omega

/-- the array `b` of the thread holds the leaks `v`, in the piece `p` -/
structure BufR (ne : Nat) (b : MBuf) (v : Buf α) (p : Piece (Block α)) : Prop where
  n : b.n = v.items.length
  cap : b.cap = v.cap
  wts : ∀ l ∈ v.items, l.weight.length = ne
  own : ∃ xs r, p = bufP b.q xs v.items r ∧ xs.length + r = b.cap

theorem BufR.empty (ne : Nat) : BufR ne MBuf.empty (Buf.empty : Buf α) (bufP none [] [] 0) :=
  ⟨rfl, rfl, by simp [Buf.empty], [], 0, rfl, rfl⟩

/-- after growing by `k`: room for at least `k` more -/
structure Grown (ne : Nat) (b : MBuf) (v : Buf α) (k : Nat) (p : Piece (Block α)) : Prop where
  n : b.n = v.items.length + k
  cap : b.cap = growCap v.cap (v.items.length + k)
  wts : ∀ l ∈ v.items, l.weight.length = ne
  own : ∃ xs r, p = bufP b.q xs v.items (k + r) ∧ xs.length = v.items.length ∧ xs.length + (k + r) = b.cap
  some : 0 < k → b.q ≠ none

theorem grow_piece {m0 : Nat → Option (Block α)} {h : Heap (Block α)} (g : Good h) {ne : Nat} {b : MBuf} {v : Buf α} {p : Piece (Block α)}
    {rs : List (Piece (Block α))} (R : BufR ne b v p) (s : Sep m0 (p :: rs) h.mem) (k : Nat) :
    ∃ h' b' p', (b.grow k).run h = some (b', h') ∧ Good h' ∧ Grown ne b' v k p' ∧ Sep m0 (p' :: rs) h'.mem := by
  obtain ⟨xs, r, rfl, hc⟩ := R.own
  have L : LArr h.mem b.q xs v.items r := s.holds (bufP b.q xs v.items r) (by simp)
  have hlen : xs.length = v.items.length := L.leaks.length_eq
  have hge := growCap_ge b.cap (b.n + k)
  unfold MBuf.grow
  by_cases hk : b.n + k > b.cap
  · rw [if_pos hk]
    obtain ⟨h', q', r1, g', s'⟩ := realloc_piece g s (n := growCap b.cap (b.n + k)) (by omega)
    refine ⟨h', ⟨some q', b.n + k, growCap b.cap (b.n + k)⟩, _, by rw [run_bind_some r1]; rfl, g', ?_, s'⟩
    refine ⟨by simp [R.n], by simp [R.n, R.cap], R.wts, ⟨xs, growCap b.cap (b.n + k) - xs.length - k, ?_, hlen, ?_⟩, by simp⟩
    · congr 1; have := R.n; omega
    · have := R.n; simp only; omega
  · rw [if_neg hk]
    have e : growCap b.cap (b.n + k) = b.cap := by simp [growCap, hk]
    refine ⟨h, ⟨b.q, b.n + k, growCap b.cap (b.n + k)⟩, bufP b.q xs v.items r, rfl, g, ?_, s⟩
    refine ⟨by simp [R.n], by simp [R.n, R.cap], R.wts, ⟨xs, r - k, ?_, hlen, ?_⟩, fun h0 hq => ?_⟩
    · congr 1; have := R.n; omega
    · have := R.n; simp only; omega
    · obtain ⟨h1, h2⟩ := L.null hq
      rw [h1] at hc; simp at hc; omega

variable [CNum α]

omit [CNum α] in
theorem copyLeaks_id {ne : Nat} {ls : List (Leak α)} (h : ∀ l ∈ ls, l.weight.length = ne) : copyLeaks ne ls = .ok ls := by
  unfold copyLeaks
  rw [if_pos (List.all_eq_true.mpr fun l hl => by simp [h l hl])]
  congr 1
  conv_rhs => rw [← List.map_id ls]
  refine List.map_congr_left fun l hl => ?_
  rw [← h l hl, List.take_length]; rfl

theorem append_ok {ne : Nat} {v : Buf α} {ls : List (Leak α)} (h : ∀ l ∈ ls, l.weight.length = ne) :
    v.append ne ls = .ok ⟨v.items ++ ls, growCap v.cap (v.items.length + ls.length)⟩ := by
  have := (growCap_ge v.cap (v.items.length + ls.length)).1
  simp [Buf.append, copyLeaks_id h, this]

omit [CNum α] in
theorem fill_piece {m0 : Nat → Option (Block α)} {h : Heap (Block α)} (g : Good h) {ne : Nat} {b : MBuf} {v : Buf α} {p src : Piece (Block α)}
    {rs : List (Piece (Block α))} {ms : List (Leak α)} (R : Grown ne b v ms.length p) (s : Sep m0 (p :: rs) h.mem) (hm : src ∈ rs) {a : Ptr} {sps : List Ptr}
    {ys : List (Nat × Nat)} (ha : 0 < ms.length → ∃ x, a = some x ∧ Holds src x sps ys ms)
    (hp : ∀ (j : Nat) y, ys[j]? = some y → sps[0 + j]? = some (some y.1)) (hl : ∀ l ∈ ms, l.weight.length = ne) :
    ∃ h' p', (b.fill ne a ms.length).run h = some ((), h') ∧ Good h' ∧
      BufR ne b ⟨v.items ++ ms, growCap v.cap (v.items.length + ms.length)⟩ p' ∧ Sep m0 (p' :: rs) h'.mem := by
  obtain ⟨xs, r, rfl, hx, hc⟩ := R.own
  have n := R.n
  have cap := R.cap
  have wts : ∀ l ∈ v.items ++ ms, l.weight.length = ne := fun l h => (List.mem_append.mp h).elim (R.wts l) (hl l)
  by_cases h0 : ms.length = 0
  · obtain rfl := List.length_eq_zero_iff.mp h0
    refine ⟨h, _, rfl, g, ⟨by simpa using n, cap, wts, xs, 0 + r, by simp, by simpa using hc⟩, s⟩
  · obtain ⟨x, rfl, hs⟩ := ha (by omega)
    obtain ⟨q, hq⟩ := Option.ne_none_iff_exists'.mp (R.some (by omega))
    have hy : ys.length = ms.length := (hs _ (s.holds src (by simp [hm]))).2.length_eq
    rw [hq] at s
    obtain ⟨h', xs', r1, g1, s1⟩ := copy_piece hm (ms := ms) (ys := ys) (i := 0) (o := b.n - ms.length) (ne := ne) (r := r) g
      (by rw [hy]; exact s) hs hp hl (by omega)
    have hx' : xs'.length = (v.items ++ ms).length :=
      (s1.holds (bufP (some q) xs' (v.items ++ ms) r) (by simp) : LArr _ _ _ _ _).leaks.length_eq
    refine ⟨h', _, ?_, g1, ⟨by simpa using n, cap, wts, xs', r, by rw [hq], ?_⟩, s1⟩
    · rw [MBuf.fill, hq, ← hy]; rw [← hy] at r1; exact r1
    · rw [hx', List.length_append]; omega

/-! ## The photon -/

omit [CNum α] in
theorem feet_ph (ne p : Nat) (b : Ph) (xs : Bool → List (Nat × Nat)) (P : Photon α) : feet [phP ne p b xs P] = foot p b xs := by
  simp [feet, phP]

omit [CNum α] in
theorem freePh_piece {m0 : Nat → Option (Block α)} {h : Heap (Block α)} (g : Good h) {ne p : Nat} {b : Ph} {xs : Bool → List (Nat × Nat)}
    {P : Photon α} {rs : List (Piece (Block α))} (s : Sep m0 (phP ne p b xs P :: rs) h.mem) :
    ∃ h', (photonFree (some p)).run h = some ((), h') ∧ Good h' ∧ Sep m0 rs h'.mem ∧ h'.mem p = none := by
  have o : Own h.mem ne p false b xs (fun _ => 0) P := s.holds (phP ne p b xs P) (by simp)
  obtain ⟨h', r, f⟩ := photonFree_run g.wf o
  exact ⟨h', r, g.frame f, Sep.step (ps := [phP ne p b xs P]) (qs := []) s g.wf (by rw [feet_ph]; exact f) (by simp) (by simp),
    f.gone p (mem_foot.mpr (by simp)) (by simp)⟩

omit [CNum α] in
theorem getPh_piece {m0 : Nat → Option (Block α)} {h : Heap (Block α)} {ne p : Nat} {b : Ph} {xs : Bool → List (Nat × Nat)}
    {P : Photon α} {ps : List (Piece (Block α))} (s : Sep m0 ps h.mem) (hm : phP ne p b xs P ∈ ps) : (getPh (some p)).run h = some (b, h) ∧
      (b.nE = P.ext.length ∧ b.nI = P.int.length) ∧ (∀ l ∈ P.ext, l.weight.length = ne) ∧ (∀ l ∈ P.int, l.weight.length = ne) ∧
      (0 < P.ext.length → ∃ x, b.ext = some x) ∧ (0 < P.int.length → ∃ x, b.int = some x) := by
  have o : Own h.mem ne p false b xs (fun _ => 0) P := s.holds _ hm
  have e : ∀ t, 0 < (leaksOf P t).length → ∃ x, b.arr t = some x := fun t h0 => by
    cases hq : b.arr t with
    | some x => exact ⟨x, rfl⟩
    | none =>
      have := ((o.arrs t).null hq).1
      rw [← (o.arrs t).leaks.length_eq, this] at h0; simp at h0
  exact ⟨getPh_run o.blk, ⟨o.cnt true, o.cnt false⟩, o.wts true, o.wts false, e true, e false⟩

omit [CNum α] in
/-- the kept leaks are passed on to the photon -/
theorem pass_piece {m0 : Nat → Option (Block α)} {h : Heap (Block α)} (g : Good h) {ne pp : Nat} {b : MBuf} {v : Buf α} {p : Piece (Block α)}
    {pb : Ph} {xs : Bool → List (Nat × Nat)} {P : Photon α} {rs : List (Piece (Block α))} (R : BufR ne b v p)
    (s : Sep m0 (p :: phP ne pp pb xs P :: rs) h.mem) (t : Bool) :
    ∃ h' b' p' pb' xs', (passLeaksM t ne (some pp) b).run h = some (b', h') ∧ Good h' ∧ BufR ne b' v.drain p' ∧
      (v.items = [] → b' = b) ∧ (v.items ≠ [] → b' = MBuf.empty) ∧ Sep m0 (p' :: phP ne pp pb' xs' (addTo t P v.items) :: rs) h'.mem := by
  unfold passLeaksM Buf.drain
  by_cases h0 : v.items.length = 0
  · have e : v.items = [] := List.length_eq_zero_iff.mp h0
    rw [if_neg (by rw [R.n]; omega), if_neg (by omega)]
    exact ⟨h, b, p, pb, xs, rfl, g, R, fun _ => rfl, fun hx => absurd e hx, by rw [e, addTo_nil]; exact s⟩
  · rw [if_pos (by rw [R.n]; omega), if_pos (by omega)]
    obtain ⟨ys, r, rfl, hc⟩ := R.own
    have L : LArr h.mem b.q ys v.items r := s.holds (bufP b.q ys v.items r) (by simp)
    have hy : ys.length = v.items.length := L.leaks.length_eq
    have o : Own h.mem ne pp false pb xs (fun _ => 0) P := s.holds (phP ne pp pb xs P) (by simp)
    obtain ⟨a, ha⟩ : ∃ a, b.q = some a := by
      cases hq : b.q with
      | some x => exact ⟨x, rfl⟩
      | none => rw [(L.null hq).1] at hy; simp at hy; omega
    have hd : ∀ x ∈ addrs ys ++ b.q.toList, x ∉ foot pp pb xs := fun x hx => s.disj (q := phP ne pp pb xs P) hx
    have ham := L.arr a ha
    obtain ⟨h1, r1, o1, f1, -⟩ := grow_run g.wf g.am o t b.n
    have keep : ∀ x ∈ addrs ys ++ b.q.toList, h1.mem x = h.mem x ∧ x ∉ foot pp (pb.set t (some h.next) ((xs t).length + b.n)) xs := by
      intro x hx
      obtain ⟨bl, hbl⟩ := Option.ne_none_iff_exists'.mp (larr_live L x hx)
      have := f1.other g.wf hbl (hd x hx)
      exact ⟨by rw [this.1, hbl], this.2⟩
    have e : Function.update (Function.update (fun _ : Bool => 0) t b.n) t 0 = fun _ => 0 := by
      rw [Function.update_idem]; exact Function.update_eq_self t _
    have hat : a ∈ addrs ys ++ b.q.toList := by simp [ha]
    obtain ⟨h2, xs2, r2, o2, f2⟩ := copy_run (s := t) (o := (xs t).length) (i := 0) (ys := ys) (ls := v.items) f1.wf (g.am.frame f1) o1
      (by simp [R.n, hy]) (by rw [(keep a hat).1]; exact ham) (keep a hat).2 (fun j y hj => ptrs_at ys _ j y hj)
      (forall2_congr L.leaks fun x hx => (keep x (by simp [hx])).1) (fun x hx => (keep x (by simp [hx])).2) R.wts (by omega)
    rw [e] at o2
    have f := f1.trans g.wf f2
    have s2 := Sep.step (ps := [phP ne pp pb xs P]) (qs := [phP ne pp _ xs2 (addTo t P v.items)]) (h' := h2) s.swap g.wf (by rw [feet_ph, feet_ph]; exact f)
      (fun q hq => by rw [List.mem_singleton] at hq; subst hq; exact o2) (fun x => by rw [feet_ph]; exact o2.one x)
    obtain ⟨h3, r3, g3, s3⟩ := freeBuf_piece (g.frame f) (Sep.swap s2)
    refine ⟨h3, MBuf.empty, bufP none [] [] 0, _, xs2, ?_, g3, BufR.empty ne, fun hx => ?_, fun _ => rfl, emptyBuf.mpr s3⟩
    · rw [run_bind_some r1]
      simp only
      rw [set_arr_same] at r2
      rw [ha, R.n, ← hy, run_bind_some r2, hy, ← ha, run_bind_some r3]; rfl
    · rw [hx] at h0; simp at h0

/-- a freshly allocated photon is launched -/
theorem launch_piece {m0 : Nat → Option (Block α)} {h : Heap (Block α)} (g : Good h) (lib : Xray α) (D : Descr α) (leak : Bool) (fuel k : Nat) (es : List α)
    (hes : es ≠ []) (hb : es.any energyBad = false) {p : Nat} {P : Photon α} (he : P.ext = []) (hi : P.int = []) {rs : List (Piece (Block α))}
    (s : Sep m0 (blkP p (Ph.blk ⟨none, none, 0, 0, none, none, none, none⟩) :: rs) h.mem) :
    match launch lib (some D) leak fuel k (some P) (some es) true with
    | .ok (c, w, some P') => ∃ h' a b' xs', (launchM lib (some D) leak fuel k (some p) P (some es) true).run h = .ok ((c, some (some a), P'), h') ∧
        Good h' ∧ Sep m0 (phP es.length p b' xs' P' :: blkP a (WBlk es.length w) :: rs) h'.mem
    | .ok (_, _, none) => False
    | .ub => (launchM lib (some D) leak fuel k (some p) P (some es) true).run h = .ub
    | .fuel => (launchM lib (some D) leak fuel k (some p) P (some es) true).run h = .fuel := by
  have hl : ∀ t, leaksOf P t = [] := fun t => by cases t <;> simp [leaksOf, he, hi]
  have harr : ∀ t, (⟨none, none, 0, 0, none, none, none, none⟩ : Ph).arr t = none := fun t => by cases t <;> rfl
  have o : Own h.mem es.length p false ⟨none, none, 0, 0, none, none, none, none⟩ (fun _ => []) (fun _ => 0) P := by
    refine ⟨s.holds (blkP p _) (by simp), fun t => ?_, fun t => ?_, fun t => ?_, by simp, rfl, rfl, rfl, rfl, fun a => ?_⟩
    · rw [hl t, harr t]; exact ⟨fun _ => ⟨rfl, rfl⟩, fun a ha => (by cases ha), .nil⟩
    · rw [hl t]; cases t <;> rfl
    · rw [hl t]; simp
    · simp [foot, owned, addrs, List.count_singleton]; split <;> omega
  have M := launch_memory lib D leak fuel k es hes hb g.wf g.am o
  revert M
  cases launch lib (some D) leak fuel k (some P) (some es) true with
  | ub => exact id
  | fuel => exact id
  | ok x =>
    obtain ⟨c, w, P'⟩ := x
    cases P' with
    | none => exact id
    | some P' =>
      rintro ⟨h', a, b', xs', r, m1, o', na, fr, rest, wf', am'⟩
      refine ⟨h', a, b', xs', r, ⟨wf', am'⟩, ?_⟩
      have hp : p ∈ foot p b' xs' := mem_foot.mpr (by simp)
      have ef : ∀ x, x ∈ feet [phP es.length p b' xs' P', blkP a (WBlk es.length w)] ↔ x ∈ a :: foot p b' xs' := fun x => by
        simp [feet, phP, blkP, or_comm]
      have ed : dead ⟨none, none, 0, 0, none, none, none, none⟩ (fun _ => []) true ++ dead ⟨none, none, 0, 0, none, none, none, none⟩ (fun _ => []) false = [] := by
        simp [dead, Ph.arr]
      rw [ed] at rest
      have e1 : feet [blkP p (Ph.blk (α := α) ⟨none, none, 0, 0, none, none, none, none⟩)] = [p] := by simp [feet, blkP]
      refine Sep.change (ps := [blkP p _]) (qs := [phP es.length p b' xs' P', blkP a (WBlk es.length w)]) s ?_ ?_ ?_ ?_ ?_
      · intro x hx hn
        rw [e1, List.mem_singleton] at hx
        subst hx
        exact absurd ((ef x).mpr (by simp [hp])) hn
      · intro x hx hn
        rw [ef] at hn
        rw [rest x hn]; simp [without]
      · intro x hx
        rw [e1, List.mem_singleton]
        exact fr x ((ef x).mp hx)
      · intro q hq
        simp only [List.mem_cons, List.not_mem_nil, or_false] at hq
        rcases hq with rfl | rfl
        · exact o'
        · exact m1
      · intro x
        have e2 : feet [phP es.length p b' xs' P', blkP a (WBlk es.length w)] = foot p b' xs' ++ [a] := by simp [feet, phP, blkP]
        rw [e2, List.count_append]
        have := o'.one x
        by_cases hx : x = a
        · subst hx; rw [not_mem_count.mpr na]; simp
        · rw [not_mem_count.mpr (by simpa using hx : x ∉ [a])]; omega

end Polycap.SMem
