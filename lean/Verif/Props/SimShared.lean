import Verif.Props.SimProps

/-!
# The parallel simulation: shared memory
-/
namespace Polycap
open CNum

variable {α : Type} [CNum α]

/-! ## Slots -/

omit [CNum α] in
theorem putRow_same (f : Nat → Option α) {ne : Nat} (j : Nat) (ws : List α) {l : Nat} (hl : l < ne) :
    putRow f ne j ws (j * ne + l) = ws[l]? := by
  unfold putRow
  rw [if_pos ⟨by omega, by rw [Nat.add_mul]; omega⟩]
  congr 1
  omega

omit [CNum α] in
theorem putRow_other (f : Nat → Option α) {ne : Nat} {j x : Nat} (ws : List α) {l : Nat} (hl : l < ne) (h : x ≠ j) :
    putRow f ne j ws (x * ne + l) = f (x * ne + l) := by
  unfold putRow
  rw [if_neg]
  rintro ⟨h1, h2⟩
  apply h
  have e1 : (x * ne + l) / ne = x := by
    rw [Nat.mul_comm, Nat.mul_add_div (by omega), Nat.div_eq_of_lt hl]; omega
  have e2 : j ≤ (x * ne + l) / ne := (Nat.le_div_iff_mul_le (by omega)).2 h1
  have e3 : (x * ne + l) / ne < j + 1 := (Nat.div_lt_iff_lt_mul (by omega)).2 h2
  omega

omit [CNum α] in
theorem asg_disjoint {C : Cfg α} {asg : Nat → List Nat} (hd : Distributes C asg) {t u : Nat} (ht : t < C.T) (hu : u < C.T)
    (hne : t ≠ u) {j : Nat} (hj : j ∈ asg t) : j ∉ asg u := by
  have hn : ((List.range C.T).flatMap asg).Nodup := hd.nodup_iff.2 List.nodup_range
  rw [List.nodup_flatMap] at hn
  have := hn.2
  intro hj'
  rw [List.pairwise_iff_getElem] at this
  rcases Nat.lt_or_gt_of_ne hne with h | h
  · have := this t u (by simpa using ht) (by simpa using hu) h
    simp only [List.getElem_range, Function.onFun] at this
    exact this hj hj'
  · have := this u t (by simpa using hu) (by simpa using ht) h
    simp only [List.getElem_range, Function.onFun] at this
    exact this hj' hj

omit [CNum α] in
theorem asg_nodup {C : Cfg α} {asg : Nat → List Nat} (hd : Distributes C asg) {t : Nat} (ht : t < C.T) : (asg t).Nodup := by
  have hn : ((List.range C.T).flatMap asg).Nodup := hd.nodup_iff.2 List.nodup_range
  rw [List.nodup_flatMap] at hn
  exact hn.1 t (by simpa using ht)

omit [CNum α] in
theorem asg_lt {C : Cfg α} {asg : Nat → List Nat} (hd : Distributes C asg) {t : Nat} (ht : t < C.T) {j : Nat} (hj : j ∈ asg t) : j < C.n := by
  have : j ∈ (List.range C.T).flatMap asg := List.mem_flatMap.2 ⟨t, by simpa using ht, hj⟩
  simpa using hd.mem_iff.1 this

/-- Invariant of the slot arrays. -/
structure SInv (C : Cfg α) (s : St α) : Prop where
  start : ∀ t < C.T, ∀ x ∈ exitsOf C.D (s.thr t).hist, s.sh.start x.1 = some (startRec x.2)
  exit : ∀ t < C.T, ∀ x ∈ recorded C.D (s.thr t), s.sh.exit x.1 = some (exitRec C.D.prof x.2.ph) ∧ s.sh.writes x.1 = 1 ∧
    ∀ l < C.ne, s.sh.exitW (x.1 * C.ne + l) = (wtsOf C.ne x.2)[l]?
  fresh : ∀ j, (∀ t < C.T, j ∉ (recorded C.D (s.thr t)).map Prod.fst) → s.sh.writes j = 0

/-- nothing about slots changed -/
theorem SInv.keep {C : Cfg α} {s s' : St α} (I : SInv C s) (h1 : s'.sh.start = s.sh.start) (h2 : s'.sh.exit = s.sh.exit)
    (h3 : s'.sh.exitW = s.sh.exitW) (h4 : s'.sh.writes = s.sh.writes)
    (h5 : ∀ t, exitsOf C.D (s'.thr t).hist = exitsOf C.D (s.thr t).hist)
    (h6 : ∀ t, recorded C.D (s'.thr t) = recorded C.D (s.thr t)) : SInv C s' := by
  constructor
  · intro t ht x hx; rw [h1]; exact I.start t ht x (by rw [← h5 t]; exact hx)
  · intro t ht x hx; rw [h2, h3, h4]; exact I.exit t ht x (by rw [← h6 t]; exact hx)
  · intro j hj; rw [h4]; exact I.fresh j (fun t ht => by rw [← h6 t]; exact hj t ht)

theorem exitRec_same {p : Profile α} {a a0 : Attempt α} (h : SamePhoton a a0) : exitRec p a.ph = exitRec p a0.ph := by
  rw [h]; rfl

theorem recorded_sub {C : Cfg α} {th : Thr α} {x : Nat × Attempt α} (h : x ∈ recorded C.D th) : x ∈ exitsOf C.D th.hist := by
  unfold recorded at h
  split at h
  · exact List.mem_of_mem_dropLast h
  · exact h

theorem exits_sub {C : Cfg α} {asg : Nat → List Nat} {t : Nat} {s : St α} (L : LInv C asg t s) {x : Nat × Attempt α}
    (h : x ∈ exitsOf C.D (s.thr t).hist) : x.1 ∈ asg t := by
  rw [← L.slots]
  exact List.mem_append_left _ (List.mem_map.2 ⟨x, h, rfl⟩)

theorem slot_inv {C : Cfg α} {asg : Nat → List Nat} (hd : Distributes C asg) {k : Nat} {s : St α} (hr : Reach C asg k s) : SInv C s := by
  induction hr with
  | start =>
    have hn : ∀ t, recorded C.D ((initSt C asg).thr t) = [] := fun t => by
      rw [recorded_of_not_save (nextPc_not_save _)]; rfl
    constructor
    · intro t _ x hx; simp [initSt, exitsOf] at hx
    · intro t _ x hx; rw [hn] at hx; simp at hx
    · intro j _; rfl
  | @step k s u s' hr ht hs I =>
    have m := tstep_move hs
    have L := fun t => local_inv hr t
    have fr : ∀ t, t ≠ u → s'.thr t = s.thr t := fun t h => (m.frame h).1
    have keepT : ∀ (pc' : Pc α) (sh' : Shared α), (s.thr u).pc.isSave = false → pc'.isSave = false →
        sh'.start = s.sh.start → sh'.exit = s.sh.exit → sh'.exitW = s.sh.exitW → sh'.writes = s.sh.writes →
        SInv C (s.set u ({ s.thr u with pc := pc' }, sh')) := by
      intro pc' sh' n1 n2 e1 e2 e3 e4
      refine I.keep e1 e2 e3 e4 ?_ ?_
      · intro t
        by_cases h : t = u
        · subst h; simp
        · rw [set_thr_ne _ h]
      · intro t
        by_cases h : t = u
        · subst h; rw [set_thr, recorded_of_not_save n1, recorded_of_not_save (by exact n2)]
        · rw [set_thr_ne _ h]
    cases m with
    | retry j rest a pos e i hpc ha hc hc' he hi =>
      have n1 : (s.thr u).pc.isSave = false := by rw [hpc]; rfl
      have hx : exitsOf C.D ((s.thr u).hist ++ [(j, a)]) = exitsOf C.D (s.thr u).hist := by
        rw [exitsOf_append, if_neg hc, List.append_nil]
      refine I.keep rfl rfl rfl rfl ?_ ?_
      · intro t
        by_cases h : t = u
        · subst h; simp [hx]
        · rw [set_thr_ne _ h]
      · intro t
        by_cases h : t = u
        · subst h; rw [set_thr, recorded_of_not_save n1, recorded_of_not_save (by rfl)]; exact hx
        · rw [set_thr_ne _ h]
    | exit j rest a pos a' e i hpc ha hc hj ha' he hi =>
      have n1 : (s.thr u).pc.isSave = false := by rw [hpc]; rfl
      have hx : exitsOf C.D ((s.thr u).hist ++ [(j, a)]) = exitsOf C.D (s.thr u).hist ++ [(j, a)] := by
        rw [exitsOf_append, if_pos hc]
      have hju : j ∈ asg u := by
        rw [← (L u).slots, hpc]; simp [pending]
      have hjn : ∀ x ∈ exitsOf C.D (s.thr u).hist, x.1 ≠ j := by
        intro x hx hxj
        have hn := asg_nodup hd ht
        rw [← (L u).slots, hpc, List.nodup_append] at hn
        exact hn.2.2 x.1 (List.mem_map.2 ⟨x, hx, rfl⟩) j (by simp [pending]) hxj
      have hrec : ∀ t, recorded C.D ((s.set u ({ s.thr u with pos := pos, hist := (s.thr u).hist ++ [(j, a)], extT := e, intT := i, pc := .save j a' rest },
            { countCode u a s.sh with iexit := upd1 s.sh.iexit u (s.sh.iexit u + 1), start := upd1 s.sh.start j (some (startRec a)) })).thr t) =
            recorded C.D (s.thr t) := by
        intro t
        by_cases h : t = u
        · subst h; rw [set_thr, recorded_of_not_save n1]; simp [recorded, hx]
        · rw [set_thr_ne _ h]
      constructor
      · intro t ht' x hxm
        simp only [set_sh]
        by_cases h : t = u
        · subst h
          simp only [set_thr, hx] at hxm
          rcases List.mem_append.1 hxm with hxm | hxm
          · have := hjn x hxm
            simp only [upd1, this, if_false]
            exact I.start t ht x hxm
          · simp only [List.mem_singleton] at hxm
            subst hxm
            simp [upd1]
        · rw [set_thr_ne _ h] at hxm
          have hne : x.1 ≠ j := by
            intro hxj
            exact asg_disjoint hd ht' ht h (exits_sub (L t) hxm) (by rw [hxj]; exact hju)
          simp only [upd1, hne, if_false]
          exact I.start t ht' x hxm
      · intro t ht' x hxm
        rw [hrec] at hxm
        exact I.exit t ht' x hxm
      · intro j' hj'
        exact I.fresh j' (fun t ht' => by rw [← hrec t]; exact hj' t ht')
    | save j rest a prog ws e i hpc hw hl hj he hi =>
      obtain ⟨l, a0, hex, hsame⟩ := (L u).held _ _ _ hpc
      have hw0 : wtsOf C.ne a0 = ws.take C.ne := by
        have : a.wts = a0.wts := by rw [hsame]
        unfold wtsOf; rw [← this, hw]
      have hrec : recorded C.D (s.thr u) = l := by simp [recorded, hpc, hex]
      have hju : j ∈ asg u := exits_sub (L u) (x := (j, a0)) (by rw [hex]; simp)
      have hjl : ∀ x ∈ l, x.1 ≠ j := by
        intro x hx hxj
        have hn := asg_nodup hd ht
        rw [← (L u).slots, hex, List.nodup_append] at hn
        have hn := hn.1
        rw [List.map_append, List.nodup_append] at hn
        exact hn.2.2 x.1 (List.mem_map.2 ⟨x, hx, rfl⟩) j (by simp) hxj
      have hjr : ∀ t < C.T, ∀ x ∈ recorded C.D (s.thr t), x.1 ≠ j := by
        intro t ht' x hx hxj
        by_cases h : t = u
        · subst h; rw [hrec] at hx; exact hjl x hx hxj
        · exact asg_disjoint hd ht' ht h (exits_sub (L t) (recorded_sub hx)) (by rw [hxj]; exact hju)
      have hw1 : s.sh.writes j = 0 := I.fresh j (fun t ht' hm => by
        obtain ⟨x, hx, hxj⟩ := List.mem_map.1 hm
        exact hjr t ht' x hx hxj)
      have hnew : ∀ t x, x ∈ recorded C.D ((s.set u
          ({ s.thr u with weights := addW (s.thr u).weights (ws.take C.ne), prog := prog, pc := .refl a.ph.i_refl rest, ext := e, int := i },
          { s.sh with exitW := putRow s.sh.exitW C.ne j (ws.take C.ne), exit := upd1 s.sh.exit j (some (exitRec C.D.prof a.ph)), writes := upd1 s.sh.writes j (s.sh.writes j + 1) })).thr t) ↔ x ∈ recorded C.D (s.thr t) ∨ (t = u ∧ x = (j, a0)) := by
        intro t x
        by_cases h : t = u
        · subst h
          rw [set_thr, recorded_of_not_save (by rfl), hrec, hex]
          simp
        · rw [set_thr_ne _ h]; simp [h]
      constructor
      · intro t ht' x hx
        simp only [set_sh]
        refine I.start t ht' x ?_
        by_cases h : t = u
        · subst h; simpa using hx
        · rw [set_thr_ne _ h] at hx; exact hx
      · intro t ht' x hx
        simp only [set_sh]
        rcases (hnew t x).1 hx with hx | ⟨rfl, rfl⟩
        · have hne := hjr t ht' x hx
          obtain ⟨i1, i2, i3⟩ := I.exit t ht' x hx
          refine ⟨by simp only [upd1, hne, if_false]; exact i1, by simp only [upd1, hne, if_false]; exact i2, ?_⟩
          intro q hq
          rw [putRow_other _ _ hq hne]
          exact i3 q hq
        · refine ⟨by simp only [upd1, if_true]; rw [exitRec_same hsame], by simp [upd1, hw1], ?_⟩
          intro q hq
          simp only
          rw [putRow_same _ _ _ hq, hw0]
      · intro j' hj'
        simp only [set_sh]
        have hne : j' ≠ j := by
          rintro rfl
          exact hj' u ht (List.mem_map.2 ⟨(j', a0), (hnew u _).2 (Or.inr ⟨rfl, rfl⟩), rfl⟩)
        simp only [upd1, hne, if_false]
        refine I.fresh j' (fun t ht' hm => ?_)
        obtain ⟨x, hx, hxj⟩ := List.mem_map.1 hm
        exact hj' t ht' (List.mem_map.2 ⟨x, (hnew t x).2 (Or.inl hx), hxj⟩)
    | refl n rest hpc => exact keepT _ _ (by rw [hpc]; rfl) (nextPc_not_save _) rfl rfl rfl rfl
    | forEnd hpc hb => exact keepT _ _ (by rw [hpc]; rfl) rfl rfl rfl rfl rfl
    | sumLeak hpc hl => exact keepT _ _ (by rw [hpc]; rfl) rfl rfl rfl rfl rfl
    | sum hpc hl => exact keepT _ _ (by rw [hpc]; rfl) rfl rfl rfl rfl rfl
    | barrier hpc hb => exact keepT _ _ (by rw [hpc]; rfl) rfl rfl rfl rfl rfl
    | singleFirst hpc ha => exact keepT _ _ (by rw [hpc]; rfl) rfl rfl rfl rfl rfl
    | singleOther x hpc ha => exact keepT _ _ (by rw [hpc]; rfl) rfl rfl rfl rfl rfl
    | singleEnd hpc hb => exact keepT _ _ (by rw [hpc]; rfl) rfl rfl rfl rfl rfl
    | copy sh1 sh2 hpc h1 h2 =>
      have hb := copy_base h1 h2
      exact keepT _ _ (by rw [hpc]; rfl) rfl hb.start hb.exit hb.exitW hb.writes

/-! ## Sums, barriers, leak arrays -/

/-- The first `N` entries of a leak array and its flat weight array hold `ls`, the rest is unwritten. -/
structure Written (ne N : Nat) (L : Nat → Option (LeakRec α)) (W : Nat → Option α) (rec : Leak α → LeakRec α) (ls : List (Leak α)) : Prop where
  len : N = ls.length
  recs : ∀ i, L i = ls[i]?.map rec
  rows : ∀ i l, (h : i < ls.length) → l < ne → W (i * ne + l) = (ls[i].weight.take ne)[l]?
  long : ∀ x ∈ ls, ne ≤ x.weight.length

omit [CNum α] in
theorem Written.push {ne N : Nat} {L : Nat → Option (LeakRec α)} {W : Nat → Option α} {rec : Leak α → LeakRec α} {ls : List (Leak α)}
    (w : Written ne N L W rec ls) (x : Leak α) (hx : ne ≤ x.weight.length) :
    Written ne (N + 1) (upd1 L N (some (rec x))) (putRow W ne N (x.weight.take ne)) rec (ls ++ [x]) := by
  obtain ⟨h1, h2, h3, h4⟩ := w
  subst h1
  constructor
  · simp
  · intro i
    unfold upd1
    by_cases hi : i = ls.length
    · subst hi; simp
    · rw [if_neg hi, h2 i]
      rcases Nat.lt_or_gt_of_ne hi with h | h
      · rw [List.getElem?_append_left h]
      · rw [List.getElem?_eq_none (by omega), List.getElem?_eq_none (by simp; omega)]
  · intro i l hi hl
    by_cases hi' : i = ls.length
    · subst hi'
      rw [putRow_same _ _ _ hl]; simp
    · have : i < ls.length := by simp at hi; omega
      rw [putRow_other _ _ hl hi', h3 i l this hl, List.getElem_append_left this]
  · intro y hy
    rcases List.mem_append.1 hy with hy | hy
    · exact h4 y hy
    · rw [List.mem_singleton.1 hy]; exact hx

omit [CNum α] in
theorem putAll_ext {ne : Nat} : ∀ (ls : List (Leak α)) (a b : Shared α) (l0 : List (Leak α)), putAll (putExt ne) a ls = .ok b →
    Written ne a.extN a.extL a.extW extRec l0 →
    Written ne b.extN b.extL b.extW extRec (l0 ++ ls) ∧ b.intN = a.intN ∧ b.intL = a.intL ∧ b.intW = a.intW
  | [], a, b, l0, h, w => by
    injection h with h; subst h
    exact ⟨by simpa using w, rfl, rfl, rfl⟩
  | x :: ls, a, b, l0, h, w => by
    unfold putAll at h
    rw [Out.bind_eq_ok] at h
    obtain ⟨c, hc, h⟩ := h
    unfold putExt at hc
    split at hc
    · cases hc
    · split_ifs at hc with hlen
      injection hc with hc
      subst hc
      obtain ⟨r1, r2, r3, r4⟩ := putAll_ext ls _ b (l0 ++ [x]) h (w.push x hlen.2)
      exact ⟨by simpa using r1, r2, r3, r4⟩

omit [CNum α] in
theorem putAll_int {ne : Nat} : ∀ (ls : List (Leak α)) (a b : Shared α) (l0 : List (Leak α)), putAll (putInt ne) a ls = .ok b →
    Written ne a.intN a.intL a.intW intRec l0 →
    Written ne b.intN b.intL b.intW intRec (l0 ++ ls) ∧ b.extN = a.extN ∧ b.extL = a.extL ∧ b.extW = a.extW
  | [], a, b, l0, h, w => by
    injection h with h; subst h
    exact ⟨by simpa using w, rfl, rfl, rfl⟩
  | x :: ls, a, b, l0, h, w => by
    unfold putAll at h
    rw [Out.bind_eq_ok] at h
    obtain ⟨c, hc, h⟩ := h
    unfold putInt at hc
    split at hc
    · cases hc
    · split_ifs at hc with hlen
      injection hc with hc
      subst hc
      obtain ⟨r1, r2, r3, r4⟩ := putAll_int ls _ b (l0 ++ [x]) h (w.push x hlen.2)
      exact ⟨by simpa using r1, r2, r3, r4⟩

/-- synchronisation point a thread has reached -/
def rk (s : St α) (t : Nat) : Nat := (s.thr t).pc.rank

/-- The threads that have added their results, in the order they did. -/
structure Summed (C : Cfg α) (s : St α) (ord : List Nat) : Prop where
  nodup : ord.Nodup
  mem : ∀ t, t ∈ ord ↔ t < C.T ∧ 3 ≤ rk s t
  sumW : s.sh.sumW = (ord.map (fun t => (s.thr t).weights)).foldl addW (List.replicate C.ne (lit 0))
  iExt : s.sh.iExt = if C.leak then (ord.map (fun t => (s.thr t).ext.items.length)).sum else 0
  iInt : s.sh.iInt = if C.leak then (ord.map (fun t => (s.thr t).int.items.length)).sum else 0

/-- The threads that have copied their leaks, in the order they did. -/
structure Copied (C : Cfg α) (s : St α) (ord : List Nat) : Prop where
  nodup : ord.Nodup
  mem : ∀ t, t ∈ ord ↔ t < C.T ∧ rk s t = 7 ∧ C.leak = true
  ext : Written C.ne s.sh.extN s.sh.extL s.sh.extW extRec (ord.flatMap (fun t => (s.thr t).ext.items))
  int : Written C.ne s.sh.intN s.sh.intL s.sh.intW intRec (ord.flatMap (fun t => (s.thr t).int.items))

structure GInv (C : Cfg α) (s : St α) : Prop where
  b1 : ∀ t < C.T, 2 ≤ rk s t → ∀ u < C.T, 1 ≤ rk s u
  b3 : C.leak = true → ∀ t < C.T, 4 ≤ rk s t → ∀ u < C.T, 3 ≤ rk s u
  b5 : C.leak = true → ∀ t < C.T, 6 ≤ rk s t → ∀ u < C.T, 5 ≤ rk s u
  nl : ∀ t < C.T, 3 ≤ rk s t → rk s t ≤ 6 → C.leak = true
  al1 : C.leak = true → ∀ t < C.T, 5 ≤ rk s t → s.sh.alloc ≠ none
  al2 : ∀ a, s.sh.alloc = some a → C.leak = true ∧ a = (s.sh.iExt, s.sh.iInt) ∧ ∀ u < C.T, 3 ≤ rk s u
  sum : ∃ ord, Summed C s ord
  cp : ∃ ord, Copied C s ord

omit [CNum α] in
theorem rk_set (s : St α) (t : Nat) (x : Thr α × Shared α) (u : Nat) : rk (s.set t x) u = if u = t then x.1.pc.rank else rk s u := by
  unfold rk
  by_cases h : u = t
  · subst h; simp
  · rw [set_thr_ne _ h, if_neg h]

/-- the part of the shared state used at the end -/
structure SameTail (a b : Shared α) : Prop where
  sumW : b.sumW = a.sumW
  iExt : b.iExt = a.iExt
  iInt : b.iInt = a.iInt
  alloc : b.alloc = a.alloc
  extN : b.extN = a.extN
  intN : b.intN = a.intN
  extL : b.extL = a.extL
  extW : b.extW = a.extW
  intL : b.intL = a.intL
  intW : b.intW = a.intW

/-- a step that keeps sums and leak arrays, and either happens before the end of the `omp for` or does not touch results -/
theorem Summed.keep {C : Cfg α} {s : St α} {ord : List Nat} (S : Summed C s ord) {t : Nat} {th : Thr α} {sh : Shared α}
    (st : SameTail s.sh sh) (hr : 3 ≤ rk s t ↔ 3 ≤ th.pc.rank)
    (hd : 3 ≤ rk s t → th.weights = (s.thr t).weights ∧ th.ext = (s.thr t).ext ∧ th.int = (s.thr t).int) :
    Summed C (s.set t (th, sh)) ord := by
  have key : ∀ u ∈ ord, ((s.set t (th, sh)).thr u).weights = (s.thr u).weights ∧ ((s.set t (th, sh)).thr u).ext = (s.thr u).ext ∧
      ((s.set t (th, sh)).thr u).int = (s.thr u).int := by
    intro u hu
    by_cases h : u = t
    · subst h; rw [set_thr]; exact hd ((S.mem u).1 hu).2
    · rw [set_thr_ne _ h]; exact ⟨rfl, rfl, rfl⟩
  constructor
  · exact S.nodup
  · intro u
    rw [S.mem, rk_set]
    by_cases h : u = t
    · subst h; simp [hr]
    · simp [h]
  · rw [List.map_congr_left (fun u hu => (key u hu).1)]
    simp only [set_sh]; rw [st.sumW]; exact S.sumW
  · rw [List.map_congr_left (g := fun t => (s.thr t).ext.items.length) (fun u hu => by rw [(key u hu).2.1])]
    simp only [set_sh]; rw [st.iExt]; exact S.iExt
  · rw [List.map_congr_left (g := fun t => (s.thr t).int.items.length) (fun u hu => by rw [(key u hu).2.2])]
    simp only [set_sh]; rw [st.iInt]; exact S.iInt

omit [CNum α] in
theorem Copied.keep {C : Cfg α} {s : St α} {ord : List Nat} (S : Copied C s ord) {t : Nat} {th : Thr α} {sh : Shared α}
    (st : sh.extN = s.sh.extN ∧ sh.intN = s.sh.intN ∧ sh.extL = s.sh.extL ∧ sh.extW = s.sh.extW ∧ sh.intL = s.sh.intL ∧ sh.intW = s.sh.intW)
    (hr : rk s t ≠ 7) (hr' : th.pc.rank = 7 → C.leak = false) : Copied C (s.set t (th, sh)) ord := by
  have hne : ∀ u ∈ ord, u ≠ t := by
    rintro u hu rfl
    exact hr ((S.mem u).1 hu).2.1
  have key : ∀ u ∈ ord, (s.set t (th, sh)).thr u = s.thr u := fun u hu => set_thr_ne _ (hne u hu) _
  obtain ⟨s1, s2, s3, s4, s5, s6⟩ := st
  constructor
  · exact S.nodup
  · intro u
    rw [S.mem, rk_set]
    by_cases h : u = t
    · subst h
      simp only [hr, false_and, and_false, if_true, false_iff, not_and]
      intro _ h7
      rw [hr' h7]; simp
    · simp [h]
  · rw [List.flatMap_congr (g := fun t => (s.thr t).ext.items) (fun u hu => by rw [key u hu])]
    simp only [set_sh, s1, s3, s4]; exact S.ext
  · rw [List.flatMap_congr (g := fun t => (s.thr t).int.items) (fun u hu => by rw [key u hu])]
    simp only [set_sh, s2, s5, s6]; exact S.int

/-- steps before the end of the `omp for` -/
theorem GInv.low {C : Cfg α} {s : St α} (I : GInv C s) {t : Nat} (ht : t < C.T) {th : Thr α} {sh : Shared α} (st : SameTail s.sh sh)
    (h0 : rk s t = 0) (h1 : th.pc.rank ≤ 1) : GInv C (s.set t (th, sh)) := by
  have hlow : ∀ v < C.T, rk s v ≤ 1 := by
    intro v hv
    by_contra hc
    have := I.b1 v hv (by omega) t ht
    omega
  have hlow' : ∀ v < C.T, rk (s.set t (th, sh)) v ≤ 1 := by
    intro v hv
    rw [rk_set]
    split_ifs
    · exact h1
    · exact hlow v hv
  constructor
  · intro v hv h; have := hlow' v hv; omega
  · intro _ v hv h; have := hlow' v hv; omega
  · intro _ v hv h; have := hlow' v hv; omega
  · intro v hv h; have := hlow' v hv; omega
  · intro _ v hv h; have := hlow' v hv; omega
  · intro a ha
    simp only [set_sh] at ha
    rw [st.alloc] at ha
    have := (I.al2 a ha).2.2 t ht
    omega
  · obtain ⟨ord, S⟩ := I.sum
    exact ⟨ord, S.keep st (by omega) (by omega)⟩
  · obtain ⟨ord, S⟩ := I.cp
    exact ⟨ord, S.keep ⟨st.extN, st.intN, st.extL, st.extW, st.intL, st.intW⟩ (by omega) (by omega)⟩

omit [CNum α] in
theorem SameTail.refl (a : Shared α) : SameTail a a := ⟨rfl, rfl, rfl, rfl, rfl, rfl, rfl, rfl, rfl, rfl⟩

theorem global_inv {C : Cfg α} {asg : Nat → List Nat} {k : Nat} {s : St α} (hr : Reach C asg k s) : GInv C s := by
  induction hr with
  | start =>
    have hlow : ∀ t, rk (initSt C asg) t ≤ 1 := by
      intro t
      show (nextPc (α := α) (asg t)).rank ≤ 1
      cases asg t <;> simp [nextPc, Pc.rank]
    constructor
    · intro t _ h; have := hlow t; omega
    · intro _ t _ h; have := hlow t; omega
    · intro _ t _ h; have := hlow t; omega
    · intro t _ h; have := hlow t; omega
    · intro _ t _ h; have := hlow t; omega
    · intro a ha; simp [initSt] at ha
    · refine ⟨[], List.nodup_nil, fun t => ?_, rfl, by simp [initSt], by simp [initSt]⟩
      have := hlow t
      simp only [List.not_mem_nil, false_iff, not_and]; omega
    · refine ⟨[], List.nodup_nil, fun t => ?_, ⟨rfl, fun i => rfl, by simp, by simp⟩, ⟨rfl, fun i => rfl, by simp, by simp⟩⟩
      have := hlow t
      simp only [List.not_mem_nil, false_iff, not_and]; omega
  | @step k s t s' hr ht hs I =>
    have m := tstep_move hs
    cases m with
    | retry j rest a pos e i hpc ha hc hc' he hi =>
      exact I.low ht ⟨rfl, rfl, rfl, rfl, rfl, rfl, rfl, rfl, rfl, rfl⟩ (by simp [rk, hpc, Pc.rank]) (by simp [Pc.rank])
    | exit j rest a pos a' e i hpc ha hc hj ha' he hi =>
      exact I.low ht ⟨rfl, rfl, rfl, rfl, rfl, rfl, rfl, rfl, rfl, rfl⟩ (by simp [rk, hpc, Pc.rank]) (by simp [Pc.rank])
    | save j rest a prog ws e i hpc hw hl hj he hi =>
      exact I.low ht ⟨rfl, rfl, rfl, rfl, rfl, rfl, rfl, rfl, rfl, rfl⟩ (by simp [rk, hpc, Pc.rank]) (by simp [Pc.rank])
    | refl n rest hpc =>
      exact I.low ht ⟨rfl, rfl, rfl, rfl, rfl, rfl, rfl, rfl, rfl, rfl⟩ (by simp [rk, hpc, Pc.rank])
        (by cases rest <;> simp [nextPc, Pc.rank])
    | forEnd hpc hb =>
      have h1 : rk s t = 1 := by simp [rk, hpc, Pc.rank]
      have hb' : ∀ u < C.T, 1 ≤ rk s u := hb
      have rs : ∀ u, rk (s.set t ({ s.thr t with pc := .sum }, s.sh)) u = if u = t then 2 else rk s u := rk_set s t _
      constructor
      · intro v _ _ u hu
        rw [rs]; split_ifs
        · omega
        · exact hb' u hu
      · intro hl v hv h u hu
        rw [rs] at h ⊢
        split_ifs at h with hvt
        · omega
        have := I.b3 hl v hv h
        split_ifs with hut
        · have := this t ht; omega
        · exact this u hu
      · intro hl v hv h u hu
        rw [rs] at h ⊢
        split_ifs at h with hvt
        · omega
        have := I.b5 hl v hv h
        split_ifs with hut
        · have := this t ht; omega
        · exact this u hu
      · intro v hv h h'
        rw [rs] at h h'
        split_ifs at h h'
        · omega
        · exact I.nl v hv h h'
      · intro hl v hv h
        rw [rs] at h
        split_ifs at h
        · omega
        · exact I.al1 hl v hv h
      · intro a ha
        have := (I.al2 a ha).2.2 t ht
        omega
      · obtain ⟨ord, S⟩ := I.sum
        exact ⟨ord, S.keep (.refl _) (by simp [h1, Pc.rank]) (fun _ => ⟨rfl, rfl, rfl⟩)⟩
      · obtain ⟨ord, S⟩ := I.cp
        exact ⟨ord, S.keep ⟨rfl, rfl, rfl, rfl, rfl, rfl⟩ (by omega) (by simp [Pc.rank])⟩
    | sumLeak hpc hl =>
      have h1 : rk s t = 2 := by simp [rk, hpc, Pc.rank]
      have hb' := I.b1 t ht (by omega)
      have hna : s.sh.alloc = none := by
        by_contra hc
        obtain ⟨a, ha⟩ := Option.ne_none_iff_exists'.1 hc
        have := (I.al2 a ha).2.2 t ht
        omega
      have hr4 : ∀ v < C.T, rk s v ≤ 3 := by
        intro v hv
        by_contra hc
        have := I.b3 hl v hv (by omega) t ht
        omega
      generalize hs' : s.set t _ = s'
      have rs : ∀ u, rk s' u = if u = t then 3 else rk s u := by subst hs'; exact rk_set s t _
      constructor
      · intro v _ _ u hu
        rw [rs]; split_ifs
        · omega
        · exact hb' u hu
      · intro _ v hv h u hu
        rw [rs] at h
        have := hr4 v hv
        split_ifs at h <;> omega
      · intro _ v hv h u hu
        rw [rs] at h
        have := hr4 v hv
        split_ifs at h <;> omega
      · intro _ _ _ _; exact hl
      · intro _ v hv h
        rw [rs] at h
        have := hr4 v hv
        split_ifs at h <;> omega
      · intro a ha
        subst hs'
        simp only [set_sh] at ha
        rw [hna] at ha; cases ha
      · obtain ⟨ord, S⟩ := I.sum
        have hto : t ∉ ord := fun h => by have := ((S.mem t).1 h).2; omega
        have key : ∀ u ∈ ord, s'.thr u = s.thr u := fun u hu => by
          have hne : u ≠ t := by rintro rfl; exact hto hu
          subst hs'; exact set_thr_ne _ hne _
        have keyt : s'.thr t = { s.thr t with pc := .barrier } := by subst hs'; simp
        refine ⟨ord ++ [t], ?_, ?_, ?_, ?_, ?_⟩
        · rw [List.nodup_append]
          refine ⟨S.nodup, by simp, ?_⟩
          intro a ha b hb
          simp only [List.mem_singleton] at hb
          subst hb
          rintro rfl; exact hto ha
        · intro u
          rw [List.mem_append, S.mem, rs, List.mem_singleton]
          by_cases h : u = t
          · subst h; simp [ht]
          · simp [h]
        · rw [List.map_append, List.foldl_append, List.map_congr_left (g := fun t => (s.thr t).weights) (fun u hu => by rw [key u hu]), ← S.sumW]
          subst hs'
          simp
        · rw [List.map_append, List.sum_append, List.map_congr_left (g := fun t => (s.thr t).ext.items.length) (fun u hu => by rw [key u hu])]
          have := S.iExt
          rw [if_pos hl] at this ⊢
          rw [← this]
          subst hs'
          simp
        · rw [List.map_append, List.sum_append, List.map_congr_left (g := fun t => (s.thr t).int.items.length) (fun u hu => by rw [key u hu])]
          have := S.iInt
          rw [if_pos hl] at this ⊢
          rw [← this]
          subst hs'
          simp
      · obtain ⟨ord, S⟩ := I.cp
        subst hs'
        exact ⟨ord, S.keep ⟨rfl, rfl, rfl, rfl, rfl, rfl⟩ (by omega) (by simp [Pc.rank])⟩
    | sum hpc hl =>
      have h1 : rk s t = 2 := by simp [rk, hpc, Pc.rank]
      have hb' := I.b1 t ht (by omega)
      have hlf : ¬ C.leak = true := by simp [hl]
      have hna : s.sh.alloc = none := by
        by_contra hc
        obtain ⟨a, ha⟩ := Option.ne_none_iff_exists'.1 hc
        exact hlf (I.al2 a ha).1
      generalize hs' : s.set t _ = s'
      have rs : ∀ u, rk s' u = if u = t then 7 else rk s u := by subst hs'; exact rk_set s t _
      constructor
      · intro v _ _ u hu
        rw [rs]; split_ifs
        · omega
        · exact hb' u hu
      · intro h; exact absurd h hlf
      · intro h; exact absurd h hlf
      · intro v hv h h'
        rw [rs] at h h'
        split_ifs at h h' with hv
        · omega
        · exact I.nl v ‹_› h h'
      · intro h; exact absurd h hlf
      · intro a ha
        subst hs'
        simp only [set_sh] at ha
        rw [hna] at ha; cases ha
      · obtain ⟨ord, S⟩ := I.sum
        have hto : t ∉ ord := fun h => by have := ((S.mem t).1 h).2; omega
        have key : ∀ u ∈ ord, s'.thr u = s.thr u := fun u hu => by
          have hne : u ≠ t := by rintro rfl; exact hto hu
          subst hs'; exact set_thr_ne _ hne _
        refine ⟨ord ++ [t], ?_, ?_, ?_, ?_, ?_⟩
        · rw [List.nodup_append]
          refine ⟨S.nodup, by simp, ?_⟩
          intro a ha b hb
          simp only [List.mem_singleton] at hb
          subst hb
          rintro rfl; exact hto ha
        · intro u
          rw [List.mem_append, S.mem, rs, List.mem_singleton]
          by_cases h : u = t
          · subst h; simp [ht]
          · simp [h]
        · rw [List.map_append, List.foldl_append, List.map_congr_left (g := fun t => (s.thr t).weights) (fun u hu => by rw [key u hu]), ← S.sumW]
          subst hs'
          simp
        · have := S.iExt
          rw [if_neg hlf] at this ⊢
          subst hs'; exact this
        · have := S.iInt
          rw [if_neg hlf] at this ⊢
          subst hs'; exact this
      · obtain ⟨ord, S⟩ := I.cp
        subst hs'
        exact ⟨ord, S.keep ⟨rfl, rfl, rfl, rfl, rfl, rfl⟩ (by omega) (fun _ => hl)⟩
    | barrier hpc hb =>
      have h1 : rk s t = 3 := by simp [rk, hpc, Pc.rank]
      have hl := I.nl t ht (by omega) (by omega)
      have hb' : ∀ u < C.T, 3 ≤ rk s u := hb
      have rs : ∀ u, rk (s.set t ({ s.thr t with pc := .single }, s.sh)) u = if u = t then 4 else rk s u := rk_set s t _
      constructor
      · intro v _ _ u hu
        rw [rs]; split_ifs
        · omega
        · have := hb' u hu; omega
      · intro _ v _ _ u hu
        rw [rs]; split_ifs
        · omega
        · exact hb' u hu
      · intro hl v hv h u hu
        rw [rs] at h ⊢
        split_ifs at h with hvt
        · omega
        have := I.b5 hl v hv h
        split_ifs with hut
        · have := this t ht; omega
        · exact this u hu
      · intro _ _ _ _; exact hl
      · intro hl v hv h
        rw [rs] at h
        split_ifs at h
        · omega
        · exact I.al1 hl v hv h
      · intro a ha
        obtain ⟨a1, a2, a3⟩ := I.al2 a ha
        refine ⟨a1, a2, fun u hu => ?_⟩
        rw [rs]; split_ifs
        · omega
        · exact a3 u hu
      · obtain ⟨ord, S⟩ := I.sum
        exact ⟨ord, S.keep (.refl _) (by simp [h1, Pc.rank]) (fun _ => ⟨rfl, rfl, rfl⟩)⟩
      · obtain ⟨ord, S⟩ := I.cp
        exact ⟨ord, S.keep ⟨rfl, rfl, rfl, rfl, rfl, rfl⟩ (by omega) (by simp [Pc.rank])⟩
    | singleFirst hpc ha =>
      have h1 : rk s t = 4 := by simp [rk, hpc, Pc.rank]
      have hl := I.nl t ht (by omega) (by omega)
      have hb' := I.b3 hl t ht (by omega)
      have hr4 : ∀ v < C.T, rk s v ≤ 4 := by
        intro v hv
        by_contra hc
        exact I.al1 hl v hv (by omega) ha
      generalize hs' : s.set t _ = s'
      have rs : ∀ u, rk s' u = if u = t then 5 else rk s u := by subst hs'; exact rk_set s t _
      constructor
      · intro v _ _ u hu
        rw [rs]; split_ifs
        · omega
        · have := hb' u hu; omega
      · intro _ v _ _ u hu
        rw [rs]; split_ifs
        · omega
        · exact hb' u hu
      · intro _ v hv h u hu
        rw [rs] at h
        have := hr4 v hv
        split_ifs at h <;> omega
      · intro _ _ _ _; exact hl
      · intro _ v hv h
        subst hs'
        simp
      · intro a ha'
        subst hs'
        simp only [set_sh, Option.some.injEq] at ha'
        refine ⟨hl, ha'.symm, fun u hu => ?_⟩
        rw [rs]; split_ifs
        · omega
        · exact hb' u hu
      · obtain ⟨ord, S⟩ := I.sum
        subst hs'
        have key : ∀ u, ((s.set t ({ s.thr t with pc := .singleEnd }, { s.sh with alloc := some (s.sh.iExt, s.sh.iInt), extN := 0, intN := 0 })).thr u).weights = (s.thr u).weights ∧
           ((s.set t ({ s.thr t with pc := .singleEnd }, { s.sh with alloc := some (s.sh.iExt, s.sh.iInt), extN := 0, intN := 0 })).thr u).ext = (s.thr u).ext ∧
           ((s.set t ({ s.thr t with pc := .singleEnd }, { s.sh with alloc := some (s.sh.iExt, s.sh.iInt), extN := 0, intN := 0 })).thr u).int = (s.thr u).int := by
          intro u
          by_cases h : u = t
          · subst h; rw [set_thr]; exact ⟨rfl, rfl, rfl⟩
          · rw [set_thr_ne _ h]; exact ⟨rfl, rfl, rfl⟩
        refine ⟨ord, S.nodup, ?_, ?_, ?_, ?_⟩
        · intro u
          rw [S.mem, rs]
          by_cases h : u = t
          · subst h; simp [h1]
          · simp [h]
        · simp only [key]; exact S.sumW
        · simp only [key]; exact S.iExt
        · simp only [key]; exact S.iInt
      · obtain ⟨ord, S⟩ := I.cp
        have h0 : ord = [] := by
          rw [List.eq_nil_iff_forall_not_mem]
          intro u hu
          have h7 := (S.mem u).1 hu
          have := hr4 u h7.1
          omega
        subst h0
        have e1 := S.ext.len
        have e2 := S.int.len
        simp only [List.flatMap_nil, List.length_nil] at e1 e2
        subst hs'
        exact ⟨[], S.keep ⟨e1.symm, e2.symm, rfl, rfl, rfl, rfl⟩ (by omega) (by simp [Pc.rank])⟩
    | singleOther x hpc ha =>
      have h1 : rk s t = 4 := by simp [rk, hpc, Pc.rank]
      have hl := I.nl t ht (by omega) (by omega)
      have hb' := I.b3 hl t ht (by omega)
      have rs : ∀ u, rk (s.set t ({ s.thr t with pc := .singleEnd }, s.sh)) u = if u = t then 5 else rk s u := rk_set s t _
      constructor
      · intro v _ _ u hu
        rw [rs]; split_ifs
        · omega
        · have := hb' u hu; omega
      · intro _ v _ _ u hu
        rw [rs]; split_ifs
        · omega
        · exact hb' u hu
      · intro hl v hv h u hu
        rw [rs] at h ⊢
        split_ifs at h with hvt
        · omega
        · have := I.b5 hl v hv h
          split_ifs with hut
          · omega
          · exact this u hu
      · intro _ _ _ _; exact hl
      · intro hl v hv h
        simp [ha]
      · intro a ha
        obtain ⟨a1, a2, a3⟩ := I.al2 a ha
        refine ⟨a1, a2, fun u hu => ?_⟩
        rw [rs]; split_ifs
        · omega
        · exact a3 u hu
      · obtain ⟨ord, S⟩ := I.sum
        exact ⟨ord, S.keep (.refl _) (by simp [h1, Pc.rank]) (fun _ => ⟨rfl, rfl, rfl⟩)⟩
      · obtain ⟨ord, S⟩ := I.cp
        exact ⟨ord, S.keep ⟨rfl, rfl, rfl, rfl, rfl, rfl⟩ (by omega) (by simp [Pc.rank])⟩
    | singleEnd hpc hb =>
      have h1 : rk s t = 5 := by simp [rk, hpc, Pc.rank]
      have hl := I.nl t ht (by omega) (by omega)
      have hb' : ∀ u < C.T, 5 ≤ rk s u := hb
      have rs : ∀ u, rk (s.set t ({ s.thr t with pc := .copy }, s.sh)) u = if u = t then 6 else rk s u := rk_set s t _
      constructor
      · intro v _ _ u hu
        rw [rs]; split_ifs
        · omega
        · have := hb' u hu; omega
      · intro _ v _ _ u hu
        rw [rs]; split_ifs
        · omega
        · have := hb' u hu; omega
      · intro _ v _ _ u hu
        rw [rs]; split_ifs
        · omega
        · exact hb' u hu
      · intro _ _ _ _; exact hl
      · intro hl v hv h
        exact I.al1 hl v hv (hb' v hv)
      · intro a ha
        obtain ⟨a1, a2, a3⟩ := I.al2 a ha
        refine ⟨a1, a2, fun u hu => ?_⟩
        rw [rs]; split_ifs
        · omega
        · exact a3 u hu
      · obtain ⟨ord, S⟩ := I.sum
        exact ⟨ord, S.keep (.refl _) (by simp [h1, Pc.rank]) (fun _ => ⟨rfl, rfl, rfl⟩)⟩
      · obtain ⟨ord, S⟩ := I.cp
        exact ⟨ord, S.keep ⟨rfl, rfl, rfl, rfl, rfl, rfl⟩ (by omega) (by simp [Pc.rank])⟩
    | copy sh1 sh2 hpc c1 c2 =>
      have h1 : rk s t = 6 := by simp [rk, hpc, Pc.rank]
      have hl := I.nl t ht (by omega) (by omega)
      have hb' := I.b5 hl t ht (by omega)
      have hbase := copy_base c1 c2
      have rs : ∀ u, rk (s.set t ({ s.thr t with pc := .done }, sh2)) u = if u = t then 7 else rk s u := rk_set s t _
      have key : ∀ u, ((s.set t ({ s.thr t with pc := .done }, sh2)).thr u).weights = (s.thr u).weights ∧
         ((s.set t ({ s.thr t with pc := .done }, sh2)).thr u).ext = (s.thr u).ext ∧
         ((s.set t ({ s.thr t with pc := .done }, sh2)).thr u).int = (s.thr u).int := by
        intro u
        by_cases h : u = t
        · subst h; rw [set_thr]; exact ⟨rfl, rfl, rfl⟩
        · rw [set_thr_ne _ h]; exact ⟨rfl, rfl, rfl⟩
      constructor
      · intro v _ _ u hu
        rw [rs]; split_ifs
        · omega
        · have := hb' u hu; omega
      · intro _ v _ _ u hu
        rw [rs]; split_ifs
        · omega
        · have := hb' u hu; omega
      · intro _ v _ _ u hu
        rw [rs]; split_ifs
        · omega
        · exact hb' u hu
      · intro _ _ _ _; exact hl
      · intro _ v hv h
        simp only [set_sh, hbase.alloc]
        exact I.al1 hl v hv (hb' v hv)
      · intro a ha
        simp only [set_sh, hbase.alloc] at ha
        obtain ⟨a1, a2, a3⟩ := I.al2 a ha
        refine ⟨a1, by simp only [set_sh, hbase.iExt, hbase.iInt]; exact a2, fun u hu => ?_⟩
        rw [rs]; split_ifs
        · omega
        · exact a3 u hu
      · obtain ⟨ord, S⟩ := I.sum
        refine ⟨ord, S.nodup, ?_, ?_, ?_, ?_⟩
        · intro u
          rw [S.mem, rs]
          by_cases h : u = t
          · subst h; simp [h1]
          · simp [h]
        · simp only [key, set_sh, hbase.sumW]; exact S.sumW
        · simp only [key, set_sh, hbase.iExt]; exact S.iExt
        · simp only [key, set_sh, hbase.iInt]; exact S.iInt
      · obtain ⟨ord, S⟩ := I.cp
        have hto : t ∉ ord := fun h => by have := ((S.mem t).1 h).2.1; omega
        obtain ⟨w1, e1, e2, e3⟩ := putAll_ext _ _ _ _ c1 S.ext
        obtain ⟨w2, e4, e5, e6⟩ := putAll_int _ _ _ (ord.flatMap (fun t => (s.thr t).int.items)) c2 (by rw [e1, e2, e3]; exact S.int)
        refine ⟨ord ++ [t], ?_, ?_, ?_, ?_⟩
        · rw [List.nodup_append]
          refine ⟨S.nodup, by simp, ?_⟩
          intro a ha b hb
          simp only [List.mem_singleton] at hb
          subst hb
          rintro rfl; exact hto ha
        · intro u
          rw [List.mem_append, S.mem, rs, List.mem_singleton]
          by_cases h : u = t
          · subst h; simp [ht, hl]
          · simp [h]
        · simp only [key, set_sh, List.flatMap_append, List.flatMap_cons, List.flatMap_nil, List.append_nil]
          rw [e4, e5, e6]; exact w1
        · simp only [key, set_sh, List.flatMap_append, List.flatMap_cons, List.flatMap_nil, List.append_nil]
          exact w2

end Polycap
