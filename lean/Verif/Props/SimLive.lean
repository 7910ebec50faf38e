import Verif.Props.SimFinal

/-!
# The parallel simulation: no undefined behaviour, no deadlock, termination (C52)

The theorems here are about all states any interleaving can reach.
-/
namespace Polycap
open CNum

variable {α : Type} [CNum α]

/-! ## Undefined behaviour -/

/-- What the simulation relies on for every photon it gets from the tracer. -/
structure AttOk (C : Cfg α) (a : Attempt α) : Prop where
  code : a.code = -2 ∨ a.code = -1 ∨ a.code = 0 ∨ a.code = 1 ∨ a.code = 2
  window : simCode C.D a = -1 ∨ simCode C.D a = -2 ∨ simCode C.D a = 0 ∨ simCode C.D a = 1 ∨ simCode C.D a = 2
  alloc : a.wts.isUntouched = false
  filled : simCode C.D a = 1 → ∃ ws, a.wts = .filled ws ∧ C.ne ≤ ws.length
  ext : C.leak = true → ∀ l ∈ a.ph.ext, C.ne ≤ l.weight.length
  int : C.leak = true → ∀ l ∈ a.ph.int, C.ne ≤ l.weight.length

/-- value of the progress counter of thread `t` after `k` saved photons -/
def progAt (C : Cfg α) (t : Nat) : Nat → Nat
  | 0 => 0
  | k + 1 => nextProg C t (progAt C t k)

/-- The conditions under which a simulation is free of undefined behaviour: the tracer delivers, and the progress
report – which thread 0 prints with its photon number `k`, in slot `j` – has something to divide by and does not overflow `int`. -/
structure SimOk (C : Cfg α) (asg : Nat → List Nat) : Prop where
  att : ∀ t < C.T, ∀ q, C.att t q ≠ .ub
  ok : ∀ t < C.T, ∀ q a q', C.att t q = .ok (a, q') → AttOk C a
  report : ∀ (k j : Nat), (asg 0)[k]? = some j → reports C 0 (progAt C 0 k) = true → C.T ≤ C.n ∧ j ≤ 21474836

/-- weights of leaks held by a thread are long enough -/
structure SafeThr (C : Cfg α) (th : Thr α) : Prop where
  ext : C.leak = true → ∀ l ∈ th.ext.items, C.ne ≤ l.weight.length
  int : C.leak = true → ∀ l ∈ th.int.items, C.ne ≤ l.weight.length
  extT : C.leak = true → ∀ l ∈ th.extT.items, C.ne ≤ l.weight.length
  intT : C.leak = true → ∀ l ∈ th.intT.items, C.ne ≤ l.weight.length
  save : ∀ j a rest, th.pc = .save j a rest → j < C.n ∧ (∃ ws, a.wts = .filled ws ∧ C.ne ≤ ws.length) ∧
    (C.leak = true → ∀ l ∈ a.ph.ext, C.ne ≤ l.weight.length) ∧ (C.leak = true → ∀ l ∈ a.ph.int, C.ne ≤ l.weight.length)

omit [CNum α] in
theorem trunc_len {ne : Nat} {ls : List (Leak α)} (h : ∀ l ∈ ls, ne ≤ l.weight.length) : ∀ l ∈ ls.map (trunc ne), ne ≤ l.weight.length := by
  intro l hl
  obtain ⟨m, hm, rfl⟩ := List.mem_map.1 hl
  have := h m hm
  simp [trunc]; omega

omit [CNum α] in
theorem append_len {ne : Nat} {a b : List (Leak α)} (ha : ∀ l ∈ a, ne ≤ l.weight.length) (hb : ∀ l ∈ b, ne ≤ l.weight.length) :
    ∀ l ∈ a ++ b, ne ≤ l.weight.length := by
  intro l hl
  rcases List.mem_append.1 hl with h | h
  · exact ha l h
  · exact hb l h

theorem safe_inv {C : Cfg α} {asg : Nat → List Nat} (ho : ∀ t < C.T, ∀ q a q', C.att t q = .ok (a, q') → AttOk C a) {k : Nat} {s : St α} (hr : Reach C asg k s) :
    ∀ t < C.T, SafeThr C (s.thr t) := by
  induction hr with
  | start =>
    intro t _
    constructor
    · intro _ l hl; simp [initSt, Buf.empty] at hl
    · intro _ l hl; simp [initSt, Buf.empty] at hl
    · intro _ l hl; simp [initSt, Buf.empty] at hl
    · intro _ l hl; simp [initSt, Buf.empty] at hl
    · intro j a rest h
      have : nextPc (α := α) (asg t) = .save j a rest := h
      cases h' : asg t <;> rw [h'] at this <;> simp [nextPc] at this
  | @step k s u s' hr hu hs I =>
    have m := tstep_move hs
    intro t ht
    by_cases htu : t = u
    swap
    · rw [(m.frame htu).1]; exact I t ht
    subst htu
    have J := I t ht
    have plain : ∀ (th : Thr α) (sh : Shared α), th.ext = (s.thr t).ext → th.int = (s.thr t).int → th.extT = (s.thr t).extT →
        th.intT = (s.thr t).intT → (∀ j a rest, th.pc ≠ .save j a rest) → SafeThr C ((s.set t (th, sh)).thr t) := by
      intro th sh h1 h2 h3 h4 h5
      rw [set_thr]
      refine ⟨fun hl => ?_, fun hl => ?_, fun hl => ?_, fun hl => ?_, fun j a rest h => absurd h (h5 j a rest)⟩
      · show ∀ l ∈ th.ext.items, _
        rw [h1]; exact J.ext hl
      · show ∀ l ∈ th.int.items, _
        rw [h2]; exact J.int hl
      · show ∀ l ∈ th.extT.items, _
        rw [h3]; exact J.extT hl
      · show ∀ l ∈ th.intT.items, _
        rw [h4]; exact J.intT hl
    have nx : ∀ (rest : List Nat) j a r, nextPc (α := α) rest ≠ .save j a r := by
      intro rest j a r h
      cases rest <;> simp [nextPc] at h
    cases m with
    | retry j rest a pos e i hpc ha hc hc' he hi =>
      have A := ho t ht _ a pos ha
      rw [set_thr]
      refine ⟨J.ext, J.int, fun hl => ?_, fun hl => ?_, fun j a rest h => by cases h⟩
      · show ∀ l ∈ e.items, _
        rw [he]
        refine append_len (J.extT hl) ?_
        split_ifs
        · exact trunc_len (A.ext hl)
        · simp
      · show ∀ l ∈ i.items, _
        rw [hi]
        refine append_len (J.intT hl) ?_
        split_ifs
        · exact trunc_len (A.int hl)
        · simp
    | exit j rest a pos a' e i hpc ha hc hj ha' he hi =>
      have A := ho t ht _ a pos ha
      rw [set_thr]
      refine ⟨J.ext, J.int, fun hl => ?_, fun hl => ?_, fun j1 a1 rest1 h => ?_⟩
      · show ∀ l ∈ e.items, _
        rw [he, if_pos hl]; simp
      · show ∀ l ∈ i.items, _
        rw [hi, if_pos hl]; simp
      · simp only [Pc.save.injEq] at h
        obtain ⟨rfl, rfl, rfl⟩ := h
        refine ⟨hj, ?_, fun hl => ?_, fun hl => ?_⟩
        · obtain ⟨ws, hw, hn⟩ := A.filled hc
          refine ⟨ws, ?_, hn⟩
          rw [ha']
          split_ifs <;> exact hw
        · rw [ha', if_pos hl]
          exact append_len (A.ext hl) (trunc_len (J.extT hl))
        · rw [ha', if_pos hl]
          exact append_len (A.int hl) (trunc_len (J.intT hl))
    | save j rest a prog ws e i hpc hw hl' hj he hi =>
      obtain ⟨-, -, s1, s2⟩ := J.save j a rest hpc
      rw [set_thr]
      refine ⟨fun hl => ?_, fun hl => ?_, J.extT, J.intT, fun j a rest h => by cases h⟩
      · show ∀ l ∈ e.items, _
        rw [he, if_pos hl]
        exact append_len (J.ext hl) (trunc_len (s1 hl))
      · show ∀ l ∈ i.items, _
        rw [hi, if_pos hl]
        exact append_len (J.int hl) (trunc_len (s2 hl))
    | refl n rest hpc => exact plain _ _ rfl rfl rfl rfl (nx rest)
    | forEnd hpc hb => exact plain _ _ rfl rfl rfl rfl (by intro _ _ _ h; cases h)
    | sumLeak hpc hl => exact plain _ _ rfl rfl rfl rfl (by intro _ _ _ h; cases h)
    | sum hpc hl => exact plain _ _ rfl rfl rfl rfl (by intro _ _ _ h; cases h)
    | barrier hpc hb => exact plain _ _ rfl rfl rfl rfl (by intro _ _ _ h; cases h)
    | singleFirst hpc ha => exact plain _ _ rfl rfl rfl rfl (by intro _ _ _ h; cases h)
    | singleOther x hpc ha => exact plain _ _ rfl rfl rfl rfl (by intro _ _ _ h; cases h)
    | singleEnd hpc hb => exact plain _ _ rfl rfl rfl rfl (by intro _ _ _ h; cases h)
    | copy sh1 sh2 hpc h1 h2 => exact plain _ _ rfl rfl rfl rfl (by intro _ _ _ h; cases h)

omit [CNum α] in
theorem copyLeaks_safe {ne : Nat} {ls : List (Leak α)} (h : ∀ l ∈ ls, ne ≤ l.weight.length) :
    copyLeaks ne ls = .ok (ls.map (trunc ne)) := by
  unfold copyLeaks
  rw [if_pos]
  · rfl
  · simpa [List.all_eq_true] using h

omit [CNum α] in
theorem growCap_enough (cap n : Nat) : n ≤ growCap cap n := by
  unfold growCap
  split_ifs <;> omega

omit [CNum α] in
theorem append_safe {ne : Nat} (b : Buf α) {ls : List (Leak α)} (h : ∀ l ∈ ls, ne ≤ l.weight.length) :
    ∃ b', b.append ne ls = .ok b' := by
  unfold Buf.append
  rw [copyLeaks_safe h]
  exact ⟨_, if_pos (growCap_enough _ _)⟩

omit [CNum α] in
theorem appendIf_safe {ne : Nat} (b : Buf α) {ls : List (Leak α)} (h : ∀ l ∈ ls, ne ≤ l.weight.length) :
    ∃ b', b.appendIf ne ls = .ok b' := by
  unfold Buf.appendIf
  split_ifs
  · exact append_safe b h
  · exact ⟨b, rfl⟩

theorem workStep_safe {C : Cfg α} {t j : Nat} {rest : List Nat} {th : Thr α} (S : SafeThr C th) (sh : Shared α) {a : Attempt α}
    (A : AttOk C a) (pos : Nat) (hj : j < C.n) : ∃ x, workStep C t j rest th sh a pos = .ok x := by
  unfold workStep
  dsimp only
  by_cases h1 : simCode C.D a = 1
  · rw [if_pos h1, if_neg (by omega)]
    unfold passLeaks
    by_cases hl : C.leak = true
    · rw [if_pos hl]
      dsimp only
      rw [copyLeaks_safe (S.extT hl), copyLeaks_safe (S.intT hl)]
      exact ⟨_, rfl⟩
    · rw [if_neg hl]
      exact ⟨_, rfl⟩
  · rw [if_neg h1]
    have hr : simRetry (simCode C.D a) = true := by
      simp only [simRetry, decide_eq_true_eq]
      have := A.window
      tauto
    unfold keepLeaks
    by_cases hl : C.leak = true ∧ (simCode C.D a = 0 ∨ simCode C.D a = 2)
    · rw [if_pos hl]
      obtain ⟨e, he⟩ := appendIf_safe th.extT (A.ext hl.1)
      obtain ⟨i, hi⟩ := appendIf_safe th.intT (A.int hl.1)
      dsimp only
      rw [he, hi]
      exact ⟨_, (if_neg (by rw [A.alloc]; decide)).trans (if_pos hr)⟩
    · rw [if_neg hl]
      exact ⟨_, (if_neg (by rw [A.alloc]; decide)).trans (if_pos hr)⟩

theorem tstep_prog {C : Cfg α} {t : Nat} {s s' : St α} (h : tstep C t s = .next s') :
    (s'.thr t).prog = if (s.thr t).pc.isSave then nextProg C t (s.thr t).prog else (s.thr t).prog := by
  by_cases hs : (s.thr t).pc.isSave = true
  · rw [if_pos hs]
    cases hpc : (s.thr t).pc with
    | save j a rest =>
      unfold tstep at h
      simp only [hpc] at h
      obtain ⟨x, hx, rfl⟩ := Res.of_next h
      rw [set_thr]
      unfold saveStep at hx
      split at hx
      · cases hx
      split at hx
      · split at hx
        · cases hx
        · simp only at hx
          split at hx
          · rw [Out.bind_eq_ok] at hx
            obtain ⟨e, -, hx⟩ := hx
            rw [Out.bind_eq_ok] at hx
            obtain ⟨i, -, hx⟩ := hx
            injection hx with hx
            rw [← hx]
          · injection hx with hx
            rw [← hx]
      · cases hx
    | _ => rw [hpc] at hs; simp [Pc.isSave] at hs
  · rw [if_neg hs]
    have m := tstep_move h
    cases m with
    | save j rest a prog ws e i hpc hw hl hj he hi => rw [hpc] at hs; simp [Pc.isSave] at hs
    | _ => rw [set_thr]

/-- the progress counter counts the saved photons -/
theorem prog_inv {C : Cfg α} {asg : Nat → List Nat} {k : Nat} {s : St α} (hr : Reach C asg k s) (t : Nat) :
    (s.thr t).prog = progAt C t (recorded C.D (s.thr t)).length := by
  induction hr with
  | start =>
    have : recorded C.D ((initSt C asg).thr t) = [] := by
      unfold recorded
      simp only [initSt]
      cases asg t <;> simp [nextPc, exitsOf]
    rw [this]
    rfl
  | @step k s u s' hr hu hs I =>
    have m := tstep_move hs
    by_cases htu : t = u
    swap
    · rw [(m.frame htu).1]; exact I
    subst htu
    have hp := tstep_prog hs
    have L := local_inv hr t
    have nx : ∀ (rest : List Nat) (h : List (Nat × Attempt α)) (th : Thr α), th.pc = nextPc rest → th.hist = h →
        recorded C.D th = exitsOf C.D h := by
      intro rest h th h1 h2
      unfold recorded
      rw [h1, h2]
      cases rest <;> simp [nextPc]
    cases m with
    | retry j rest a pos e i hpc ha hc hc' he hi =>
      rw [hp]
      simp only [hpc, Pc.isSave, set_thr, recorded] at I ⊢
      rw [exitsOf_append, if_neg hc, List.append_nil]
      simpa using I
    | exit j rest a pos a' e i hpc ha hc hj ha' he hi =>
      rw [hp]
      simp only [hpc, Pc.isSave, set_thr, recorded] at I ⊢
      rw [exitsOf_append, if_pos hc, List.dropLast_concat]
      simpa using I
    | save j rest a prog ws e i hpc hw hl' hj he hi =>
      obtain ⟨l, a0, h1, -⟩ := L.held j a rest hpc
      rw [hp]
      simp only [hpc, Pc.isSave, set_thr, recorded, if_true] at I ⊢
      rw [I, h1]
      simp [progAt]
    | refl n rest hpc =>
      have e := nx rest (s.thr t).hist { s.thr t with pc := nextPc rest } rfl rfl
      rw [hp, set_thr]
      dsimp only
      rw [e]
      simp only [hpc, Pc.isSave, recorded] at I ⊢
      simpa using I
    | forEnd hpc hb => rw [hp]; simp only [hpc, Pc.isSave, set_thr, recorded] at I ⊢; simpa using I
    | sumLeak hpc hl => rw [hp]; simp only [hpc, Pc.isSave, set_thr, recorded] at I ⊢; simpa using I
    | sum hpc hl => rw [hp]; simp only [hpc, Pc.isSave, set_thr, recorded] at I ⊢; simpa using I
    | barrier hpc hb => rw [hp]; simp only [hpc, Pc.isSave, set_thr, recorded] at I ⊢; simpa using I
    | singleFirst hpc ha => rw [hp]; simp only [hpc, Pc.isSave, set_thr, recorded] at I ⊢; simpa using I
    | singleOther x hpc ha => rw [hp]; simp only [hpc, Pc.isSave, set_thr, recorded] at I ⊢; simpa using I
    | singleEnd hpc hb => rw [hp]; simp only [hpc, Pc.isSave, set_thr, recorded] at I ⊢; simpa using I
    | copy sh1 sh2 hpc h1 h2 => rw [hp]; simp only [hpc, Pc.isSave, set_thr, recorded] at I ⊢; simpa using I

/-- the photon being saved is the next one of its thread -/
theorem saving_slot {C : Cfg α} {asg : Nat → List Nat} {k : Nat} {s : St α} (hr : Reach C asg k s) {t j : Nat} {a : Attempt α} {rest : List Nat}
    (hpc : (s.thr t).pc = .save j a rest) : (asg t)[(recorded C.D (s.thr t)).length]? = some j := by
  have L := local_inv hr t
  obtain ⟨l, a0, h1, -⟩ := L.held j a rest hpc
  rw [← L.slots]
  unfold recorded
  simp [hpc, h1, pending]

theorem saveStep_safe {C : Cfg α} {t j : Nat} {a : Attempt α} {rest : List Nat} {th : Thr α} (S : SafeThr C th)
    (hpc : th.pc = .save j a rest) (sh : Shared α) (hT : 0 < C.T) (h1 : reports C t th.prog = true → C.T ≤ C.n ∧ j ≤ 21474836) :
    ∃ x, saveStep C t j a rest th sh = .ok x := by
  obtain ⟨hj, ⟨ws, hw, hn⟩, he, hi⟩ := S.save j a rest hpc
  unfold saveStep
  rw [if_neg]
  · rw [hw]
    dsimp only
    rw [if_neg (by omega)]
    by_cases hl : C.leak = true
    · rw [if_pos hl]
      obtain ⟨e, he⟩ := append_safe th.ext (he hl)
      obtain ⟨i, hi⟩ := append_safe th.int (hi hl)
      rw [he, hi]
      exact ⟨_, rfl⟩
    · rw [if_neg hl]
      exact ⟨_, rfl⟩
  · intro h
    rw [Bool.and_eq_true] at h
    obtain ⟨g1, g2⟩ := h1 h.1
    have := Nat.div_pos g1 hT
    have h2 := of_decide_eq_true h.2
    omega

/-- the progress report of a reachable state is harmless -/
theorem report_ok {C : Cfg α} {asg : Nat → List Nat} (ho : SimOk C asg) {k : Nat} {s : St α} (hr : Reach C asg k s) {t j : Nat} {a : Attempt α}
    {rest : List Nat} (hpc : (s.thr t).pc = .save j a rest) (h : reports C t (s.thr t).prog = true) : C.T ≤ C.n ∧ j ≤ 21474836 := by
  have h0 : t = 0 := by
    unfold reports at h
    rw [Bool.and_eq_true] at h
    exact of_decide_eq_true h.1
  subst h0
  rw [prog_inv hr 0] at h
  exact ho.report _ j (saving_slot hr hpc) h

omit [CNum α] in
theorem putAll_ext_safe {ne : Nat} : ∀ (ls : List (Leak α)) (sh : Shared α) (x : Nat × Nat), sh.alloc = some x →
    sh.extN + ls.length ≤ x.1 → (∀ l ∈ ls, ne ≤ l.weight.length) →
    ∃ sh', putAll (putExt ne) sh ls = .ok sh'
  | [], sh, x, _, _, _ => ⟨sh, rfl⟩
  | l :: ls, sh, (x, y), ha, hn, hl => by
    unfold putAll
    unfold putExt
    rw [ha]
    dsimp only
    simp only [List.length_cons] at hn
    rw [if_pos ⟨by omega, hl l (by simp)⟩]
    exact putAll_ext_safe ls _ (x, y) rfl (by show sh.extN + 1 + ls.length ≤ x; omega) (fun m hm => hl m (by simp [hm]))

omit [CNum α] in
theorem putAll_int_safe {ne : Nat} : ∀ (ls : List (Leak α)) (sh : Shared α) (x : Nat × Nat), sh.alloc = some x →
    sh.intN + ls.length ≤ x.2 → (∀ l ∈ ls, ne ≤ l.weight.length) →
    ∃ sh', putAll (putInt ne) sh ls = .ok sh'
  | [], sh, x, _, _, _ => ⟨sh, rfl⟩
  | l :: ls, sh, (x, y), ha, hn, hl => by
    unfold putAll
    unfold putInt
    rw [ha]
    dsimp only
    simp only [List.length_cons] at hn
    rw [if_pos ⟨by omega, hl l (by simp)⟩]
    exact putAll_int_safe ls _ (x, y) rfl (by show sh.intN + 1 + ls.length ≤ y; omega) (fun m hm => hl m (by simp [hm]))

/-- a duplicate-free list without `t`, inside one that has `t`: the sums of sizes -/
theorem sum_room {l m : List Nat} (hl : l.Nodup) (hs : ∀ x ∈ l, x ∈ m) {t : Nat} (ht : t ∈ m) (htl : t ∉ l) (f : Nat → Nat) :
    (l.map f).sum + f t ≤ (m.map f).sum := by
  have hsub : (t :: l).Subperm m := (List.nodup_cons.2 ⟨htl, hl⟩).subperm (by
    intro x hx
    rcases List.mem_cons.1 hx with rfl | hx
    · exact ht
    · exact hs x hx)
  obtain ⟨l', hp, hsub'⟩ := hsub
  have h1 := (hp.map f).sum_eq
  have h2 : (l'.map f).sum ≤ (m.map f).sum := by
    clear h1 hp hl hs ht htl
    induction hsub' with
    | slnil => exact le_refl _
    | cons a _ ih => simp only [List.map_cons, List.sum_cons]; omega
    | cons_cons a _ ih => simp only [List.map_cons, List.sum_cons]; omega
  simp only [List.map_cons, List.sum_cons] at h1
  omega

/-- **C52**: in no state that any schedule can reach does any thread do something undefined. -/
theorem simulation_safe {C : Cfg α} {asg : Nat → List Nat} (hd : Distributes C asg) (ho : SimOk C asg) {k : Nat} {s : St α}
    (hr : Reach C asg k s) {t : Nat} (ht : t < C.T) : tstep C t s ≠ .ub := by
  have S := safe_inv ho.ok hr t ht
  have L := local_inv hr t
  have G := global_inv hr
  have of_ok : ∀ o : Out (Thr α × Shared α), (∃ x, o = .ok x) → Res.of s t o ≠ .ub := by
    rintro o ⟨x, rfl⟩ h; cases h
  unfold tstep
  dsimp only
  split
  · next j rest hpc =>
    have hj : j < C.n := by
      refine asg_lt hd ht ?_
      rw [← L.slots, hpc]
      simp [pending]
    cases ha : C.att t (s.thr t).pos with
    | ub => exact absurd ha (ho.att t ht _)
    | fuel => intro h; cases h
    | ok x => exact of_ok _ (workStep_safe S s.sh (ho.ok t ht _ x.1 x.2 ha) x.2 hj)
  · next j a rest hpc => exact of_ok _ (saveStep_safe S hpc s.sh (by omega) (report_ok ho hr hpc))
  · intro h; cases h
  · split_ifs <;> (intro h; cases h)
  · intro h; cases h
  · split_ifs <;> (intro h; cases h)
  · split <;> (intro h; cases h)
  · split_ifs <;> (intro h; cases h)
  · next hpc =>
    have hrk : rk s t = 6 := by simp [rk, hpc, Pc.rank]
    have hleak := G.nl t ht (by omega) (by omega)
    cases hal : s.sh.alloc with
    | none => exact absurd hal (G.al1 hleak t ht (by omega))
    | some x =>
      obtain ⟨-, hx, hall⟩ := G.al2 x hal
      obtain ⟨o1, S1⟩ := G.sum
      obtain ⟨o2, S2⟩ := G.cp
      have hmem : ∀ u ∈ o2, u ∈ o1 := fun u hu => (S1.mem u).2 ⟨((S2.mem u).1 hu).1, by have := ((S2.mem u).1 hu).2.1; omega⟩
      have ht1 : t ∈ o1 := (S1.mem t).2 ⟨ht, by omega⟩
      have ht2 : t ∉ o2 := fun h => by have := ((S2.mem t).1 h).2.1; omega
      have e1 := sum_room S2.nodup hmem ht1 ht2 (fun u => (s.thr u).ext.items.length)
      have e2 := sum_room S2.nodup hmem ht1 ht2 (fun u => (s.thr u).int.items.length)
      have f1 := S2.ext.len
      have f2 := S2.int.len
      rw [List.length_flatMap] at f1 f2
      have g1 := S1.iExt
      have g2 := S1.iInt
      rw [if_pos hleak] at g1 g2
      subst hx
      obtain ⟨sh1, h1⟩ := putAll_ext_safe (ne := C.ne) (s.thr t).ext.items s.sh _ hal (by simp only [] at *; omega) (S.ext hleak)
      have hb := putAll_base putExt_base _ _ _ h1
      have hin := (putAll_ext _ _ _ _ h1 S2.ext).2.1
      obtain ⟨sh2, h2⟩ := putAll_int_safe (ne := C.ne) (s.thr t).int.items sh1 _ (hb.alloc.trans hal) (by rw [hin]; simp only [] at *; omega)
        (S.int hleak)
      apply of_ok
      rw [h1]
      show ∃ x, (do let sh ← putAll (putInt C.ne) sh1 (s.thr t).int.items; Out.ok ({ s.thr t with pc := .done }, sh)) = .ok x
      rw [h2]
      exact ⟨_, rfl⟩
  · intro h; cases h

/-! ## Deadlock and termination -/

/-- The threads wait for each other only at barriers: in every reachable state either all threads are done, or one of
them can go on, or is inside an endless photon. -/
theorem simulation_no_deadlock {C : Cfg α} {asg : Nat → List Nat} (hd : Distributes C asg) (ho : SimOk C asg) {k : Nat} {s : St α}
    (hr : Reach C asg k s) :
    s.finished C ∨ (∃ t < C.T, ∃ s', tstep C t s = .next s') ∨
      ∃ t < C.T, ∃ j rest, (s.thr t).pc = .work j rest ∧ C.att t (s.thr t).pos = .fuel := by
  by_cases hf : s.finished C
  · exact Or.inl hf
  right
  -- a thread with the smallest rank
  have hmin : ∃ t < C.T, ∀ u < C.T, rk s t ≤ rk s u := by
    unfold St.finished at hf
    push Not at hf
    obtain ⟨t0, ht0, -⟩ := hf
    have hne : ((List.range C.T).map (rk s)).min?.isSome := by
      rw [List.isSome_min?_iff]
      intro h
      simp at h
      omega
    obtain ⟨m, hm⟩ := Option.isSome_iff_exists.1 hne
    rw [List.min?_eq_some_iff] at hm
    obtain ⟨h1, h2⟩ := hm
    obtain ⟨t, ht, rfl⟩ := List.mem_map.1 h1
    exact ⟨t, List.mem_range.1 ht, fun u hu => h2 _ (List.mem_map.2 ⟨u, List.mem_range.2 hu, rfl⟩)⟩
  obtain ⟨t, ht, hmin⟩ := hmin
  have hs := simulation_safe hd ho hr ht
  have stuck : (∃ j rest, (s.thr t).pc = .work j rest ∧ C.att t (s.thr t).pos = .fuel) →
      (∃ t < C.T, ∃ s', tstep C t s = .next s') ∨ ∃ t < C.T, ∃ j rest, (s.thr t).pc = .work j rest ∧ C.att t (s.thr t).pos = .fuel :=
    fun h => Or.inr ⟨t, ht, h⟩
  have go : (∃ s', tstep C t s = .next s') →
      (∃ t < C.T, ∃ s', tstep C t s = .next s') ∨ ∃ t < C.T, ∃ j rest, (s.thr t).pc = .work j rest ∧ C.att t (s.thr t).pos = .fuel :=
    fun h => Or.inl ⟨t, ht, h⟩
  generalize ((∃ t < C.T, ∃ s', tstep C t s = .next s') ∨ ∃ t < C.T, ∃ j rest, (s.thr t).pc = .work j rest ∧ C.att t (s.thr t).pos = .fuel) = G
    at go stuck ⊢
  have of_ok : ∀ o : Out (Thr α × Shared α), Res.of s t o ≠ .ub → o ≠ .fuel → ∃ s', Res.of s t o = .next s' := by
    intro o h1 h2
    cases o with
    | ok x => exact ⟨_, rfl⟩
    | ub => exact absurd rfl h1
    | fuel => exact absurd rfl h2
  have hall : ∀ r, rk s t = r → allAt C s r = true := by
    intro r h
    subst h
    exact decide_eq_true hmin
  unfold tstep at hs go
  dsimp only at hs go
  cases hpc : (s.thr t).pc with
  | work j rest =>
    rw [hpc] at hs go
    dsimp only at hs go
    cases ha : C.att t (s.thr t).pos with
    | fuel => exact stuck ⟨j, rest, hpc, ha⟩
    | ub => rw [ha] at hs; exact absurd rfl hs
    | ok x =>
      refine go ?_
      refine of_ok _ hs ?_
      rw [ha]
      intro h
      have h : workStep C t j rest (s.thr t) s.sh x.1 x.2 = .fuel := h
      obtain ⟨y, hy⟩ := workStep_safe (C := C) (t := t) (j := j) (rest := rest) (safe_inv ho.ok hr t ht) s.sh (ho.ok t ht _ x.1 x.2 ha) x.2
        (asg_lt hd ht (by rw [← (local_inv hr t).slots, hpc]; simp [pending]))
      rw [hy] at h
      cases h
  | save j a rest =>
    rw [hpc] at hs go
    dsimp only at hs go
    refine go ?_
    obtain ⟨y, hy⟩ := saveStep_safe (t := t) (safe_inv ho.ok hr t ht) hpc s.sh (by omega) (report_ok ho hr hpc)
    rw [hy]
    exact ⟨_, rfl⟩
  | refl n rest => rw [hpc] at go; exact go ⟨_, rfl⟩
  | forEnd => rw [hpc] at go; exact go ⟨_, if_pos (hall 1 (by simp [rk, hpc, Pc.rank]))⟩
  | sum => rw [hpc] at go; exact go ⟨_, rfl⟩
  | barrier => rw [hpc] at go; exact go ⟨_, if_pos (hall 3 (by simp [rk, hpc, Pc.rank]))⟩
  | single =>
    rw [hpc] at go
    dsimp only at go
    cases ha : s.sh.alloc with
    | none => rw [ha] at go; exact go ⟨_, rfl⟩
    | some x => rw [ha] at go; exact go ⟨_, rfl⟩
  | singleEnd => rw [hpc] at go; exact go ⟨_, if_pos (hall 5 (by simp [rk, hpc, Pc.rank]))⟩
  | copy =>
    rw [hpc] at hs go
    dsimp only at hs go
    refine go ?_
    refine of_ok _ hs ?_
    intro h
    have key : ∀ (put : Shared α → Leak α → Out (Shared α)), (∀ a l, put a l ≠ .fuel) → ∀ ls a, putAll put a ls ≠ .fuel := by
      intro put hp ls
      induction ls with
      | nil => intro a h; cases h
      | cons l ls ih =>
        intro a h
        unfold putAll at h
        cases hq : put a l with
        | ok b => rw [hq] at h; exact ih b h
        | ub => rw [hq] at h; cases h
        | fuel => exact hp a l hq
    have k1 : ∀ (a : Shared α) (l : Leak α), putExt C.ne a l ≠ .fuel := by
      intro a l h; unfold putExt at h; split at h
      · cases h
      · split_ifs at h
    have k2 : ∀ (a : Shared α) (l : Leak α), putInt C.ne a l ≠ .fuel := by
      intro a l h; unfold putInt at h; split at h
      · cases h
      · split_ifs at h
    cases h1 : putAll (putExt C.ne) s.sh (s.thr t).ext.items with
    | fuel => exact key _ k1 _ _ h1
    | ub => rw [h1] at h; cases h
    | ok sh1 =>
      rw [h1] at h
      cases h2 : putAll (putInt C.ne) sh1 (s.thr t).int.items with
      | fuel => exact key _ k2 _ _ h2
      | ub =>
        have h : (putAll (putInt C.ne) sh1 (s.thr t).int.items >>= fun sh => Out.ok ({ s.thr t with pc := Pc.done }, sh)) = .fuel := h
        rw [h2] at h; cases h
      | ok sh2 =>
        have h : (putAll (putInt C.ne) sh1 (s.thr t).int.items >>= fun sh => Out.ok ({ s.thr t with pc := Pc.done }, sh)) = .fuel := h
        rw [h2] at h; cases h
  | done =>
    exfalso
    apply hf
    intro u hu
    have h1 := hmin u hu
    have h2 : rk s t = 7 := by simp [rk, hpc, Pc.rank]
    have h3 : 7 ≤ (s.thr u).pc.rank := by simpa [rk, hpc, Pc.rank] using h1
    cases hq : (s.thr u).pc <;> rw [hq] at h3 <;> first | rfl | (simp [Pc.rank] at h3)

/-- What a thread has done is the beginning of what it has to do. -/
theorem hist_prefix {C : Cfg α} {asg : Nat → List Nat} {k : Nat} {s : St α} (hr : Reach C asg k s) {t : Nat}
    {H : List (Nat × Attempt α)} {p : Nat} (hT : ThreadRun C.D (C.att t) (asg t) 0 H p) :
    ∃ h, Cont C t (s.thr t).pc (s.thr t).pos h p ∧ H = (s.thr t).hist ++ h := by
  induction hr with
  | start =>
    refine ⟨H, ?_, rfl⟩
    show Cont C t (nextPc (asg t)) 0 H p
    cases ha : asg t with
    | nil => rw [ha] at hT; cases hT; exact ⟨rfl, rfl⟩
    | cons j js => rw [ha] at hT; exact hT
  | @step k s u s' hr hu hs I =>
    have m := tstep_move hs
    by_cases htu : t = u
    swap
    · rw [(m.frame htu).1]; exact I
    subst htu
    obtain ⟨h, hc, hH⟩ := I
    cases m with
    | retry j rest a pos e i hpc ha hcode hcode' he hi =>
      rw [hpc] at hc
      have hc : ThreadRun C.D (C.att t) (j :: rest) (s.thr t).pos h p := hc
      cases hc with
      | @cons _ _ _ l p1 h' _ hsr htr =>
        cases hsr with
        | last h1 h2 => rw [ha] at h1; cases h1; exact absurd h2 hcode
        | @retry _ b q l' _ h1 h2 h3 =>
          rw [ha] at h1; cases h1
          refine ⟨l'.map (fun a => (j, a)) ++ h', ?_, ?_⟩
          · rw [set_thr]
            exact ThreadRun.cons h3 htr
          · rw [set_thr, hH]; simp
    | exit j rest a pos a' e i hpc ha hcode hj ha' he hi =>
      rw [hpc] at hc
      have hc : ThreadRun C.D (C.att t) (j :: rest) (s.thr t).pos h p := hc
      cases hc with
      | @cons _ _ _ l p1 h' _ hsr htr =>
        cases hsr with
        | last h1 h2 =>
          rw [ha] at h1; cases h1
          refine ⟨h', ?_, ?_⟩
          · rw [set_thr]; exact htr
          · rw [set_thr, hH]; simp
        | retry h1 h2 h3 => rw [ha] at h1; cases h1; exact absurd hcode h2
    | save j rest a prog ws e i hpc hw hl' hj he hi =>
      rw [hpc] at hc
      exact ⟨h, by rw [set_thr]; exact hc, by rw [set_thr]; exact hH⟩
    | refl n rest hpc =>
      rw [hpc] at hc
      refine ⟨h, ?_, by rw [set_thr]; exact hH⟩
      rw [set_thr]
      have hc : ThreadRun C.D (C.att t) rest (s.thr t).pos h p := hc
      show Cont C t (nextPc rest) (s.thr t).pos h p
      cases rest with
      | nil => cases hc; exact ⟨rfl, rfl⟩
      | cons j js => exact hc
    | forEnd hpc hb => rw [hpc] at hc; exact ⟨h, by rw [set_thr]; exact hc, by rw [set_thr]; exact hH⟩
    | sumLeak hpc hl => rw [hpc] at hc; exact ⟨h, by rw [set_thr]; exact hc, by rw [set_thr]; exact hH⟩
    | sum hpc hl => rw [hpc] at hc; exact ⟨h, by rw [set_thr]; exact hc, by rw [set_thr]; exact hH⟩
    | barrier hpc hb => rw [hpc] at hc; exact ⟨h, by rw [set_thr]; exact hc, by rw [set_thr]; exact hH⟩
    | singleFirst hpc ha => rw [hpc] at hc; exact ⟨h, by rw [set_thr]; exact hc, by rw [set_thr]; exact hH⟩
    | singleOther x hpc ha => rw [hpc] at hc; exact ⟨h, by rw [set_thr]; exact hc, by rw [set_thr]; exact hH⟩
    | singleEnd hpc hb => rw [hpc] at hc; exact ⟨h, by rw [set_thr]; exact hc, by rw [set_thr]; exact hH⟩
    | copy sh1 sh2 hpc h1 h2 => rw [hpc] at hc; exact ⟨h, by rw [set_thr]; exact hc, by rw [set_thr]; exact hH⟩

/-- steps a thread has taken beyond one per photon -/
def Pc.extra (n : Nat) : Pc α → Nat
  | .work _ _ => 2 * n
  | .save _ _ _ => 2 * n - 2
  | .refl _ _ => 2 * n - 1
  | .forEnd => 2 * n
  | .sum => 2 * n + 1
  | .barrier => 2 * n + 2
  | .single => 2 * n + 3
  | .singleEnd => 2 * n + 4
  | .copy => 2 * n + 5
  | .done => 2 * n + 6

/-- steps a thread has taken (at least, if leaks are not computed) -/
def taken (C : Cfg α) (th : Thr α) : Nat := th.hist.length + th.pc.extra (exitsOf C.D th.hist).length

theorem sum_one {f g : Nat → Nat} {n t : Nat} (ht : t < n) (h : ∀ u, u ≠ t → g u = f u) (h1 : f t + 1 ≤ g t) :
    ((List.range n).map f).sum + 1 ≤ ((List.range n).map g).sum := by
  induction n with
  | zero => omega
  | succ n ih =>
    rw [List.range_succ]
    simp only [List.map_append, List.sum_append, List.map_cons, List.map_nil, List.sum_cons, List.sum_nil]
    by_cases htn : t = n
    · subst htn
      have : (List.range t).map f = (List.range t).map g := List.map_congr_left (fun u hu => (h u (by have := List.mem_range.1 hu; omega)).symm)
      rw [this]
      omega
    · have := ih (by omega)
      rw [h n (Ne.symm htn)]
      omega

theorem exits_snoc_no {D : Descr α} (h : List (Nat × Attempt α)) {j : Nat} {a : Attempt α} (hc : simCode D a ≠ 1) :
    (exitsOf D (h ++ [(j, a)])).length = (exitsOf D h).length := by
  unfold exitsOf; simp [hc]
theorem exits_snoc_yes {D : Descr α} (h : List (Nat × Attempt α)) {j : Nat} {a : Attempt α} (hc : simCode D a = 1) :
    (exitsOf D (h ++ [(j, a)])).length = (exitsOf D h).length + 1 := by
  unfold exitsOf; simp [hc]

/-- Every step is counted. -/
theorem steps_counted {C : Cfg α} {asg : Nat → List Nat} {k : Nat} {s : St α} (hr : Reach C asg k s) :
    k ≤ ((List.range C.T).map (fun t => taken C (s.thr t))).sum ∧
      (∀ t < C.T, ∀ n rest, (s.thr t).pc = .refl n rest → 1 ≤ (exitsOf C.D (s.thr t).hist).length) := by
  induction hr with
  | start => exact ⟨Nat.zero_le _, fun t _ n rest h => by
      have : nextPc (α := α) (asg t) = .refl n rest := h
      cases h' : asg t <;> rw [h'] at this <;> simp [nextPc] at this⟩
  | @step k s u s' hr hu hs I =>
    have m := tstep_move hs
    obtain ⟨I1, I2⟩ := I
    have L := local_inv hr u
    have key : taken C (s.thr u) + 1 ≤ taken C (s'.thr u) ∧
        (∀ n rest, (s'.thr u).pc = .refl n rest → 1 ≤ (exitsOf C.D (s'.thr u).hist).length) := by
      cases m with
      | retry j rest a pos e i hpc ha hcode hcode' he hi =>
        rw [set_thr]
        refine ⟨?_, fun n rest h => by cases h⟩
        unfold taken
        dsimp only
        rw [hpc, exits_snoc_no _ hcode]
        simp [Pc.extra]
      | exit j rest a pos a' e i hpc ha hcode hj ha' he hi =>
        rw [set_thr]
        refine ⟨?_, fun n rest h => by cases h⟩
        unfold taken
        dsimp only
        rw [hpc, exits_snoc_yes _ hcode]
        simp [Pc.extra]
        omega
      | save j rest a prog ws e i hpc hw hl' hj he hi =>
        rw [set_thr]
        obtain ⟨l, a0, hl, -⟩ := L.held j a rest hpc
        have h1 : 1 ≤ (exitsOf C.D (s.thr u).hist).length := by rw [hl]; simp
        refine ⟨?_, fun n rest _ => h1⟩
        unfold taken
        dsimp only
        rw [hpc]
        simp only [Pc.extra]
        omega
      | refl n rest hpc =>
        have h1 := I2 u hu n rest hpc
        rw [set_thr]
        refine ⟨?_, fun n' rest' h => h1⟩
        unfold taken
        dsimp only
        rw [hpc]
        cases rest <;> simp only [nextPc, Pc.extra] <;> omega
      | forEnd hpc hb => rw [set_thr]; refine ⟨?_, fun n rest h => by cases h⟩; unfold taken; dsimp only; rw [hpc]; simp only [Pc.extra]; omega
      | sumLeak hpc hl => rw [set_thr]; refine ⟨?_, fun n rest h => by cases h⟩; unfold taken; dsimp only; rw [hpc]; simp only [Pc.extra]; omega
      | sum hpc hl => rw [set_thr]; refine ⟨?_, fun n rest h => by cases h⟩; unfold taken; dsimp only; rw [hpc]; simp only [Pc.extra]; omega
      | barrier hpc hb => rw [set_thr]; refine ⟨?_, fun n rest h => by cases h⟩; unfold taken; dsimp only; rw [hpc]; simp only [Pc.extra]; omega
      | singleFirst hpc ha => rw [set_thr]; refine ⟨?_, fun n rest h => by cases h⟩; unfold taken; dsimp only; rw [hpc]; simp only [Pc.extra]; omega
      | singleOther x hpc ha => rw [set_thr]; refine ⟨?_, fun n rest h => by cases h⟩; unfold taken; dsimp only; rw [hpc]; simp only [Pc.extra]; omega
      | singleEnd hpc hb => rw [set_thr]; refine ⟨?_, fun n rest h => by cases h⟩; unfold taken; dsimp only; rw [hpc]; simp only [Pc.extra]; omega
      | copy sh1 sh2 hpc h1 h2 => rw [set_thr]; refine ⟨?_, fun n rest h => by cases h⟩; unfold taken; dsimp only; rw [hpc]; simp only [Pc.extra]; omega
    constructor
    · have := sum_one (f := fun t => taken C (s.thr t)) (g := fun t => taken C (s'.thr t)) hu
        (fun v hv => by rw [(m.frame hv).1]) key.1
      omega
    · intro t ht n rest h
      by_cases htu : t = u
      · subst htu; exact key.2 n rest h
      · rw [(m.frame htu).1] at h ⊢; exact I2 t ht n rest h

/-- **C52**: if the generator and the tracer deliver photons that leave through the exit window, every simulation comes to its end:
whatever the schedule, no more than `Σ_t (photons of t + 2 · slots of t + 6)` steps are possible, and as long as not all
threads are done some thread can go on. -/
theorem simulation_terminates {C : Cfg α} {asg : Nat → List Nat} (hd : Distributes C asg) (ho : SimOk C asg)
    (H : Nat → List (Nat × Attempt α)) (p : Nat → Nat) (hT : ∀ t < C.T, ThreadRun C.D (C.att t) (asg t) 0 (H t) (p t))
    {k : Nat} {s : St α} (hr : Reach C asg k s) :
    k ≤ ((List.range C.T).map (fun t => (H t).length + 2 * (asg t).length + 6)).sum ∧
      (s.finished C ∨ ∃ t < C.T, ∃ s', tstep C t s = .next s') := by
  constructor
  · refine le_trans (steps_counted hr).1 ?_
    apply List.sum_le_sum
    intro t ht
    have ht := List.mem_range.1 ht
    obtain ⟨h, -, hH⟩ := hist_prefix hr (hT t ht)
    have hl := congrArg List.length (local_inv hr t).slots
    rw [List.length_append, List.length_map] at hl
    have he : (s.thr t).pc.extra (exitsOf C.D (s.thr t).hist).length ≤ 2 * (exitsOf C.D (s.thr t).hist).length + 6 := by
      cases (s.thr t).pc <;> simp only [Pc.extra] <;> omega
    show taken C (s.thr t) ≤ _
    unfold taken
    rw [hH, List.length_append]
    omega
  · rcases simulation_no_deadlock hd ho hr with h | h | ⟨t, ht, j, rest, hpc, ha⟩
    · exact Or.inl h
    · exact Or.inr h
    · exfalso
      obtain ⟨h, hc, -⟩ := hist_prefix hr (hT t ht)
      rw [hpc] at hc
      have hc : ThreadRun C.D (C.att t) (j :: rest) (s.thr t).pos h (p t) := hc
      cases hc with
      | cons hs _ =>
        cases hs with
        | last h1 _ => rw [ha] at h1; cases h1
        | retry h1 _ _ => rw [ha] at h1; cases h1

/-- There is a finished execution exactly if every thread can find a transmitted photon for each of its slots. -/
theorem simulation_finishes_iff {C : Cfg α} {asg : Nat → List Nat} (hd : Distributes C asg) (ho : SimOk C asg) :
    (∃ k s, Reach C asg k s ∧ s.finished C) ↔ ∀ t < C.T, ∃ H p, ThreadRun C.D (C.att t) (asg t) 0 H p := by
  constructor
  · rintro ⟨k, s, hr, hf⟩ t ht
    obtain ⟨p, h⟩ := (final_of_finished hr hf).runs t ht
    exact ⟨_, p, h⟩
  · intro h
    choose! H p hT using h
    by_contra hc
    push Not at hc
    have grow : ∀ k, ∃ s, Reach C asg k s := by
      intro k
      induction k with
      | zero => exact ⟨_, Reach.start⟩
      | succ k ih =>
        obtain ⟨s, hr⟩ := ih
        rcases (simulation_terminates hd ho H p hT hr).2 with hf | ⟨t, ht, s', hs⟩
        · exact absurd hf (hc k s hr)
        · exact ⟨s', Reach.step hr ht hs⟩
    obtain ⟨s, hr⟩ := grow (((List.range C.T).map (fun t => (H t).length + 2 * (asg t).length + 6)).sum + 1)
    have := (simulation_terminates hd ho H p hT hr).1
    omega

/-- **Finding**: a simulation in which no photon gets through (an opaque optic, a source that illuminates nothing but glass) never
returns: there is no limit on the number of attempts. -/
theorem simulation_may_not_return {C : Cfg α} {asg : Nat → List Nat} {t : Nat} (ht : t < C.T) (ha : asg t ≠ [])
    (hc : ∀ q a q', C.att t q = .ok (a, q') → simCode C.D a ≠ 1) {k : Nat} {s : St α} (hr : Reach C asg k s) : ¬ s.finished C := by
  intro hf
  obtain ⟨p, h⟩ := (final_of_finished hr hf).runs t ht
  cases hs : asg t with
  | nil => exact ha hs
  | cons j js =>
    rw [hs] at h
    generalize (s.thr t).hist = H at h
    cases h with
    | cons h1 _ =>
      clear hr hf
      have : ∀ {p l p'}, SlotRun C.D (C.att t) p l p' → False := by
        intro p l p' h
        induction h with
        | last h h2 => exact hc _ _ _ h h2
        | retry _ _ _ ih => exact ih
      exact this h1

end Polycap
