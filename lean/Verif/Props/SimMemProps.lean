import Verif.Props.SimMemSim

/-!
# C83: a simulation releases everything its threads allocate
-/
namespace Polycap.SMem
open CNum CM Mem Memo LMem

variable {α : Type} [CNum α]

/-- The heap computation is in the state `s` with the heap `h`, the computation on values in the state `v`: the shared variables agree, and the
heap is what it was at the start together with what the threads own, nothing else. -/
structure Rel (A : Prm α) (h0 : Heap (Block α)) (s : MSt α) (v : St α) (h : Heap (Block α)) : Prop where
  good : Good h
  sh : s.sh = v.sh
  thr : ∃ ps : Nat → List (Piece (Block α)), (∀ i < A.cfg.T, TRel A.S.energies.length A.a.leak (s.thr i) (v.thr i) (ps i)) ∧
    Sep h0.mem ((List.range A.cfg.T).flatMap ps) h.mem

/-- the same, with the pieces `ps` of the threads named -/
structure RelP (A : Prm α) (h0 : Heap (Block α)) (s : MSt α) (v : St α) (ps : Nat → List (Piece (Block α))) (h : Heap (Block α)) : Prop where
  good : Good h
  sh : s.sh = v.sh
  thr : ∀ i < A.cfg.T, TRel A.S.energies.length A.a.leak (s.thr i) (v.thr i) (ps i)
  sep : Sep h0.mem ((List.range A.cfg.T).flatMap ps) h.mem

theorem RelP.rel {A : Prm α} {h0 : Heap (Block α)} {s : MSt α} {v : St α} {ps : Nat → List (Piece (Block α))} {h : Heap (Block α)}
    (R : RelP A h0 s v ps h) : Rel A h0 s v h := ⟨R.good, R.sh, ps, R.thr, R.sep⟩

/-- some blocks with exactly the content they have in `m` -/
def exactP (F : List Nat) (m : Nat → Option (Block α)) (hl : ∀ a ∈ F, m a ≠ none) : Piece (Block α) where
  F := F
  holds m' := ∀ a ∈ F, m' a = m a
  loc h e a ha := by rw [h a ha]; exact e a ha
  live e a ha := by rw [e a ha]; exact hl a ha

omit [CNum α] in
/-- replacing pieces by their exact content -/
theorem Sep.exact {m0 m : Nat → Option (Block α)} {ps rs : List (Piece (Block α))} (s : Sep m0 (ps ++ rs) m) (hl : ∀ a ∈ feet rs, m a ≠ none) :
    Sep m0 (ps ++ [exactP (feet rs) m hl]) m := by
  have e : feet (ps ++ [exactP (feet rs) m hl]) = feet (ps ++ rs) := by simp [feet_append, feet_cons, exactP]
  refine ⟨fun p hp => ?_, fun a => by rw [e]; exact s.one a, fun a ha => s.new a (by rw [← e]; exact ha), fun a ha => s.rest a (by rw [← e]; exact ha)⟩
  rcases List.mem_append.mp hp with h1 | h1
  · exact s.holds p (List.mem_append_left _ h1)
  · rw [List.mem_singleton] at h1; subst h1; exact fun _ _ => rfl

omit [CNum α] in
/-- and back, in a later heap -/
theorem Sep.inexact {m0 m m' : Nat → Option (Block α)} {ps rs : List (Piece (Block α))} {hl : ∀ a ∈ feet rs, m a ≠ none}
    (s : Sep m0 (ps ++ [exactP (feet rs) m hl]) m') (hr : ∀ p ∈ rs, p.holds m) : Sep m0 (ps ++ rs) m' ∧ ∀ a ∈ feet rs, m' a = m a := by
  have same : ∀ a ∈ feet rs, m' a = m a := s.holds (exactP (feet rs) m hl) (by simp)
  have e : feet (ps ++ [exactP (feet rs) m hl]) = feet (ps ++ rs) := by simp [feet_append, feet_cons, exactP]
  refine ⟨⟨fun p hp => ?_, fun a => by rw [← e]; exact s.one a, fun a ha => s.new a (by rw [e]; exact ha), fun a ha => s.rest a (by rw [e]; exact ha)⟩, same⟩
  rcases List.mem_append.mp hp with h1 | h1
  · exact s.holds p (List.mem_append_left _ h1)
  · exact p.loc (fun a ha => same a (List.mem_flatMap.mpr ⟨p, h1, ha⟩)) (hr p h1)

omit [CNum α] in
theorem PcR.rank {mp : MPc α} {vp : Pc α} (h : PcR mp vp) : mp.rank = vp.rank := by cases h <;> rfl

/-- what the other threads own -/
def others {β : Type} (T t : Nat) (ps : Nat → List β) : List β := ((List.range T).erase t).flatMap ps

theorem flatMap_focus {β : Type} {T t : Nat} (ht : t < T) (ps : Nat → List β) : ((List.range T).flatMap ps).Perm (ps t ++ others T t ps) := by
  have h := (List.perm_cons_erase (List.mem_range.mpr ht)).flatMap_right ps
  simpa [others] using h

theorem others_upd {β : Type} {T t : Nat} (ps : Nat → List β) (p : List β) : others T t (upd1 ps t p) = others T t ps := by
  unfold others
  refine List.flatMap_congr fun i hi => ?_
  have : i ≠ t := by
    rintro rfl
    exact (List.nodup_range (n := T)).not_mem_erase hi
  simp [upd1, this]

/-- thread `t` has gone one step: the states stay related, and the blocks of the other threads are what they were -/
def Post (A : Prm α) (h0 h : Heap (Block α)) (t : Nat) (ps : Nat → List (Piece (Block α))) (s' : MSt α) (v' : St α) (h' : Heap (Block α)) : Prop :=
  ∃ p, RelP A h0 s' v' (upd1 ps t p) h' ∧ ∀ a ∈ feet (others A.cfg.T t ps), h'.mem a = h.mem a

theorem Post.put {A : Prm α} {h0 h h' : Heap (Block α)} {s : MSt α} {v : St α} {ps : Nat → List (Piece (Block α))} {t : Nat} (ht : t < A.cfg.T)
    (R : ∀ i < A.cfg.T, TRel A.S.energies.length A.a.leak (s.thr i) (v.thr i) (ps i)) (hr : ∀ p ∈ others A.cfg.T t ps, p.holds h.mem)
    {hl : ∀ a ∈ feet (others A.cfg.T t ps), h.mem a ≠ none} {th' : MThr α} {v' : Thr α} {sh : Shared α} {p : List (Piece (Block α))}
    (g : Good h') (T : TRel A.S.energies.length A.a.leak th' v' p) (S : Sep h0.mem (p ++ [exactP (feet (others A.cfg.T t ps)) h.mem hl]) h'.mem) :
    Post A h0 h t ps (s.set t (th', sh)) (v.set t (v', sh)) h' := by
  obtain ⟨S, same⟩ := Sep.inexact S hr
  refine ⟨p, ⟨g, rfl, fun i hi => ?_, ?_⟩, same⟩
  · by_cases hit : i = t
    · subst hit; simpa [MSt.set, St.set, upd1] using T
    · simpa [MSt.set, St.set, upd1, hit] using R i hi
  · refine Sep.perm ?_ (flatMap_focus ht _).symm
    rw [others_upd]; simpa [upd1] using S

theorem allAt_eq {A : Prm α} {s : MSt α} {v : St α} {ps : Nat → List (Piece (Block α))}
    (R : ∀ i < A.cfg.T, TRel A.S.energies.length A.a.leak (s.thr i) (v.thr i) (ps i)) (r : Nat) : allAtM A s r = allAt A.cfg v r := by
  unfold allAtM allAt
  congr 1
  exact propext ⟨fun h i hi => by rw [← (R i hi).pc.rank]; exact h i hi, fun h i hi => by rw [(R i hi).pc.rank]; exact h i hi⟩

/-- **One step.**  Whatever the thread does on values it does on the heap, and the two states stay related. -/
theorem step_relP (A : Prm α) (hes : A.S.energies ≠ []) (hb : A.S.energies.any energyBad = false) {h0 h : Heap (Block α)} {s : MSt α} {v : St α}
    {ps : Nat → List (Piece (Block α))} (R : RelP A h0 s v ps h) {t : Nat} (ht : t < A.cfg.T) :
    match tstep A.cfg t v with
    | .next v' => ∃ s' h', (tstepM A t s).run h = .ok (some s', h') ∧ Post A h0 h t ps s' v' h'
    | .ub => (tstepM A t s).run h = .ub
    | .blocked => (tstepM A t s).run h = .fuel ∨ (tstepM A t s).run h = .ok (none, h) := by
  obtain ⟨g, hsh, Rt, S⟩ := R
  have T := Rt t ht
  have Sf := S.perm (flatMap_focus ht ps)
  have hr : ∀ p ∈ others A.cfg.T t ps, p.holds h.mem := fun p hp => Sf.holds p (List.mem_append_right _ hp)
  have hlv : ∀ a ∈ feet (others A.cfg.T t ps), h.mem a ≠ none := fun a ha => Sf.live (by rw [feet_append]; exact List.mem_append_right _ ha)
  have S0 := Sep.exact Sf hlv
  have eq := @allAt_eq _ _ A s v ps Rt
  have step : ∀ {run : HM (Block α) (MThr α × Shared α)} {val : Out (Thr α × Shared α)},
      Agrees h0.mem A.S.energies.length A.a.leak [exactP (feet (others A.cfg.T t ps)) h.mem hlv] (run.run h) val →
      match Res.of v t val with
      | .next v' => ∃ s' h', (run >>= fun x => Pure.pure (some (s.set t x)) : HM (Block α) (Option (MSt α))).run h = .ok (some s', h') ∧ Post A h0 h t ps s' v' h'
      | .ub => (run >>= fun x => Pure.pure (some (s.set t x)) : HM (Block α) (Option (MSt α))).run h = .ub
      | .blocked => (run >>= fun x => Pure.pure (some (s.set t x)) : HM (Block α) (Option (MSt α))).run h = .fuel ∨
          (run >>= fun x => Pure.pure (some (s.set t x)) : HM (Block α) (Option (MSt α))).run h = .ok (none, h) := by
    intro run val ag
    cases val with
    | ub => exact HM.run_bind_ub ag
    | fuel => exact .inl (HM.run_bind_fuel ag)
    | ok y =>
      obtain ⟨h', th', p, r, g', T', S'⟩ := ag
      exact ⟨_, h', by rw [HM.run_bind_ok r]; rfl, Post.put (sh := y.2) ht Rt hr g' T' S'⟩
  have quiet : ∀ (mp : MPc α) (vp : Pc α) (sh : Shared α), (∀ x, PhR A.S.energies.length (s.thr t) (v.thr t).pc x → x = []) →
      (∀ th', PhR A.S.energies.length th' vp []) → PcR mp vp → (v.thr t).pc ≠ .done → ¬ Pc.working (v.thr t).pc →
      Post A h0 h t ps (s.set t ({ s.thr t with pc := mp }, sh)) (v.set t ({ v.thr t with pc := vp }, sh)) h :=
    fun mp vp sh a1 a2 a3 a4 a5 => Post.put ht Rt hr g (T.quiet mp vp a1 a2 a3 a4 a5) S0
  unfold tstepM tstep
  simp only [hsh, eq]
  have P := T.pc
  revert P
  generalize hm : (s.thr t).pc = mp
  generalize hv : (v.thr t).pc = vp
  intro P
  cases P with
  | work j rest => exact step (work_agrees A hes hb g T hv S0)
  | save j P a rest e i hP => exact step (save_agrees A g T hm hv S0)
  | refl n rest =>
    obtain ⟨h1, h2, p, r1, r2, g2, T2, S2⟩ := refl_run g T hv S0
    exact ⟨_, h2, by simp only []; rw [HM.bind_ofCM r1, HM.bind_ofCM r2]; rfl, Post.put ht Rt hr g2 T2 S2⟩
  | forEnd =>
    by_cases h1 : allAt A.cfg v 1 = true
    · simp only [h1, if_true]
      exact ⟨_, h, rfl, quiet _ _ _ (by rw [hv]; exact fun x hx => hx) (fun _ => rfl) .sum (by rw [hv]; simp) (by rw [hv]; exact id)⟩
    · simp only [h1]
      exact .inr rfl
  | sum =>
    have hw : ∃ w, (s.thr t).weights = some w ∧ h.mem w = some (.doubles (v.thr t).weights) := by
      rcases T.own with ⟨h1, -⟩ | ⟨w, gg, pe, pi, pet, pit, x, O, hp⟩
      · rw [hv] at h1; cases h1
      · exact ⟨w, O.w, S0.holds (blkP w (.doubles (v.thr t).weights)) (by rw [hp]; simp [ownsP])⟩
    have hn : (s.thr t).ext.n = (v.thr t).ext.items.length ∧ (s.thr t).int.n = (v.thr t).int.items.length := by
      rcases T.own with ⟨h1, -⟩ | ⟨w, gg, pe, pi, pet, pit, x, O, hp⟩
      · rw [hv] at h1; cases h1
      · exact ⟨O.ext.n, O.int.n⟩
    obtain ⟨w, hw1, hw2⟩ := hw
    have r1 : (loadArr (s.thr t).weights A.S.energies.length).run h = some ((v.thr t).weights, h) := by
      simp [loadArr, run_bind, run_load, hw1, hw2, ← T.len]
    have eL : A.cfg.leak = A.a.leak := rfl
    simp only [eL]
    rw [HM.bind_ofCM r1]
    by_cases hl : A.a.leak = true
    · simp only [hl, if_true, hn.1, hn.2]
      exact ⟨_, h, rfl, quiet _ _ _ (by rw [hv]; exact fun x hx => hx) (fun _ => rfl) .barrier (by rw [hv]; simp) (by rw [hv]; exact id)⟩
    · simp only [hl, Bool.false_eq_true, if_false]
      obtain ⟨h2, r2, g2, T2, S2⟩ := end_run g T (by rw [hv]; exact fun x hx => hx) (by rw [hv]; simp) (by rw [hv]; exact id) S0
      exact ⟨_, h2, by rw [HM.bind_ofCM r2]; rfl, Post.put ht Rt hr g2 T2 S2⟩
  | barrier =>
    by_cases h1 : allAt A.cfg v 3 = true
    · simp only [h1, if_true]
      exact ⟨_, h, rfl, quiet _ _ _ (by rw [hv]; exact fun x hx => hx) (fun _ => rfl) .single (by rw [hv]; simp) (by rw [hv]; exact id)⟩
    · simp only [h1]
      exact .inr rfl
  | single =>
    simp only
    cases v.sh.alloc with
    | none => exact ⟨_, h, rfl, quiet _ _ _ (by rw [hv]; exact fun x hx => hx) (fun _ => rfl) .singleEnd (by rw [hv]; simp) (by rw [hv]; exact id)⟩
    | some _ => exact ⟨_, h, rfl, quiet _ _ _ (by rw [hv]; exact fun x hx => hx) (fun _ => rfl) .singleEnd (by rw [hv]; simp) (by rw [hv]; exact id)⟩
  | singleEnd =>
    by_cases h1 : allAt A.cfg v 5 = true
    · simp only [h1, if_true]
      exact ⟨_, h, rfl, quiet _ _ _ (by rw [hv]; exact fun x hx => hx) (fun _ => rfl) .copy (by rw [hv]; simp) (by rw [hv]; exact id)⟩
    · simp only [h1]
      exact .inr rfl
  | copy =>
    have hput : ∃ pe pi, BufR A.S.energies.length (s.thr t).ext (v.thr t).ext pe ∧ BufR A.S.energies.length (s.thr t).int (v.thr t).int pi ∧
        pe ∈ ps t ++ [exactP (feet (others A.cfg.T t ps)) h.mem hlv] ∧ pi ∈ ps t ++ [exactP (feet (others A.cfg.T t ps)) h.mem hlv] := by
      rcases T.own with ⟨h1, -⟩ | ⟨w, gg, pe, pi, pet, pit, x, O, hp⟩
      · rw [hv] at h1; cases h1
      · exact ⟨pe, pi, O.ext, O.int, by rw [hp]; simp [ownsP], by rw [hp]; simp [ownsP]⟩
    obtain ⟨pe, pi, R1, R2, m1, m2⟩ := hput
    have r1 := putBuf_run (put := putExt A.S.energies.length) R1 S0 m1 v.sh
    have eN : A.cfg.ne = A.S.energies.length := rfl
    simp only [eN]
    cases hx : putAll (putExt A.S.energies.length) v.sh (v.thr t).ext.items with
    | ub => rw [hx] at r1; exact HM.run_bind_ub r1
    | fuel => rw [hx] at r1; exact .inl (HM.run_bind_fuel r1)
    | ok sh1 =>
    rw [hx] at r1
    rw [HM.run_bind_ok r1, Out.bind_ok]
    have r2 := putBuf_run (put := putInt A.S.energies.length) R2 S0 m2 sh1
    cases hy : putAll (putInt A.S.energies.length) sh1 (v.thr t).int.items with
    | ub => rw [hy] at r2; exact HM.run_bind_ub r2
    | fuel => rw [hy] at r2; exact .inl (HM.run_bind_fuel r2)
    | ok sh2 =>
    rw [hy] at r2
    rw [HM.run_bind_ok r2, Out.bind_ok]
    obtain ⟨h2, r2, g2, T2, S2⟩ := end_run g T (by rw [hv]; exact fun x hx => hx) (by rw [hv]; simp) (by rw [hv]; exact id) S0
    exact ⟨_, h2, by rw [HM.bind_ofCM r2]; rfl, Post.put ht Rt hr g2 T2 S2⟩
  | done => exact .inr rfl

/-- One step, without naming the pieces. -/
theorem step_rel (A : Prm α) (hes : A.S.energies ≠ []) (hb : A.S.energies.any energyBad = false) {h0 h : Heap (Block α)} {s : MSt α} {v : St α}
    (R : Rel A h0 s v h) {t : Nat} (ht : t < A.cfg.T) :
    match tstep A.cfg t v with
    | .next v' => ∃ s' h', (tstepM A t s).run h = .ok (some s', h') ∧ Rel A h0 s' v' h'
    | .ub => (tstepM A t s).run h = .ub
    | .blocked => (tstepM A t s).run h = .fuel ∨ (tstepM A t s).run h = .ok (none, h) := by
  obtain ⟨g, hsh, ps, Rt, S⟩ := R
  have P := step_relP A hes hb (ps := ps) ⟨g, hsh, Rt, S⟩ ht
  revert P
  cases tstep A.cfg t v with
  | ub => exact id
  | blocked => exact id
  | next v' => exact fun ⟨s', h', r, p, R, _⟩ => ⟨s', h', r, R.rel⟩

/-! ## The start of the threads -/

theorem start_run (ne : Nat) (leak : Bool) {m0 : Nat → Option (Block α)} {h : Heap (Block α)} (g : Good h) (slots : List Nat) {rs : List (Piece (Block α))}
    (s : Sep m0 rs h.mem) : ∃ th h' ps, (threadStart ne slots).run h = some (th, h') ∧ Good h' ∧
      TRel ne leak th ⟨nextPc slots, 0, 0, List.replicate ne (lit 0), Buf.empty, Buf.empty, Buf.empty, Buf.empty, []⟩ ps ∧ Sep m0 (ps ++ rs) h'.mem := by
  obtain ⟨h1, w, r1, g1, s1⟩ := malloc_piece g (.raw ne) s
  obtain ⟨h2, r2, g2, s2⟩ := store_piece g1 s1 (xs := List.replicate ne (lit 0)) (.inl ⟨ne, rfl, by simp⟩)
  obtain ⟨h3, gg, r3, g3, s3⟩ := malloc_piece g2 .rng s2
  refine ⟨⟨nextPcM slots, 0, 0, some w, some gg, none, none, MBuf.empty, MBuf.empty, MBuf.empty, MBuf.empty⟩, h3, _, ?_, g3, ⟨rfl, rfl, ?_, by simp, fun _ => rfl, fun _ => rfl, fun _ => ⟨rfl, rfl⟩,
    .inr ⟨w, gg, _, _, _, _, [], ⟨rfl, rfl, BufR.empty ne, BufR.empty ne, BufR.empty ne, BufR.empty ne, ?_⟩, rfl⟩⟩, ?_⟩
  · unfold threadStart
    rw [run_bind_some r1, run_bind_some r2, run_bind_some r3, if_neg (by simp)]; rfl
  · cases slots with
    | nil => exact .forEnd
    | cons j l => exact .work _ _
  · cases slots with
    | nil => exact rfl
    | cons j l => exact rfl
  · refine emptyBuf.mpr (emptyBuf.mpr ?_)
    have a1 : Sep m0 (blkP w (.doubles (List.replicate ne (lit 0))) :: blkP gg .rng :: rs) h3.mem := s3.swap
    refine (Sep.at [blkP w (.doubles (List.replicate ne (lit 0))), blkP gg .rng] (bufP none [] [] 0) (bufP none [] [] 0 :: rs)).mpr (emptyBuf.mpr ?_)
    exact (Sep.at [blkP w (.doubles (List.replicate ne (lit 0))), blkP gg .rng] (bufP none [] [] 0) rs).mpr (emptyBuf.mpr a1)

theorem startAll_run (A : Prm α) (asg : Nat → List Nat) {h0 : Heap (Block α)} (g : Good h0) : ∀ n, ∃ f h ps,
    (startAll A.S.energies.length asg n).run h0 = some (f, h) ∧ Good h ∧
    (∀ i < n, TRel A.S.energies.length A.a.leak (f i) ((initSt A.cfg asg).thr i) (ps i)) ∧ Sep h0.mem ((List.range n).flatMap ps) h.mem
  | 0 => ⟨_, h0, fun _ => [], rfl, g, by simp, by simpa using Sep.refl h0.mem⟩
  | n + 1 => by
    obtain ⟨f, h, ps, r, g1, R, S⟩ := startAll_run A asg g n
    obtain ⟨th, h', p, r2, g2, T2, S2⟩ := start_run A.S.energies.length A.a.leak g1 (asg n) S
    refine ⟨upd1 f n th, h', upd1 ps n p, ?_, g2, fun i hi => ?_, ?_⟩
    · rw [startAll, run_bind_some r, run_bind_some r2]; rfl
    · by_cases hin : i = n
      · subst hin
        have e1 : upd1 f i th i = th := by simp [upd1]
        have e2 : upd1 ps i p i = p := by simp [upd1]
        rw [e1, e2]; exact T2
      · simpa [upd1, hin] using R i (by omega)
    · rw [List.range_succ, List.flatMap_append]
      have e : (List.range n).flatMap (upd1 ps n p) = (List.range n).flatMap ps := by
        refine List.flatMap_congr fun i hi => ?_
        have : i ≠ n := by have := List.mem_range.mp hi; omega
        simp [upd1, this]
      rw [e]
      refine S2.perm ?_
      simpa [upd1] using List.perm_append_comm

/-! ## C83 -/

section
variable (A : Prm α) (hes : A.S.energies ≠ []) (hb : A.S.energies.any energyBad = false) (asg : Nat → List Nat) {h0 : Heap (Block α)} (g0 : Good h0)
include hes hb g0

/-- **C83.**  Every state of the simulation on the heap corresponds to a state of the simulation on values that is reached in as many steps: the
shared variables (counters, sums, result arrays) are the same, and the heap is the heap before the parallel region together with exactly the
blocks its threads own. -/
theorem sim_memory {k : Nat} {s : MSt α} {h : Heap (Block α)} (r : MReach A asg h0 k s h) :
    ∃ v, Reach A.cfg asg k v ∧ Rel A h0 s v h := by
  induction r with
  | start hs =>
    obtain ⟨f, h, ps, r, g, R, S⟩ := startAll_run A asg g0 A.cfg.T
    rw [hs] at r
    injection r with r; injection r with r1 r2; subst r1 r2
    exact ⟨_, .start, g, rfl, ps, R, S⟩
  | step _ ht hs ih =>
    obtain ⟨v, rv, R⟩ := ih
    have := step_rel A hes hb R ht
    revert this
    cases hv : tstep A.cfg _ v with
    | blocked =>
      rintro (h1 | h1)
      · rw [hs] at h1; cases h1
      · rw [hs] at h1; cases h1
    | ub => intro h1; rw [hs] at h1; cases h1
    | next v' =>
      rintro ⟨s', h', h1, R'⟩
      rw [hs] at h1
      injection h1 with h1; injection h1 with h1 h2; injection h1 with h1; subst h1 h2
      exact ⟨v', .step rv ht hv, R'⟩

/-- **C83.**  Conversely: everything the simulation on values can do, the simulation on the heap can do. -/
theorem sim_memory_complete {k : Nat} {v : St α} (r : Reach A.cfg asg k v) : ∃ s h, MReach A asg h0 k s h ∧ Rel A h0 s v h := by
  induction r with
  | start =>
    obtain ⟨f, h, ps, r, g, R, S⟩ := startAll_run A asg g0 A.cfg.T
    exact ⟨_, h, .start r, g, rfl, ps, R, S⟩
  | step _ ht hs ih =>
    obtain ⟨s, h, rm, R⟩ := ih
    have := step_rel A hes hb R ht
    rw [hs] at this
    obtain ⟨s', h', h1, R'⟩ := this
    exact ⟨s', h', .step rm ht h1, R'⟩

/-- **C83.**  When all threads have ended, everything they allocated has been released and nothing else has changed: the heap is what it was
before the parallel region. -/
theorem sim_leaves_nothing {k : Nat} {s : MSt α} {h : Heap (Block α)} (r : MReach A asg h0 k s h) (hf : s.finished A) :
    h.mem = h0.mem ∧ ∃ v, Reach A.cfg asg k v ∧ v.finished A.cfg ∧ s.sh = v.sh := by
  obtain ⟨v, rv, R⟩ := sim_memory A hes hb asg g0 r
  obtain ⟨g, hsh, ps, Rt, S⟩ := R
  have hd : ∀ t < A.cfg.T, (v.thr t).pc = .done := fun t ht => by
    have := hf t ht
    have P := (Rt t ht).pc
    revert this P
    generalize (s.thr t).pc = mp
    generalize (v.thr t).pc = vp
    intro h1 P
    cases P <;> simp [MPc.rank] at h1 <;> rfl
  refine ⟨?_, v, rv, hd, hsh⟩
  have e : (List.range A.cfg.T).flatMap ps = [] := by
    rw [List.flatMap_eq_nil_iff]
    intro t ht
    rw [List.mem_range] at ht
    rcases (Rt t ht).own with ⟨-, h1⟩ | ⟨w, gg, pe, pi, pet, pit, x, O, -⟩
    · exact h1
    · have := O.ph; rw [hd t ht] at this; exact this.elim
  rw [e] at S
  exact S.nil

/-- **C83.**  A thread on the heap does something undefined (use of a released or never assigned pointer, a second release, an access outside a
block) exactly where the simulation on values says so. -/
theorem sim_ub_iff (k t : Nat) (ht : t < A.cfg.T) :
    (∃ s h, MReach A asg h0 k s h ∧ (tstepM A t s).run h = .ub) ↔ ∃ v, Reach A.cfg asg k v ∧ tstep A.cfg t v = .ub := by
  constructor
  · rintro ⟨s, h, r, hu⟩
    obtain ⟨v, rv, R⟩ := sim_memory A hes hb asg g0 r
    refine ⟨v, rv, ?_⟩
    have := step_rel A hes hb R ht
    revert this
    cases tstep A.cfg t v with
    | ub => exact fun _ => rfl
    | blocked => rintro (h1 | h1) <;> rw [hu] at h1 <;> cases h1
    | next v' => rintro ⟨s', h', h1, -⟩; rw [hu] at h1; cases h1
  · rintro ⟨v, rv, hu⟩
    obtain ⟨s, h, r, R⟩ := sim_memory_complete A hes hb asg g0 rv
    have := step_rel A hes hb R ht
    rw [hu] at this
    exact ⟨s, h, r, this⟩

/-- **C83.**  The threads do not share heap memory: at any moment the blocks the simulation has allocated are divided among the threads that have
not ended; a block belongs to one thread only, and a step of a thread changes or releases only its own blocks and blocks that were free. -/
theorem sim_separate {k : Nat} {s : MSt α} {h : Heap (Block α)} (r : MReach A asg h0 k s h) : ∃ own : Nat → List Nat,
    (∀ a, h.mem a ≠ h0.mem a ↔ ∃ t < A.cfg.T, a ∈ own t) ∧ (∀ a, h.mem a ≠ h0.mem a → h0.mem a = none) ∧
    (∀ t < A.cfg.T, ∀ u < A.cfg.T, t ≠ u → ∀ a ∈ own t, a ∉ own u) ∧ (∀ t < A.cfg.T, (own t).Nodup) ∧
    (∀ t < A.cfg.T, own t = [] ↔ (s.thr t).pc.rank = 7) ∧
    (∀ t < A.cfg.T, (s.thr t).pc.rank ≠ 7 → ∃ w g, (s.thr t).weights = some w ∧ (s.thr t).rng = some g ∧ w ∈ own t ∧ g ∈ own t) ∧
    (∀ t < A.cfg.T, ∀ s' h', (tstepM A t s).run h = .ok (some s', h') → ∀ a, h'.mem a ≠ h.mem a → a ∈ own t ∨ h.mem a = none) := by
  obtain ⟨v, rv, R⟩ := sim_memory A hes hb asg g0 r
  obtain ⟨g, hsh, ps, Rt, S⟩ := R
  have hm : ∀ a, a ∈ feet ((List.range A.cfg.T).flatMap ps) ↔ ∃ t < A.cfg.T, a ∈ feet (ps t) := fun a => by
    simp only [feet, List.mem_flatMap, List.mem_range]
    constructor
    · rintro ⟨p, ⟨t, ht, hp⟩, ha⟩; exact ⟨t, ht, p, hp, ha⟩
    · rintro ⟨t, ht, p, hp, ha⟩; exact ⟨p, ⟨t, ht, hp⟩, ha⟩
  have ho : ∀ t < A.cfg.T, ∀ u < A.cfg.T, t ≠ u → ∀ a ∈ feet (ps u), a ∈ feet (others A.cfg.T t ps) := fun t ht u hu htu a ha => by
    obtain ⟨p, hp, ha⟩ := List.mem_flatMap.mp ha
    refine List.mem_flatMap.mpr ⟨p, List.mem_flatMap.mpr ⟨u, ?_, hp⟩, ha⟩
    exact (List.mem_erase_of_ne (Ne.symm htu)).mpr (List.mem_range.mpr hu)
  have hend : ∀ t < A.cfg.T, (s.thr t).pc.rank = 7 → ps t = [] := fun t ht h7 => by
    rcases (Rt t ht).own with ⟨-, h1⟩ | ⟨w, gg, pe, pi, pet, pit, x, O, -⟩
    · exact h1
    · have hO := O.ph
      have P := (Rt t ht).pc.rank
      rw [h7] at P
      revert P hO
      generalize (v.thr t).pc = vp
      cases vp <;> simp [Pc.rank, PhR]
  have hown : ∀ t < A.cfg.T, (s.thr t).pc.rank ≠ 7 → ∃ w g, (s.thr t).weights = some w ∧ (s.thr t).rng = some g ∧ w ∈ feet (ps t) ∧ g ∈ feet (ps t) :=
    fun t ht h7 => by
    rcases (Rt t ht).own with ⟨h1, -⟩ | ⟨w, gg, pe, pi, pet, pit, x, O, hp⟩
    · rw [(Rt t ht).pc.rank, h1] at h7
      exact absurd rfl h7
    · refine ⟨w, gg, O.w, O.g, ?_, ?_⟩ <;> rw [hp] <;> simp [ownsP, feet, blkP]
  refine ⟨fun t => feet (ps t), fun a => ⟨fun ha => ?_, fun ⟨t, ht, ha⟩ => ?_⟩, fun a ha => ?_, fun t ht u hu htu a ha hau => ?_, fun t ht => ?_, fun t ht => ⟨fun e => ?_, fun h7 => ?_⟩,
    hown, fun t ht s' h' hs a ha => ?_⟩
  · rw [← hm]; by_contra hn; exact ha (S.rest a hn)
  · have h1 := (hm a).mpr ⟨t, ht, ha⟩
    rw [S.new a h1]; exact S.live h1
  · refine S.new a ?_; by_contra hn; exact ha (S.rest a hn)
  · exact (S.perm (flatMap_focus ht ps)).disj' ha (ho t ht u hu htu a hau)
  · rw [List.nodup_iff_count_le_one]
    intro a
    have := (S.perm (flatMap_focus ht ps)).one a
    rw [feet_append, List.count_append] at this
    show (feet (ps t)).count a ≤ 1
    omega
  · by_contra h7
    obtain ⟨w, g, -, -, h1, -⟩ := hown t ht h7
    exact absurd (e ▸ h1 : w ∈ ([] : List Nat)) (by simp)
  · show feet (ps t) = []
    rw [hend t ht h7]; rfl
  · have P := step_relP A hes hb (ps := ps) ⟨g, hsh, Rt, S⟩ ht
    revert P
    cases tstep A.cfg t v with
    | ub => intro h1; rw [hs] at h1; cases h1
    | blocked => rintro (h1 | h1) <;> rw [hs] at h1 <;> cases h1
    | next v' =>
      rintro ⟨s2, h2, h1, p, R2, same⟩
      rw [hs] at h1
      injection h1 with h1; injection h1 with h1 e2; subst e2
      by_contra hc
      rw [not_or] at hc
      obtain ⟨h3, h4⟩ := hc
      have S2 := R2.sep.perm (flatMap_focus ht (upd1 ps t p))
      rw [others_upd] at S2
      by_cases h5 : a ∈ feet (others A.cfg.T t ps)
      · exact ha (same a h5)
      · have e1 : h.mem a = h0.mem a := (S.perm (flatMap_focus ht ps)).rest a (by rw [feet_append, List.mem_append, not_or]; exact ⟨h3, h5⟩)
        by_cases h6 : a ∈ feet (p ++ others A.cfg.T t ps)
        · have := S2.new a (by simpa [upd1] using h6)
          rw [e1, this] at h4
          exact h4 rfl
        · exact ha ((S2.rest a (by simpa [upd1] using h6)).trans e1.symm)

end

end Polycap.SMem
