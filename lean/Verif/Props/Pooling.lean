import Verif.Props.MorePhotons

/-!
# C111: a simulation with many threads is several simulations with one thread each, pooled

What a completed simulation reports is what the simulations report that one would get by giving each thread's random numbers and its number of photons to a
simulation with one thread, added up: photons started and transmitted, leak events, and (for exact real numbers) open area and efficiencies weighted with the number
of photons started.
-/
namespace Polycap
open CNum

namespace Pool
variable {α : Type} [CNum α]

/-- `r` is the report of a completed simulation of source `S` and optic `D` of `n` photons with one thread from the random stream `u` -/
def SingleThread (lib : Xray α) (S : Src α) (D : Descr α) (leak : Bool) (u : Nat → α) (n : Nat) (r : TE α) : Prop :=
  ∃ (a : SimArgs α) (omp : Int) (v : Nat → Nat → α) (fuel k : Nat) (asg : Nat → List Nat) (m : Nat) (s : St α),
    a.leak = leak ∧ threadsUsed a.maxThreads omp = 1 ∧ a.nPhotons.toNat = n ∧ v 0 = u ∧
    Distributes (simCfg lib S D a omp v fuel k) asg ∧ Reach (simCfg lib S D a omp v fuel k) asg m s ∧ s.finished (simCfg lib S D a omp v fuel k) ∧
    r = results (simCfg lib S D a omp v fuel k) S.energies s

theorem run_photons {D : Descr α} {g g' : Nat → Out (Attempt α × Nat)} (hg : ∀ p x y, g p = .ok x → g' p = .ok y → x = y) {js p H q}
    (h : ThreadRun D g js p H q) : ∀ {js' H' q'}, ThreadRun D g' js' p H' q' → js.length = js'.length → H.map Prod.snd = H'.map Prod.snd := by
  induction h with
  | nil p =>
    intro js' H' q' h' hl
    cases h' with
    | nil => rfl
    | cons => simp at hl
  | cons hs _ ih =>
    intro js' H' q' h' hl
    cases h' with
    | nil => simp at hl
    | cons hs2 hr2 =>
      obtain ⟨rfl, rfl⟩ := More.slot_same hg hs hs2
      rw [List.map_append, List.map_append, ih hr2 (by simpa using hl), List.map_map, List.map_map]
      rfl

omit [CNum α] in
theorem count_snd (f : Attempt α → Bool) (H : List (Nat × Attempt α)) : H.countP (fun x => f x.2) = (H.map Prod.snd).countP f := by
  rw [List.countP_map]; rfl

theorem ext_snd (D : Descr α) (ne : Nat) (H : List (Nat × Attempt α)) :
    extOf D ne H = (H.map Prod.snd).flatMap (fun a => if leaksCount D a then a.ph.ext.map (trunc ne) else []) := by
  rw [List.flatMap_map]; rfl

theorem int_snd (D : Descr α) (ne : Nat) (H : List (Nat × Attempt α)) :
    intOf D ne H = (H.map Prod.snd).flatMap (fun a => if leaksCount D a then a.ph.int.map (trunc ne) else []) := by
  rw [List.flatMap_map]; rfl

theorem exits_snd {β : Type} (D : Descr α) (f : Attempt α → β) (H : List (Nat × Attempt α)) :
    (exitsOf D H).map (fun x => f x.2) = ((H.map Prod.snd).filter (fun a => decide (simCode D a = 1))).map f := by
  unfold exitsOf
  rw [List.filter_map, List.map_map]
  rfl

/-- the thread's share of what the whole simulation reports -/
theorem piece {lib : Xray α} {S : Src α} {D : Descr α} {a : SimArgs α} {omp : Int} {u : Nat → Nat → α} {fuel k : Nat} {asg : Nat → List Nat} {m : Nat} {s : St α}
    (hr : Reach (simCfg lib S D a omp u fuel k) asg m s) (hf : s.finished (simCfg lib S D a omp u fuel k)) {t : Nat} (ht : t < (threadsUsed a.maxThreads omp).toNat)
    {r : TE α} (h : SingleThread lib S D a.leak (u t) (asg t).length r) :
    ∃ (C' : Cfg α) (asg' : Nat → List Nat) (m' : Nat) (s' : St α), C'.T = 1 ∧ C'.n = (asg t).length ∧ C'.ne = S.energies.length ∧ C'.D = D ∧ C'.leak = a.leak ∧
      (asg' 0).Perm (List.range (asg t).length) ∧ Distributes C' asg' ∧ Reach C' asg' m' s' ∧ s'.finished C' ∧ r = results C' S.energies s' ∧
      (s'.thr 0).hist.map Prod.snd = (s.thr t).hist.map Prod.snd ∧
      (∀ i j j' : Nat, (asg t)[i]? = some j → (asg' 0)[i]? = some j' → ∃ b, (j, b) ∈ (s.thr t).hist ∧ (j', b) ∈ (s'.thr 0).hist ∧ simCode D b = 1) := by
  obtain ⟨a', omp', v, fuel', k', asg', m', s', hl, hT, hn, hv, hd', hr', hf', he⟩ := h
  have hT1 : (simCfg lib S D a' omp' v fuel' k').T = 1 := by show (threadsUsed a'.maxThreads omp').toNat = 1; rw [hT]; rfl
  have hp0 : (asg' 0).Perm (List.range (asg t).length) := by
    have hd2 := hd'
    unfold Distributes at hd2
    rw [hT1, show (simCfg lib S D a' omp' v fuel' k').n = (asg t).length from hn] at hd2
    simpa using hd2
  have hg : ∀ p x y, (simCfg lib S D a omp u fuel k).att t p = .ok x → (simCfg lib S D a' omp' v fuel' k').att 0 p = .ok y → x = y := by
    intro p x y h1 h2
    have h2 : attempt lib S D a'.leak fuel' k' (v 0) p = .ok y := h2
    rw [hl, hv] at h2
    exact Upto.attempt_unique h1 h2
  obtain ⟨p, hp⟩ := (final_of_finished hr hf).runs t ht
  obtain ⟨p', hp'⟩ := (final_of_finished hr' hf').runs 0 (by rw [hT1]; exact Nat.one_pos)
  have hlen : (asg t).length = (asg' 0).length := by rw [hp0.length_eq, List.length_range]
  exact ⟨_, asg', m', s', hT1, hn, rfl, rfl, hl, hp0, hd', hr', hf', he, (run_photons hg hp hp' hlen).symm, fun i j j' h1 h2 => More.run_nth hg hp hp' i j j' h1 h2⟩

omit [CNum α] in
theorem one_hist {C : Cfg α} (hT : C.T = 1) (H : Nat → List (Nat × Attempt α)) : allHist C H = H 0 := by
  unfold allHist; rw [hT]; simp

/-- what a thread without photons to do leaves behind -/
theorem idle {C : Cfg α} {asg : Nat → List Nat} {m : Nat} {s : St α} (hr : Reach C asg m s) (hf : s.finished C) {t : Nat} (ht : t < C.T) (h : asg t = []) :
    (s.thr t).hist = [] := by
  obtain ⟨p, hp⟩ := (final_of_finished hr hf).runs t ht
  rw [h] at hp
  generalize (s.thr t).hist = H at hp
  cases hp
  rfl

omit [CNum α] in
theorem count_all {T : Nat} {H : Nat → List (Nat × Attempt α)} {f : Nat × Attempt α → Bool} {g : Nat → Nat} (h : ∀ t < T, (H t).countP f = g t) :
    ((List.range T).flatMap H).countP f = ((List.range T).map g).sum := by
  rw [List.countP_flatMap]
  congr 1
  exact List.map_congr_left fun t ht => h t (List.mem_range.1 ht)

/-- **C111.** -/
theorem pooled (lib : Xray α) (S : Src α) (D : Descr α) (a : SimArgs α) (omp : Int) (u : Nat → Nat → α) (fuel k : Nat) {asg : Nat → List Nat} {m : Nat} {s : St α}
    (hd : Distributes (simCfg lib S D a omp u fuel k) asg) (hr : Reach (simCfg lib S D a omp u fuel k) asg m s) (hf : s.finished (simCfg lib S D a omp u fuel k))
    (part : Nat → TE α)
    (hpart : ∀ t < (threadsUsed a.maxThreads omp).toNat, asg t ≠ [] → SingleThread lib S D a.leak (u t) (asg t).length (part t)) :
    let r := results (simCfg lib S D a omp u fuel k) S.energies s
    let total (f : TE α → Nat) := ((List.range (threadsUsed a.maxThreads omp).toNat).map fun t => if asg t = [] then 0 else f (part t)).sum
    r.iStart = total TE.iStart ∧ r.iExit = total TE.iExit ∧ r.iExt = total TE.iExt ∧ r.iInt = total TE.iInt ∧
    (∀ t < (threadsUsed a.maxThreads omp).toNat, ∀ j ∈ asg t, ∃ j' < (part t).iExit, r.start j ≠ none ∧ (part t).start j' = r.start j ∧ (part t).exit j' = r.exit j ∧
      ∀ l < S.energies.length, (part t).exitW (j' * S.energies.length + l) = r.exitW (j * S.energies.length + l)) := by
  set C := simCfg lib S D a omp u fuel k with hC
  have R := simulation_reports hd hr hf S.energies
  have hcount : ∀ c : Int, (allHist C (fun t => (s.thr t).hist)).countP (fun x => decide (x.2.code = c)) =
      ((List.range C.T).map fun t => ((s.thr t).hist.map Prod.snd).countP (fun a => decide (a.code = c))).sum :=
    fun c => count_all fun t _ => count_snd (fun a => decide (a.code = c)) _
  have hnsum : C.n = ((List.range C.T).map fun t => (asg t).length).sum := by
    have := hd.length_eq
    rw [List.length_flatMap, List.length_range] at this
    exact this.symm
  have hsum3 : ∀ (l : List Nat) (f g h : Nat → Nat), (l.map f).sum + (l.map g).sum + (l.map h).sum = (l.map fun t => f t + g t + h t).sum := by
    intro l f g h
    induction l with
    | nil => rfl
    | cons x l ih => simp only [List.map_cons, List.sum_cons]; omega
  refine ⟨?_, ?_, ?_, ?_, ?_⟩
  · rw [R.iStart, hcount, hcount, hnsum, hsum3]
    congr 1
    refine List.map_congr_left fun t ht => ?_
    have ht := List.mem_range.1 ht
    split_ifs with h0
    · rw [idle hr hf ht h0, h0]; rfl
    · obtain ⟨C', asg', m', s', c1, c2, c3, c4, c5, -, d', r', f', e, hh, -⟩ := piece hr hf ht (hpart t ht h0)
      rw [e, (simulation_reports d' r' f' S.energies).iStart, one_hist c1, c2, count_snd (fun a => decide (a.code = 2)), count_snd (fun a => decide (a.code = 0)), hh]
  · rw [R.iExit, hnsum]
    congr 1
    refine List.map_congr_left fun t ht => ?_
    have ht := List.mem_range.1 ht
    split_ifs with h0
    · rw [h0]; rfl
    · obtain ⟨C', asg', m', s', c1, c2, c3, c4, c5, -, d', r', f', e, hh, -⟩ := piece hr hf ht (hpart t ht h0)
      rw [e, (simulation_reports d' r' f' S.energies).iExit, c2]
  · obtain ⟨ls, hp, hw⟩ := R.ext
    rw [hw.len, hp.length_eq, show C.leak = a.leak from rfl]
    have : ∀ t < C.T, (if asg t = [] then 0 else (part t).iExt) = if a.leak = true then (extOf D C.ne (s.thr t).hist).length else 0 := by
      intro t ht
      by_cases h0 : asg t = []
      · rw [if_pos h0, idle hr hf ht h0]; simp [extOf]
      · obtain ⟨C', asg', m', s', c1, c2, c3, c4, c5, -, d', r', f', e, hh, -⟩ := piece hr hf ht (hpart t ht h0)
        obtain ⟨ls', hp', hw'⟩ := (simulation_reports d' r' f' S.energies).ext
        rw [if_neg h0, e, hw'.len, hp'.length_eq, c5, one_hist c1, c4, c3, ext_snd, ext_snd, hh, show C.ne = S.energies.length from rfl]
        split_ifs <;> rfl
    show _ = ((List.range C.T).map fun t => if asg t = [] then 0 else (part t).iExt).sum
    rw [List.map_congr_left fun t ht => this t (List.mem_range.1 ht)]
    split_ifs
    · rw [extOf_all, List.length_flatMap]; rfl
    · simp
  · obtain ⟨ls, hp, hw⟩ := R.int
    rw [hw.len, hp.length_eq, show C.leak = a.leak from rfl]
    have : ∀ t < C.T, (if asg t = [] then 0 else (part t).iInt) = if a.leak = true then (intOf D C.ne (s.thr t).hist).length else 0 := by
      intro t ht
      by_cases h0 : asg t = []
      · rw [if_pos h0, idle hr hf ht h0]; simp [intOf]
      · obtain ⟨C', asg', m', s', c1, c2, c3, c4, c5, -, d', r', f', e, hh, -⟩ := piece hr hf ht (hpart t ht h0)
        obtain ⟨ls', hp', hw'⟩ := (simulation_reports d' r' f' S.energies).int
        rw [if_neg h0, e, hw'.len, hp'.length_eq, c5, one_hist c1, c4, c3, int_snd, int_snd, hh, show C.ne = S.energies.length from rfl]
        split_ifs <;> rfl
    show _ = ((List.range C.T).map fun t => if asg t = [] then 0 else (part t).iInt).sum
    rw [List.map_congr_left fun t ht => this t (List.mem_range.1 ht)]
    split_ifs
    · rw [intOf_all, List.length_flatMap]; rfl
    · simp
  · intro t ht j hj
    have h0 : asg t ≠ [] := List.ne_nil_of_mem hj
    obtain ⟨C', asg', m', s', c1, c2, c3, c4, c5, pm, d', r', f', e, hh, hs⟩ := piece hr hf ht (hpart t ht h0)
    obtain ⟨i, hi⟩ := List.mem_iff_getElem?.1 hj
    have hil : i < (asg' 0).length := by
      rw [pm.length_eq, List.length_range]
      exact (List.getElem?_eq_some_iff.1 hi).1
    have hj' : (asg' 0)[i]? = some (asg' 0)[i] := List.getElem?_eq_getElem hil
    have hlt : (asg' 0)[i] < C'.n := by rw [c2]; exact List.mem_range.1 (pm.mem_iff.1 (List.getElem_mem hil))
    obtain ⟨b, b1, b2, b3⟩ := hs i j _ hi hj'
    have R' := simulation_reports d' r' f' S.energies
    have hm : (j, b) ∈ allHist C (fun t => (s.thr t).hist) := List.mem_flatMap.2 ⟨t, List.mem_range.2 ht, b1⟩
    obtain ⟨x, -, -, x3, x4, x5, -, x6⟩ := R.slot j (asg_lt hd ht hj)
    obtain ⟨y, -, -, y3, y4, y5, -, y6⟩ := R'.slot _ hlt
    rw [one_hist c1] at y3
    obtain rfl := x3 b hm b3
    obtain rfl := y3 b b2 (by rw [c4]; exact b3)
    refine ⟨(asg' 0)[i], by rw [e, R'.iExit]; exact hlt, by rw [x4]; simp, by rw [e, x4, y4], ?_, ?_⟩
    · rw [e, x5, y5]
      have : C'.D.prof = C.D.prof := by rw [c4]; rfl
      rw [this]
    · intro l hl
      rw [e]
      have h1 := y6 l (by rw [c3]; exact hl)
      have h2 := x6 l hl
      rw [c3] at h1
      exact h1.trans h2.symm

/-! ## Leak events -/

/-- the `i`-th leak event of a report: record and weights -/
def event (ne : Nat) (L : Nat → Option (LeakRec α)) (W : Nat → Option α) (i : Nat) : Option (LeakRec α) × List (Option α) :=
  (L i, (List.range ne).map fun l => W (i * ne + l))

/-- the leak events of a report through the wall of the optic -/
def extEvents (ne : Nat) (r : TE α) : List (Option (LeakRec α) × List (Option α)) := (List.range r.iExt).map (event ne r.extL r.extW)

/-- the leak events of a report into another capillary -/
def intEvents (ne : Nat) (r : TE α) : List (Option (LeakRec α) × List (Option α)) := (List.range r.iInt).map (event ne r.intL r.intW)

omit [CNum α] in
theorem events_eq {ne N : Nat} {L : Nat → Option (LeakRec α)} {W : Nat → Option α} {rec : Leak α → LeakRec α} {ls : List (Leak α)} (h : Written ne N L W rec ls) :
    (List.range N).map (event ne L W) = ls.map fun x => (some (rec x), (List.range ne).map fun l => (x.weight.take ne)[l]?) := by
  refine List.ext_getElem (by simp [h.len]) fun i h1 h2 => ?_
  have hi : i < ls.length := by simpa using h2
  simp only [List.getElem_map, List.getElem_range]
  unfold event
  rw [h.recs i, List.getElem?_eq_getElem hi]
  congr 1
  exact List.map_congr_left fun l hl => h.rows i l hi (List.mem_range.1 hl)

/-- **C111.** The leak events reported are, in some order, those reported by the parts. -/
theorem pooled_leaks (lib : Xray α) (S : Src α) (D : Descr α) (a : SimArgs α) (omp : Int) (u : Nat → Nat → α) (fuel k : Nat) {asg : Nat → List Nat} {m : Nat} {s : St α}
    (hd : Distributes (simCfg lib S D a omp u fuel k) asg) (hr : Reach (simCfg lib S D a omp u fuel k) asg m s) (hf : s.finished (simCfg lib S D a omp u fuel k))
    (part : Nat → TE α)
    (hpart : ∀ t < (threadsUsed a.maxThreads omp).toNat, asg t ≠ [] → SingleThread lib S D a.leak (u t) (asg t).length (part t)) :
    let r := results (simCfg lib S D a omp u fuel k) S.energies s
    let ne := S.energies.length
    (extEvents ne r).Perm ((List.range (threadsUsed a.maxThreads omp).toNat).flatMap fun t => if asg t = [] then [] else extEvents ne (part t)) ∧
    (intEvents ne r).Perm ((List.range (threadsUsed a.maxThreads omp).toNat).flatMap fun t => if asg t = [] then [] else intEvents ne (part t)) := by
  set C := simCfg lib S D a omp u fuel k with hC
  have R := simulation_reports hd hr hf S.energies
  constructor
  · obtain ⟨ls, hp, hw⟩ := R.ext
    replace hw : Written S.energies.length _ _ _ extRec ls := hw
    show (List.Perm ((List.range _).map _) _)
    rw [events_eq hw]
    refine (hp.map _).trans ?_
    have hpt : ∀ t < C.T, ((if a.leak = true then extOf D C.ne (s.thr t).hist else []).map fun x : Leak α => (some (extRec x), (List.range C.ne).map fun l => (x.weight.take C.ne)[l]?)).Perm
        (if asg t = [] then [] else extEvents S.energies.length (part t)) := by
      intro t ht
      by_cases h0 : asg t = []
      · rw [if_pos h0, idle hr hf ht h0]; simp [extOf]
      · obtain ⟨C', asg', m', s', c1, c2, c3, c4, c5, -, d', r', f', e, hh, -⟩ := piece hr hf ht (hpart t ht h0)
        obtain ⟨ls', hp', hw'⟩ := (simulation_reports d' r' f' S.energies).ext
        rw [if_neg h0, e]
        unfold extEvents
        rw [c3] at hw' hp'
        rw [events_eq hw']
        refine List.Perm.trans (List.Perm.of_eq ?_) (hp'.map _).symm
        rw [c5, one_hist c1, c4, ext_snd, ext_snd, hh]
        rfl
    rw [extOf_all]
    have : (if C.leak = true then (List.range C.T).flatMap (fun t => extOf C.D C.ne (s.thr t).hist) else []) =
        (List.range C.T).flatMap fun t => if a.leak = true then extOf D C.ne (s.thr t).hist else [] := by
      show (if a.leak = true then _ else _) = _
      split_ifs
      · rfl
      · simp
    rw [this, List.map_flatMap]
    exact List.Perm.flatMap_left _ fun t ht => hpt t (List.mem_range.1 ht)
  · obtain ⟨ls, hp, hw⟩ := R.int
    replace hw : Written S.energies.length _ _ _ intRec ls := hw
    show (List.Perm ((List.range _).map _) _)
    rw [events_eq hw]
    refine (hp.map _).trans ?_
    have hpt : ∀ t < C.T, ((if a.leak = true then intOf D C.ne (s.thr t).hist else []).map fun x : Leak α => (some (intRec x), (List.range C.ne).map fun l => (x.weight.take C.ne)[l]?)).Perm
        (if asg t = [] then [] else intEvents S.energies.length (part t)) := by
      intro t ht
      by_cases h0 : asg t = []
      · rw [if_pos h0, idle hr hf ht h0]; simp [intOf]
      · obtain ⟨C', asg', m', s', c1, c2, c3, c4, c5, -, d', r', f', e, hh, -⟩ := piece hr hf ht (hpart t ht h0)
        obtain ⟨ls', hp', hw'⟩ := (simulation_reports d' r' f' S.energies).int
        rw [if_neg h0, e]
        unfold intEvents
        rw [c3] at hw' hp'
        rw [events_eq hw']
        refine List.Perm.trans (List.Perm.of_eq ?_) (hp'.map _).symm
        rw [c5, one_hist c1, c4, int_snd, int_snd, hh]
        rfl
    rw [intOf_all]
    have : (if C.leak = true then (List.range C.T).flatMap (fun t => intOf C.D C.ne (s.thr t).hist) else []) =
        (List.range C.T).flatMap fun t => if a.leak = true then intOf D C.ne (s.thr t).hist else [] := by
      show (if a.leak = true then _ else _) = _
      split_ifs
      · rfl
      · simp
    rw [this, List.map_flatMap]
    exact List.Perm.flatMap_left _ fun t ht => hpt t (List.mem_range.1 ht)

/-! ## Open area and efficiencies -/

theorem eff_sum {C : Cfg ℝ} {asg : Nat → List Nat} (hd : Distributes C asg) (hn : 1 ≤ C.n) {k : Nat} {s : St ℝ} (hr : Reach C asg k s) (hf : s.finished C)
    (es : List ℝ) {l : Nat} (hl : l < C.ne) :
    (results C es s).effs.getD l 0 * (results C es s).iStart =
      ((exitsOf C.D (allHist C (fun t => (s.thr t).hist))).map (fun x => (wtsOf C.ne x.2).getD l 0)).sum := by
  have R := simulation_reports hd hr hf es
  rw [(efficiencies_formula hd hn hr hf es).2 l hl]
  have h1 : (0:ℝ) < ((results C es s).iStart : ℝ) := by
    have : 0 < (results C es s).iStart := by rw [R.iStart]; omega
    exact_mod_cast this
  rw [div_mul_cancel₀ _ h1.ne', ← (R.slots.map (fun j => ((results C es s).exitW (j * C.ne + l)).getD 0)).sum_eq, List.map_map]
  congr 1
  refine List.map_congr_left (fun x hx => ?_)
  have hx1 : x.1 < C.n := List.mem_range.1 (R.slots.mem_iff.1 (List.mem_map.2 ⟨x, hx, rfl⟩))
  obtain ⟨a, a1, a2, a3, a4, a5, a6, a7⟩ := R.slot x.1 hx1
  have hxa : x.2 = a := a3 x.2 (List.mem_filter.1 hx).1 (by simpa using (List.mem_filter.1 hx).2)
  simp only [Function.comp_apply]
  rw [a7 l hl, hxa, List.getD_eq_getElem?_getD]

theorem area_sum {C : Cfg ℝ} {asg : Nat → List Nat} (hd : Distributes C asg) (hn : 1 ≤ C.n) {k : Nat} {s : St ℝ} (hr : Reach C asg k s) (hf : s.finished C)
    (es : List ℝ) :
    (results C es s).openArea * (results C es s).iStart =
      ((C.n + (allHist C (fun t => (s.thr t).hist)).countP (fun x => decide (x.2.code = 0)) : Nat) : ℝ) := by
  have R := simulation_reports hd hr hf es
  have h1 : (0:ℝ) < ((results C es s).iStart : ℝ) := by
    have : 0 < (results C es s).iStart := by rw [R.iStart]; omega
    exact_mod_cast this
  rw [R.openArea]
  simp only [real_div, real_ofInt, Int.cast_natCast]
  exact div_mul_cancel₀ _ h1.ne'

theorem exits_sum (D : Descr ℝ) (T : Nat) (H : Nat → List (Nat × Attempt ℝ)) (f : Attempt ℝ → ℝ) :
    ((((List.range T).flatMap H).filter (fun x => decide (simCode D x.2 = 1))).map (fun x => f x.2)).sum =
      ((List.range T).map fun t => ((exitsOf D (H t)).map (fun x => f x.2)).sum).sum := by
  rw [List.filter_flatMap, List.map_flatMap]
  unfold exitsOf
  induction List.range T with
  | nil => rfl
  | cons t l ih => simp only [List.flatMap_cons, List.sum_append, List.map_cons, List.sum_cons, ih]

/-- **C111.** Open area and efficiencies (exact real numbers): the means of the parts, weighted with the numbers of photons started. -/
theorem pooled_efficiencies (lib : Xray ℝ) (S : Src ℝ) (D : Descr ℝ) (a : SimArgs ℝ) (hn : 1 ≤ a.nPhotons) (omp : Int) (u : Nat → Nat → ℝ) (fuel k : Nat)
    {asg : Nat → List Nat} {m : Nat} {s : St ℝ}
    (hd : Distributes (simCfg lib S D a omp u fuel k) asg) (hr : Reach (simCfg lib S D a omp u fuel k) asg m s) (hf : s.finished (simCfg lib S D a omp u fuel k))
    (part : Nat → TE ℝ)
    (hpart : ∀ t < (threadsUsed a.maxThreads omp).toNat, asg t ≠ [] → SingleThread lib S D a.leak (u t) (asg t).length (part t)) :
    let r := results (simCfg lib S D a omp u fuel k) S.energies s
    let total (f : TE ℝ → ℝ) := ((List.range (threadsUsed a.maxThreads omp).toNat).map fun t => if asg t = [] then 0 else f (part t) * (part t).iStart).sum
    (1:ℝ) ≤ r.iStart ∧ r.openArea * r.iStart = total TE.openArea ∧
      ∀ l < S.energies.length, r.effs.getD l 0 * r.iStart = total (fun p => p.effs.getD l 0) := by
  set C := simCfg lib S D a omp u fuel k with hC
  have hn' : 1 ≤ C.n := by show 1 ≤ a.nPhotons.toNat; omega
  have R := simulation_reports hd hr hf S.energies
  have hnsum : C.n = ((List.range C.T).map fun t => (asg t).length).sum := by
    have := hd.length_eq
    rw [List.length_flatMap, List.length_range] at this
    exact this.symm
  refine ⟨?_, ?_, ?_⟩
  · have : 1 ≤ (results C S.energies s).iStart := by rw [R.iStart]; omega
    exact_mod_cast this
  · have hcount : (allHist C (fun t => (s.thr t).hist)).countP (fun x => decide (x.2.code = 0)) =
        ((List.range C.T).map fun t => ((s.thr t).hist.map Prod.snd).countP (fun a => decide (a.code = 0))).sum :=
      count_all fun t _ => count_snd (fun a => decide (a.code = 0)) _
    have h2 : ∀ (l : List Nat) (f g : Nat → Nat), (((l.map f).sum + (l.map g).sum : Nat) : ℝ) = (l.map fun t => ((f t + g t : Nat) : ℝ)).sum := by
      intro l f g
      induction l with
      | nil => simp
      | cons x l ih => simp only [List.map_cons, List.sum_cons]; rw [← ih]; push_cast; ring
    rw [area_sum hd hn' hr hf, hcount, hnsum, h2]
    congr 1
    refine List.map_congr_left fun t ht => ?_
    have ht := List.mem_range.1 ht
    split_ifs with h0
    · rw [idle hr hf ht h0, h0]; simp
    · obtain ⟨C', asg', m', s', c1, c2, c3, c4, c5, -, d', r', f', e, hh, -⟩ := piece hr hf ht (hpart t ht h0)
      rw [e, area_sum d' (by rw [c2]; exact List.length_pos_iff.2 h0) r' f', one_hist c1, c2, count_snd (fun a => decide (a.code = 0)), hh]
  · intro l hl
    rw [eff_sum hd hn' hr hf _ (show l < C.ne from hl)]
    unfold allHist
    rw [exitsOf, exits_sum C.D C.T _ (fun a => (wtsOf C.ne a).getD l 0)]
    show _ = ((List.range C.T).map fun t => if asg t = [] then 0 else (part t).effs.getD l 0 * (part t).iStart).sum
    congr 1
    refine List.map_congr_left fun t ht => ?_
    have ht := List.mem_range.1 ht
    split_ifs with h0
    · rw [idle hr hf ht h0]; rfl
    · obtain ⟨C', asg', m', s', c1, c2, c3, c4, c5, -, d', r', f', e, hh, -⟩ := piece hr hf ht (hpart t ht h0)
      rw [e, eff_sum d' (by rw [c2]; exact List.length_pos_iff.2 h0) r' f' _ (by rw [c3]; exact hl), one_hist c1, c3,
        exits_snd C'.D (fun a => (wtsOf S.energies.length a).getD l 0), hh, c4]
      exact congrArg List.sum (exits_snd D (fun a => (wtsOf S.energies.length a).getD l 0) _)

/-! ## A concrete case: two threads, one with a photon, one with two -/

noncomputable def pArgs : SimArgs ℝ := ⟨some (zSrc, some zD), false, 2, 3, false, false⟩

theorem p_single (n : Nat) (h1 : 1 ≤ n) (hn : n ≤ 21474837) : ∃ r, SingleThread zLib zSrc zD false More.mU n r := by
  obtain ⟨d, k, s, h, f⟩ := More.m_completes n h1 hn
  exact ⟨_, More.mArgs n, 1, fun _ => More.mU, 1, 1, _, k, s, rfl, rfl, by simp [More.mArgs], rfl, d, h, f, rfl⟩

def pAsg (t : Nat) : List Nat := if t = 0 then [1] else if t = 1 then [0, 2] else []

/-- the hypotheses of both theorems are met by a simulation of three photons with two threads -/
example : ∃ (m : Nat) (s : St ℝ) (part : Nat → TE ℝ), Distributes (simCfg zLib zSrc zD pArgs 2 (fun _ => More.mU) 1 1) pAsg ∧
    Reach (simCfg zLib zSrc zD pArgs 2 (fun _ => More.mU) 1 1) pAsg m s ∧ s.finished (simCfg zLib zSrc zD pArgs 2 (fun _ => More.mU) 1 1) ∧
    (∀ t < (threadsUsed pArgs.maxThreads 2).toNat, pAsg t ≠ [] → SingleThread zLib zSrc zD pArgs.leak More.mU (pAsg t).length (part t)) ∧
    (results (simCfg zLib zSrc zD pArgs 2 (fun _ => More.mU) 1 1) [10] s).iStart = (part 0).iStart + (part 1).iStart := by
  have hd : Distributes (simCfg zLib zSrc zD pArgs 2 (fun _ => More.mU) 1 1) pAsg := by
    unfold Distributes
    show ((List.range 2).flatMap pAsg).Perm (List.range 3)
    decide
  have ho := simulation_safe_noleak zLib zSrc zD z_setup pArgs rfl 2 (fun _ => More.mU) (fun _ i => ⟨(More.mU_unit i).1, (More.mU_unit i).2.le⟩) 1 0
    pAsg hd (by decide : 0 < (threadsUsed 2 2).toNat) (harmless_single (by simp [pAsg]))
  obtain ⟨m, s, hr, hf⟩ := (simulation_finishes_iff hd ho).2 fun t _ => More.m_run _ 0 rfl
  obtain ⟨r0, h0⟩ := p_single 1 le_rfl (by norm_num)
  obtain ⟨r1, h1⟩ := p_single 2 (by norm_num) (by norm_num)
  have hp : ∀ t < (threadsUsed pArgs.maxThreads 2).toNat, pAsg t ≠ [] →
      SingleThread zLib zSrc zD pArgs.leak More.mU (pAsg t).length ((fun t => if t = 0 then r0 else r1) t) := by
    intro t ht _
    have : t < 2 := ht
    interval_cases t
    · exact h0
    · exact h1
  refine ⟨m, s, _, hd, hr, hf, hp, ?_⟩
  have := (pooled zLib zSrc zD pArgs 2 (fun _ => More.mU) 1 1 hd hr hf _ hp).1
  rw [show (threadsUsed pArgs.maxThreads 2).toNat = 2 from rfl] at this
  simp [List.range_succ, pAsg] at this
  exact this

end Pool
end Polycap
