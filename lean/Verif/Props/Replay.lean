import Verif.Props.Pooling

/-!
# C112: a simulation can be repeated photon by photon

`userLoop` is what a user of the library can write: get a photon from the source, launch it, repeat.  A completed simulation reports what these loops, one for each
thread's random numbers, find.
-/
namespace Polycap
open CNum

namespace Replay
variable {α : Type} [CNum α]

/-- `n` times `polycap_source_get_photon` and `polycap_photon_launch` with a generator with the random numbers `u`, from position `p`: return codes, source positions,
launched photons and weights, and the position of the generator afterwards -/
def userLoop (lib : Xray α) (S : Src α) (D : Descr α) (leak : Bool) (fuel k : Nat) (u : Nat → α) : Nat → Nat → Out (List (Attempt α) × Nat)
  | 0, p => .ok ([], p)
  | n + 1, p => do
    let x ← getPhoton S D u fuel p
    let y ← launch lib (some D) leak fuel k (some x.1.photon) (some S.energies) true
    match y with
    | (c, w, some P) => do
      let r ← userLoop lib S D leak fuel k u n x.2
      .ok (⟨c, x.1.src, P, w⟩ :: r.1, r.2)
    | (_, _, none) => .ub

theorem loop_cons {lib : Xray α} {S : Src α} {D : Descr α} {leak : Bool} {fuel k : Nat} {u : Nat → α} {p p' q n : Nat} {a : Attempt α} {l : List (Attempt α)}
    (h : attempt lib S D leak fuel k u p = .ok (a, p')) (hl : userLoop lib S D leak fuel k u n p' = .ok (l, q)) :
    userLoop lib S D leak fuel k u (n + 1) p = .ok (a :: l, q) := by
  unfold attempt at h
  obtain ⟨x, hx, h⟩ := Out.bind_eq_ok.1 h
  obtain ⟨⟨c, w, P⟩, hy, h⟩ := Out.bind_eq_ok.1 h
  unfold userLoop
  rw [hx, Out.bind_ok, hy, Out.bind_ok]
  cases P with
  | none => simp at h
  | some P =>
    simp only [Out.ok.injEq, Prod.mk.injEq] at h
    obtain ⟨rfl, rfl⟩ := h
    simp only
    rw [hl]
    rfl

theorem loop_slot {lib : Xray α} {S : Src α} {D : Descr α} {leak : Bool} {fuel k : Nat} {u : Nat → α} {p p' : Nat} {l : List (Attempt α)}
    (h : SlotRun D (attempt lib S D leak fuel k u) p l p') {n q : Nat} {l' : List (Attempt α)} (hl : userLoop lib S D leak fuel k u n p' = .ok (l', q)) :
    userLoop lib S D leak fuel k u (l.length + n) p = .ok (l ++ l', q) := by
  induction h with
  | last h _ =>
    rw [show [_].length + n = n + 1 by simp [Nat.add_comm]]
    exact loop_cons h hl
  | @retry p a p1 l p2 h _ _ ih =>
    rw [show (a :: l).length + n = l.length + n + 1 by simp; omega]
    exact loop_cons h (ih hl)

theorem loop_thread {lib : Xray α} {S : Src α} {D : Descr α} {leak : Bool} {fuel k : Nat} {u : Nat → α} {js : List Nat} {p q : Nat} {H : List (Nat × Attempt α)}
    (h : ThreadRun D (attempt lib S D leak fuel k u) js p H q) : userLoop lib S D leak fuel k u H.length p = .ok (H.map Prod.snd, q) := by
  induction h with
  | nil p => rfl
  | cons hs _ ih =>
    have := loop_slot hs ih
    rw [List.length_append, List.length_map, List.map_append, List.map_map]
    simpa using this

theorem slot_filter {D : Descr α} {g : Nat → Out (Attempt α × Nat)} {p l p'} (h : SlotRun D g p l p') (j : Nat) :
    ∃ a, (l.map (fun a => (j, a))).filter (fun x => decide (simCode D x.2 = 1)) = [(j, a)] := by
  induction h with
  | @last p a p' h hc => exact ⟨a, by simp [hc]⟩
  | @retry p a p1 l p2 h hc _ ih =>
    obtain ⟨b, hb⟩ := ih
    exact ⟨b, by rw [List.map_cons, List.filter_cons_of_neg (by simp [hc])]; exact hb⟩

/-- the exits of a thread are those of its slots, in their order -/
theorem exits_slots {D : Descr α} {g : Nat → Out (Attempt α × Nat)} {js p H q} (h : ThreadRun D g js p H q) : (exitsOf D H).map Prod.fst = js := by
  induction h with
  | nil p => rfl
  | @cons j js p l p1 h p2 hs _ ih =>
    obtain ⟨a, ha⟩ := slot_filter hs j
    unfold exitsOf at ih ⊢
    rw [List.filter_append, ha, List.map_append, ih]
    rfl

theorem count_split (D : Descr α) (l : List (Attempt α)) : l.countP (fun b => decide (simCode D b = 1 ∨ b.code = 0 ∨ b.code = 2)) =
    l.countP (fun b => decide (simCode D b = 1)) + l.countP (fun b => decide (b.code = 2)) + l.countP (fun b => decide (b.code = 0)) := by
  induction l with
  | nil => rfl
  | cons b l ih =>
    have h1 : simCode D b = 1 → b.code = 1 := by
      intro h
      by_contra hc
      unfold simCode at h
      rw [if_neg hc] at h
      exact hc h
    rw [List.countP_cons, List.countP_cons, List.countP_cons, List.countP_cons, ih]
    simp only [decide_eq_true_eq]
    by_cases c1 : simCode D b = 1
    · have := h1 c1
      simp [c1, this]; omega
    · by_cases c2 : b.code = 2
      · simp [c1, c2]; omega
      · by_cases c0 : b.code = 0
        · simp [c1, c0]; omega
        · simp [c1, c0, c2]

/-- the leak events of one kind of the photons found that count: those that were transmitted, not transmitted or on the glass -/
def leaksOf (D : Descr α) (ne : Nat) (kind : Photon α → List (Leak α)) (l : List (Attempt α)) : List (Leak α) :=
  l.flatMap fun b => if leaksCount D b then (kind b.ph).map (trunc ne) else []

/-- **C112.** For every thread there is a number of rounds of the user's loop with the thread's random numbers that finds `found t`; the `i`-th photon found that
leaves through the exit window is the one reported in the `i`-th slot given to the thread, there are no others, the numbers of photons
are those found, and the leak events reported are those of the photons found that count. -/
theorem reproduced (lib : Xray α) (S : Src α) (D : Descr α) (a : SimArgs α) (omp : Int) (u : Nat → Nat → α) (fuel k : Nat) {asg : Nat → List Nat} {m : Nat} {s : St α}
    (hd : Distributes (simCfg lib S D a omp u fuel k) asg) (hr : Reach (simCfg lib S D a omp u fuel k) asg m s) (hf : s.finished (simCfg lib S D a omp u fuel k)) :
    let r := results (simCfg lib S D a omp u fuel k) S.energies s
    let T := (threadsUsed a.maxThreads omp).toNat
    ∃ found : Nat → List (Attempt α),
      (∀ t < T, ∃ q, userLoop lib S D a.leak fuel k (u t) (found t).length 0 = .ok (found t, q)) ∧
      (∀ t < T, ((found t).filter (fun b => decide (simCode D b = 1))).length = (asg t).length) ∧
      (∀ t < T, ∀ i j : Nat, (asg t)[i]? = some j → ∃ b, ((found t).filter (fun b => decide (simCode D b = 1)))[i]? = some b ∧
        r.start j = some (startRec b) ∧ r.exit j = some (exitRec D.prof b.ph) ∧
        ∀ l < S.energies.length, r.exitW (j * S.energies.length + l) = (wtsOf S.energies.length b)[l]?) ∧
      r.iExit = ((List.range T).map fun t => (found t).countP (fun b => decide (simCode D b = 1))).sum ∧
      r.iStart = ((List.range T).map fun t => (found t).countP (fun b => decide (simCode D b = 1 ∨ b.code = 0 ∨ b.code = 2))).sum ∧
      (∃ ls, ls.Perm (if a.leak then (List.range T).flatMap fun t => leaksOf D S.energies.length (fun P => P.ext) (found t) else []) ∧
        Written S.energies.length r.iExt r.extL r.extW extRec ls) ∧
      (∃ ls, ls.Perm (if a.leak then (List.range T).flatMap fun t => leaksOf D S.energies.length (fun P => P.int) (found t) else []) ∧
        Written S.energies.length r.iInt r.intL r.intW intRec ls) := by
  intro r T
  set C := simCfg lib S D a omp u fuel k with hC
  have R := simulation_reports hd hr hf S.energies
  have hrun : ∀ t < T, ∃ p, ThreadRun D (attempt lib S D a.leak fuel k (u t)) (asg t) 0 (s.thr t).hist p := (final_of_finished hr hf).runs
  have hfil : ∀ t, (((s.thr t).hist.map Prod.snd).filter (fun b => decide (simCode D b = 1))) = (exitsOf D (s.thr t).hist).map Prod.snd := by
    intro t
    have := Pool.exits_snd D id (s.thr t).hist
    simp only [List.map_id, id] at this
    exact this.symm
  have hlen : ∀ t < T, (exitsOf D (s.thr t).hist).length = (asg t).length := by
    intro t ht
    obtain ⟨p, hp⟩ := hrun t ht
    rw [← exits_slots hp, List.length_map]
  have hc1 : ∀ t < T, ((s.thr t).hist.map Prod.snd).countP (fun b => decide (simCode D b = 1)) = (asg t).length := by
    intro t ht
    rw [List.countP_eq_length_filter, hfil, List.length_map, hlen t ht]
  have hcount : ∀ c : Int, (allHist C (fun t => (s.thr t).hist)).countP (fun x => decide (x.2.code = c)) =
      ((List.range T).map fun t => ((s.thr t).hist.map Prod.snd).countP (fun a => decide (a.code = c))).sum :=
    fun c => Pool.count_all fun t _ => Pool.count_snd (fun a => decide (a.code = c)) _
  have hnsum : C.n = ((List.range T).map fun t => (asg t).length).sum := by
    have := hd.length_eq
    rw [List.length_flatMap, List.length_range] at this
    exact this.symm
  have hnsum' : C.n = ((List.range T).map fun t => ((s.thr t).hist.map Prod.snd).countP (fun b => decide (simCode D b = 1))).sum := by
    rw [hnsum]
    exact congrArg List.sum (List.map_congr_left fun t ht => (hc1 t (List.mem_range.1 ht)).symm)
  refine ⟨fun t => (s.thr t).hist.map Prod.snd, ?_, ?_, ?_, ?_, ?_, ?_, ?_⟩
  · intro t ht
    obtain ⟨p, hp⟩ := hrun t ht
    exact ⟨p, by rw [List.length_map]; exact loop_thread hp⟩
  · intro t ht
    show (((s.thr t).hist.map Prod.snd).filter (fun b => decide (simCode D b = 1))).length = _
    rw [hfil, List.length_map, hlen t ht]
  · intro t ht i j hj
    obtain ⟨p, hp⟩ := hrun t ht
    have hi : i < (exitsOf D (s.thr t).hist).length := by rw [hlen t ht]; exact (List.getElem?_eq_some_iff.1 hj).1
    set x := (exitsOf D (s.thr t).hist)[i] with hx
    have hxj : x.1 = j := by
      have h1 : ((exitsOf D (s.thr t).hist).map Prod.fst)[i]? = some j := by rw [exits_slots hp]; exact hj
      rw [List.getElem?_map, List.getElem?_eq_getElem hi] at h1
      simpa using h1
    have hxm : x ∈ exitsOf D (s.thr t).hist := List.getElem_mem hi
    have hx1 : simCode D x.2 = 1 := by simpa using (List.mem_filter.1 hxm).2
    have hm : (j, x.2) ∈ allHist C (fun t => (s.thr t).hist) := by
      rw [← hxj]
      exact List.mem_flatMap.2 ⟨t, List.mem_range.2 ht, (List.mem_filter.1 hxm).1⟩
    obtain ⟨y, -, -, y3, y4, y5, -, y6⟩ := R.slot j (asg_lt hd ht (List.mem_of_getElem? hj))
    obtain rfl := y3 x.2 hm hx1
    refine ⟨x.2, ?_, y4, y5, y6⟩
    show (((s.thr t).hist.map Prod.snd).filter (fun b => decide (simCode D b = 1)))[i]? = _
    rw [hfil, List.getElem?_map, List.getElem?_eq_getElem hi]
    rfl
  · show (results C S.energies s).iExit = _
    rw [R.iExit]
    exact hnsum'
  · have hsum3 : ∀ (l : List Nat) (f g h : Nat → Nat), (l.map f).sum + (l.map g).sum + (l.map h).sum = (l.map fun t => f t + g t + h t).sum := by
      intro l f g h
      induction l with
      | nil => rfl
      | cons x l ih => simp only [List.map_cons, List.sum_cons]; omega
    show (results C S.energies s).iStart = _
    rw [R.iStart, hcount, hcount, hnsum', hsum3]
    exact congrArg List.sum (List.map_congr_left fun t _ => (count_split D _).symm)
  · obtain ⟨ls, hp, hw⟩ := R.ext
    rw [extOf_all] at hp
    simp only [Pool.ext_snd] at hp
    exact ⟨ls, hp, hw⟩
  · obtain ⟨ls, hp, hw⟩ := R.int
    rw [intOf_all] at hp
    simp only [Pool.int_snd] at hp
    exact ⟨ls, hp, hw⟩

/-- the hypotheses are met, for every number of photons up to the one at which a progress report overflows -/
example (n : Nat) (h1 : 1 ≤ n) (hn : n ≤ 21474837) : ∃ (s : St ℝ) (found : List (Attempt ℝ)) (q : Nat),
    userLoop zLib zSrc zD false 1 1 More.mU found.length 0 = .ok (found, q) ∧ (found.filter (fun b => decide (simCode zD b = 1))).length = n ∧
    (results (simCfg zLib zSrc zD (More.mArgs n) 1 (fun _ => More.mU) 1 1) [10] s).iExit = n := by
  obtain ⟨d, k, s, h, f⟩ := More.m_completes n h1 hn
  obtain ⟨found, f1, f2, -⟩ := reproduced zLib zSrc zD (More.mArgs n) 1 (fun _ => More.mU) 1 1 d h f
  obtain ⟨q, hq⟩ := f1 0 (by decide : 0 < (threadsUsed 1 1).toNat)
  have h2 := f2 0 (by decide : 0 < (threadsUsed 1 1).toNat)
  rw [List.length_range] at h2
  refine ⟨s, found 0, q, hq, h2, ?_⟩
  have R := simulation_reports d h f [10]
  rw [R.iExit]
  show Int.toNat n = n
  simp

end Replay
end Polycap
