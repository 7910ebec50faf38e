import Verif.Props.FuelMono
import Verif.Props.SimExample

/-!
# C110: asking for more photons only adds photons

For every kind of numbers (also floating point), with or without leak calculation.
-/
namespace Polycap
open CNum

namespace More
variable {α : Type} [CNum α]

theorem slot_same {D : Descr α} {g g' : Nat → Out (Attempt α × Nat)} (hg : ∀ p x y, g p = .ok x → g' p = .ok y → x = y)
    {p l q} (h : SlotRun D g p l q) : ∀ {l' q'}, SlotRun D g' p l' q' → l = l' ∧ q = q' := by
  induction h with
  | last h hc =>
    intro l' q' h'
    cases h' with
    | last h2 _ => have := hg _ _ _ h h2; injection this with a b; exact ⟨by rw [a], b⟩
    | retry h2 hc2 _ => have := hg _ _ _ h h2; injection this with a b; rw [← a] at hc2; exact absurd hc hc2
  | retry h hc _ ih =>
    intro l' q' h'
    cases h' with
    | last h2 hc2 => have := hg _ _ _ h h2; injection this with a b; rw [← a] at hc2; exact absurd hc2 hc
    | retry h2 _ hr2 =>
      have := hg _ _ _ h h2
      injection this with a b
      subst a b
      obtain ⟨e1, e2⟩ := ih hr2
      exact ⟨by rw [e1], e2⟩

theorem slot_exit {D : Descr α} {g : Nat → Out (Attempt α × Nat)} {p l q} (h : SlotRun D g p l q) : ∃ a ∈ l, simCode D a = 1 := by
  induction h with
  | last _ hc => exact ⟨_, List.mem_cons_self, hc⟩
  | retry _ _ _ ih =>
    obtain ⟨a, h1, h2⟩ := ih
    exact ⟨a, List.mem_cons_of_mem _ h1, h2⟩

/-- the `i`-th slots of two runs from the same random stream were given the same photon -/
theorem run_nth {D : Descr α} {g g' : Nat → Out (Attempt α × Nat)} (hg : ∀ p x y, g p = .ok x → g' p = .ok y → x = y)
    {js p H q} (h : ThreadRun D g js p H q) : ∀ {js' H' q'}, ThreadRun D g' js' p H' q' → ∀ (i j j' : Nat), js[i]? = some j → js'[i]? = some j' →
      ∃ a, (j, a) ∈ H ∧ (j', a) ∈ H' ∧ simCode D a = 1 := by
  induction h with
  | nil p => intro js' H' q' _ i j j' hj; simp at hj
  | cons hs _ ih =>
    intro js' H' q' h' i j j' hj hj'
    cases h' with
    | nil => simp at hj'
    | cons hs2 hr2 =>
      obtain ⟨rfl, rfl⟩ := slot_same hg hs hs2
      cases i with
      | zero =>
        simp at hj hj'
        subst hj hj'
        obtain ⟨a, a1, a2⟩ := slot_exit hs
        exact ⟨a, List.mem_append_left _ (List.mem_map.2 ⟨a, a1, rfl⟩), List.mem_append_left _ (List.mem_map.2 ⟨a, a1, rfl⟩), a2⟩
      | succ i =>
        obtain ⟨a, a1, a2, a3⟩ := ih hr2 i j j' (by simpa using hj) (by simpa using hj')
        exact ⟨a, List.mem_append_right _ a1, List.mem_append_right _ a2, a3⟩

/-- a run with at least as many slots goes through at least as many photons of every kind -/
theorem run_count {D : Descr α} {g g' : Nat → Out (Attempt α × Nat)} (hg : ∀ p x y, g p = .ok x → g' p = .ok y → x = y) (f : Attempt α → Bool)
    {js p H q} (h : ThreadRun D g js p H q) : ∀ {js' H' q'}, ThreadRun D g' js' p H' q' → js.length ≤ js'.length →
      H.countP (fun x => f x.2) ≤ H'.countP (fun x => f x.2) := by
  induction h with
  | nil p => intro js' H' q' _ _; simp
  | cons hs _ ih =>
    intro js' H' q' h' hl
    cases h' with
    | nil => simp at hl
    | cons hs2 hr2 =>
      obtain ⟨rfl, rfl⟩ := slot_same hg hs hs2
      rw [List.countP_append, List.countP_append]
      have e : ∀ (j j' : Nat) (l : List (Attempt α)), (l.map fun a => (j, a)).countP (fun x => f x.2) = (l.map fun a => (j', a)).countP (fun x => f x.2) := by
        intro j j' l
        rw [List.countP_map, List.countP_map]; rfl
      rw [e]
      exact Nat.add_le_add_left (ih hr2 (by simpa using hl)) _

omit [CNum α] in
theorem count_le {T : Nat} {H H' : Nat → List (Nat × Attempt α)} {f : Nat × Attempt α → Bool} (h : ∀ t < T, (H t).countP f ≤ (H' t).countP f) :
    ((List.range T).flatMap H).countP f ≤ ((List.range T).flatMap H').countP f := by
  rw [List.countP_flatMap, List.countP_flatMap]
  exact List.sum_le_sum fun t ht => h t (List.mem_range.1 ht)

/-- **C110.** Two completed simulations of the same source and optic from the same random streams, with different numbers of photons, of threads and different
distributions of the photons over the threads: the `i`-th photon of a thread is the same in both. -/
theorem same_photons (lib : Xray α) (S : Src α) (D : Descr α) (a a' : SimArgs α) (hl : a'.leak = a.leak) (omp omp' : Int) (u : Nat → Nat → α) (fuel k fuel' k' : Nat)
    {asg asg' : Nat → List Nat} {m m' : Nat} {s s' : St α}
    (hd : Distributes (simCfg lib S D a omp u fuel k) asg) (hr : Reach (simCfg lib S D a omp u fuel k) asg m s) (hf : s.finished (simCfg lib S D a omp u fuel k))
    (hd' : Distributes (simCfg lib S D a' omp' u fuel' k') asg') (hr' : Reach (simCfg lib S D a' omp' u fuel' k') asg' m' s') (hf' : s'.finished (simCfg lib S D a' omp' u fuel' k'))
    (t : Nat) (ht : t < (threadsUsed a.maxThreads omp).toNat) (ht' : t < (threadsUsed a'.maxThreads omp').toNat) (i j j' : Nat)
    (hj : (asg t)[i]? = some j) (hj' : (asg' t)[i]? = some j') :
    let r := results (simCfg lib S D a omp u fuel k) S.energies s
    let r' := results (simCfg lib S D a' omp' u fuel' k') S.energies s'
    r.start j ≠ none ∧ r.exit j ≠ none ∧ r'.start j' = r.start j ∧ r'.exit j' = r.exit j ∧
      ∀ l < S.energies.length, r'.exitW (j' * S.energies.length + l) = r.exitW (j * S.energies.length + l) := by
  set C := simCfg lib S D a omp u fuel k with hC
  set C' := simCfg lib S D a' omp' u fuel' k' with hC'
  have hg : ∀ t p x y, C.att t p = .ok x → C'.att t p = .ok y → x = y := by
    intro t p x y h1 h2
    have h2 : attempt lib S D a'.leak fuel' k' (u t) p = .ok y := h2
    rw [hl] at h2
    exact Upto.attempt_unique h1 h2
  obtain ⟨p, hp⟩ := (final_of_finished hr hf).runs t ht
  obtain ⟨p', hp'⟩ := (final_of_finished hr' hf').runs t ht'
  obtain ⟨b, b1, b2, b3⟩ := run_nth (hg t) hp hp' i j j' hj hj'
  have hm : (j, b) ∈ allHist C (fun t => (s.thr t).hist) := List.mem_flatMap.2 ⟨t, List.mem_range.2 ht, b1⟩
  have hm' : (j', b) ∈ allHist C' (fun t => (s'.thr t).hist) := List.mem_flatMap.2 ⟨t, List.mem_range.2 ht', b2⟩
  obtain ⟨x, -, -, x3, x4, x5, -, x6⟩ := (simulation_reports hd hr hf S.energies).slot j (asg_lt hd ht (List.mem_of_getElem? hj))
  obtain ⟨y, -, -, y3, y4, y5, -, y6⟩ := (simulation_reports hd' hr' hf' S.energies).slot j' (asg_lt hd' ht' (List.mem_of_getElem? hj'))
  obtain rfl := x3 b hm b3
  obtain rfl := y3 b hm' b3
  refine ⟨by rw [x4]; simp, by rw [x5]; simp, by rw [x4, y4], by rw [x5, y5]; rfl, ?_⟩
  intro l hl'
  exact (y6 l hl').trans (x6 l hl').symm

/-- **C110.** If no thread has fewer photons to do in the second simulation (with the same number of threads), it reports at least as many additional photons started
as it reports additional photons transmitted. -/
theorem started_grows (lib : Xray α) (S : Src α) (D : Descr α) (a a' : SimArgs α) (hl : a'.leak = a.leak) (omp omp' : Int)
    (hT : threadsUsed a'.maxThreads omp' = threadsUsed a.maxThreads omp) (u : Nat → Nat → α) (fuel k fuel' k' : Nat)
    {asg asg' : Nat → List Nat} {m m' : Nat} {s s' : St α}
    (hd : Distributes (simCfg lib S D a omp u fuel k) asg) (hr : Reach (simCfg lib S D a omp u fuel k) asg m s) (hf : s.finished (simCfg lib S D a omp u fuel k))
    (hd' : Distributes (simCfg lib S D a' omp' u fuel' k') asg') (hr' : Reach (simCfg lib S D a' omp' u fuel' k') asg' m' s') (hf' : s'.finished (simCfg lib S D a' omp' u fuel' k'))
    (hle : ∀ t < (threadsUsed a.maxThreads omp).toNat, (asg t).length ≤ (asg' t).length) :
    let r := results (simCfg lib S D a omp u fuel k) S.energies s
    let r' := results (simCfg lib S D a' omp' u fuel' k') S.energies s'
    r.iExit = a.nPhotons.toNat ∧ r'.iExit = a'.nPhotons.toNat ∧ r.iStart + r'.iExit ≤ r'.iStart + r.iExit := by
  set C := simCfg lib S D a omp u fuel k with hC
  set C' := simCfg lib S D a' omp' u fuel' k' with hC'
  have hg : ∀ t p x y, C.att t p = .ok x → C'.att t p = .ok y → x = y := by
    intro t p x y h1 h2
    have h2 : attempt lib S D a'.leak fuel' k' (u t) p = .ok y := h2
    rw [hl] at h2
    exact Upto.attempt_unique h1 h2
  have hTT : C'.T = C.T := by show (threadsUsed a'.maxThreads omp').toNat = _; rw [hT]; rfl
  have hc : ∀ c : Int, (allHist C (fun t => (s.thr t).hist)).countP (fun x => decide (x.2.code = c)) ≤ (allHist C' (fun t => (s'.thr t).hist)).countP (fun x => decide (x.2.code = c)) := by
    intro c
    unfold allHist
    rw [hTT]
    refine count_le fun t ht => ?_
    obtain ⟨p, hp⟩ := (final_of_finished hr hf).runs t ht
    obtain ⟨p', hp'⟩ := (final_of_finished hr' hf').runs t (by rw [hTT]; exact ht)
    exact run_count (hg t) (fun a => decide (a.code = c)) hp hp' (hle t ht)
  have R := simulation_reports hd hr hf S.energies
  have R' := simulation_reports hd' hr' hf' S.energies
  refine ⟨R.iExit, R'.iExit, ?_⟩
  rw [R.iStart, R'.iStart, R.iExit, R'.iExit]
  have h2 := hc 2
  have h0 := hc 0
  omega

/-! ## A concrete case: one and two photons from the same random numbers -/

noncomputable def mU (n : Nat) : ℝ := if n % 6 = 3 then 9/20 else if n % 6 = 4 then 1/2 else 0

theorem mU_unit (i : Nat) : 0 ≤ mU i ∧ mU i < 1 := by
  unfold mU; split_ifs <;> norm_num

theorem m_pass (p : Nat) (hp : p % 6 = 0) : ∃ a, attempt zLib zSrc zD false 1 1 mU p = .ok (a, p + 6) ∧ simCode zD a = 1 := by
  obtain ⟨a, h1, -, h2, -⟩ := z_passes mU 1 p
    (by unfold mU; rw [if_neg (by omega), if_neg (by omega)]) (by unfold mU; rw [if_pos (by omega)]) (by unfold mU; rw [if_neg (by omega), if_pos (by omega)])
  exact ⟨a, h1, h2⟩

noncomputable def mArgs (n : Int) : SimArgs ℝ := ⟨some (zSrc, some zD), false, 1, n, false, false⟩

theorem m_run (js : List Nat) : ∀ p, p % 6 = 0 → ∃ H q, ThreadRun zD (attempt zLib zSrc zD false 1 1 mU) js p H q := by
  induction js with
  | nil => exact fun p _ => ⟨_, _, .nil p⟩
  | cons j js ih =>
    intro p hp
    obtain ⟨a, h1, h2⟩ := m_pass p hp
    obtain ⟨H, q, h⟩ := ih (p + 6) (by omega)
    exact ⟨_, _, .cons (.last h1 h2) h⟩

/-- for any number of photons up to the one at which a report overflows, a simulation with one thread completes -/
theorem m_completes (n : Nat) (h1 : 1 ≤ n) (hn : n ≤ 21474837) : Distributes (simCfg zLib zSrc zD (mArgs n) 1 (fun _ => mU) 1 1) (fun _ => List.range n) ∧
    ∃ k s, Reach (simCfg zLib zSrc zD (mArgs n) 1 (fun _ => mU) 1 1) (fun _ => List.range n) k s ∧ s.finished (simCfg zLib zSrc zD (mArgs n) 1 (fun _ => mU) 1 1) := by
  have hd : Distributes (simCfg zLib zSrc zD (mArgs n) 1 (fun _ => mU) 1 1) (fun _ => List.range n) := by
    unfold Distributes
    show ((List.range 1).flatMap _).Perm (List.range (Int.toNat n))
    simp
  have ho := simulation_safe_noleak zLib zSrc zD z_setup (mArgs n) rfl 1 (fun _ => mU) (fun _ i => ⟨(mU_unit i).1, (mU_unit i).2.le⟩) 1 0
    (fun _ => List.range n) hd (by decide : 0 < (threadsUsed 1 1).toNat) (harmless_small (by
      show 1 ≤ Int.toNat n
      simpa using h1) (by
      intro j hj
      have := List.mem_range.1 hj
      omega))
  exact ⟨hd, (simulation_finishes_iff hd ho).2 fun t _ => m_run _ 0 rfl⟩

/-- the hypotheses of both theorems are met by simulations of one and of a thousand photons -/
example : ∃ (s s' : St ℝ) (m m' : Nat) (asg asg' : Nat → List Nat),
    Distributes (simCfg zLib zSrc zD (mArgs 1) 1 (fun _ => mU) 1 1) asg ∧ Reach (simCfg zLib zSrc zD (mArgs 1) 1 (fun _ => mU) 1 1) asg m s ∧
    s.finished (simCfg zLib zSrc zD (mArgs 1) 1 (fun _ => mU) 1 1) ∧
    Distributes (simCfg zLib zSrc zD (mArgs 1000) 1 (fun _ => mU) 1 1) asg' ∧ Reach (simCfg zLib zSrc zD (mArgs 1000) 1 (fun _ => mU) 1 1) asg' m' s' ∧
    s'.finished (simCfg zLib zSrc zD (mArgs 1000) 1 (fun _ => mU) 1 1) ∧ (∀ t, (asg t).length ≤ (asg' t).length) ∧
    (results (simCfg zLib zSrc zD (mArgs 1000) 1 (fun _ => mU) 1 1) [10] s').start 0 = (results (simCfg zLib zSrc zD (mArgs 1) 1 (fun _ => mU) 1 1) [10] s).start 0 := by
  obtain ⟨d, k, s, h, f⟩ := m_completes 1 le_rfl (by norm_num)
  obtain ⟨d', k', s', h', f'⟩ := m_completes 1000 (by norm_num) (by norm_num)
  refine ⟨s, s', k, k', _, _, d, h, f, d', h', f', fun t => by simp, ?_⟩
  exact (same_photons zLib zSrc zD (mArgs 1) (mArgs 1000) rfl 1 1 (fun _ => mU) 1 1 1 1 d h f d' h' f' 0 (by decide) (by decide) 0 0 0 (by simp) (by simp)).2.2.1

end More
end Polycap
