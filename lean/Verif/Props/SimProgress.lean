import Verif.Props.SimLive

/-!
# The progress report of a simulation (C52, C77)

Thread 0 prints `(j*100)/(n_photons/max_threads)` from time to time, in `int` arithmetic.  Specification (no reference to the code's counter):

* `period n T`: the smallest number of photons that is at least a tenth of the share of a thread, `n/T/10`;
* `Harmless n T slots`: whenever the number of photons thread 0 has saved is a positive multiple of the period, there are at least as many
  photons as threads and the slot number is at most 21474836.

Proved: a report is printed exactly at those moments; the simulation is free of undefined behaviour if – and, when photons come through,
only if – the slots of thread 0 are harmless; the static distribution of slots is harmless for up to 21474837 photons per thread.
-/
namespace Polycap
open CNum

/-- photons between two reports -/
def period (n T : Nat) : Nat := (n + 10 * T - 1) / (10 * T)

/-- `period` is the smallest number of photons that makes a tenth of `n/T` -/
theorem period_least (n T : Nat) (hT : 0 < T) (m : Nat) : period n T ≤ m ↔ n ≤ m * (10 * T) := by
  unfold period
  rw [Nat.div_le_iff_le_mul_add_pred (by omega)]
  have := Nat.mul_comm m (10 * T)
  omega

def Harmless (n T : Nat) (slots : List Nat) : Prop :=
  ∀ (k j : Nat), slots[k]? = some j → 0 < k → period n T ∣ k → T ≤ n ∧ j ≤ 21474836

theorem reports_real (C : Cfg ℝ) (hn : 0 < C.n) (hT : 0 < C.T) (p : Nat) : reports C 0 p = true ↔ period C.n C.T ≤ p := by
  rw [period_least _ _ hT]
  have h1 : (0:ℝ) < C.n := by exact_mod_cast hn
  have h2 : (0:ℝ) < C.T := by exact_mod_cast hT
  have h3 : (0:ℝ) < C.n / C.T / 10 := by positivity
  simp only [reports, ge, real_le, real_div, real_ofInt, real_lit, Int.cast_natCast]
  simp only [decide_true, Bool.true_and, decide_eq_true_eq, Rat.cast_one, Rat.cast_ofNat]
  rw [le_div_iff₀ h3, one_mul, div_div, div_le_iff₀ (by positivity)]
  constructor
  · intro h
    have h : (C.n:ℝ) ≤ ((p * (10 * C.T) : Nat) : ℝ) := by push_cast; linarith
    exact_mod_cast h
  · intro h
    have h : (C.n:ℝ) ≤ ((p * (10 * C.T) : Nat) : ℝ) := by exact_mod_cast h
    push_cast at h; linarith

theorem period_pos (n T : Nat) (hn : 0 < n) (hT : 0 < T) : 0 < period n T := by
  by_contra h
  have := (period_least n T hT 0).1 (by omega)
  omega

theorem progAt_real (C : Cfg ℝ) (hn : 0 < C.n) (hT : 0 < C.T) (k : Nat) : progAt C 0 (k + 1) = k % period C.n C.T + 1 := by
  have hp := period_pos _ _ hn hT
  induction k with
  | zero =>
    have h0 : ¬ reports C 0 0 = true := by rw [reports_real C hn hT]; omega
    simp [progAt, nextProg, h0]
  | succ k ih =>
    rw [progAt, ih, nextProg]
    have hm := Nat.mod_lt k hp
    by_cases hr : reports C 0 (k % period C.n C.T + 1) = true
    · have := (reports_real C hn hT _).1 hr
      rw [if_pos hr, Nat.add_mod_eq_ite]
      by_cases h1 : period C.n C.T = 1
      · simp [h1, Nat.mod_one]
      · rw [Nat.mod_eq_of_lt (a := 1) (by omega)]
        rw [if_pos (by omega)]
        omega
    · have := mt (reports_real C hn hT _).2 hr
      rw [if_neg hr, Nat.add_mod_eq_ite, Nat.mod_eq_of_lt (a := 1) (by omega), if_neg (by omega)]

/-- **C77**: with its photon number `k` (from 0), thread 0 prints a report exactly if `k` is a positive multiple of the period. -/
theorem reports_when (C : Cfg ℝ) (hn : 0 < C.n) (hT : 0 < C.T) (k : Nat) :
    reports C 0 (progAt C 0 k) = true ↔ 0 < k ∧ period C.n C.T ∣ k := by
  have hp := period_pos _ _ hn hT
  rw [reports_real C hn hT]
  cases k with
  | zero => simp only [progAt]; omega
  | succ k =>
    rw [progAt_real C hn hT]
    have hm := Nat.mod_lt k hp
    constructor
    · intro h
      refine ⟨by omega, ?_⟩
      have h1 := Nat.div_add_mod k (period C.n C.T)
      exact ⟨k / period C.n C.T + 1, by rw [Nat.mul_add]; omega⟩
    · rintro ⟨-, h⟩
      obtain ⟨c, hc⟩ := h
      cases c with
      | zero => omega
      | succ c =>
        rw [Nat.mul_add] at hc
        have : k = period C.n C.T - 1 + period C.n C.T * c := by omega
        rw [this, Nat.add_mul_mod_self_left, Nat.mod_eq_of_lt (by omega)]
        omega

/-- the conditions of C52 for real numbers -/
theorem simOk_of_harmless {C : Cfg ℝ} {asg : Nat → List Nat} (hd : Distributes C asg) (hT : 0 < C.T) (h1 : ∀ t < C.T, ∀ q, C.att t q ≠ .ub)
    (h2 : ∀ t < C.T, ∀ q a q', C.att t q = .ok (a, q') → AttOk C a) (h3 : Harmless C.n C.T (asg 0)) : SimOk C asg := by
  refine ⟨h1, h2, fun k j hk hr => ?_⟩
  have hj : j < C.n := asg_lt hd hT (List.mem_of_getElem? hk)
  rw [reports_when C (by omega) hT] at hr
  exact h3 k j hk hr.1 hr.2

/-! ## The converse -/

section
variable {α : Type} [CNum α]

theorem passLeaks_pos {C : Cfg α} {a : Attempt α} {th : Thr α} {x : Attempt α × Thr α} (h : passLeaks C a th = .ok x) : x.2.pos = th.pos := by
  unfold passLeaks at h
  split at h
  · rw [Out.bind_eq_ok] at h
    obtain ⟨e, -, h⟩ := h
    rw [Out.bind_eq_ok] at h
    obtain ⟨i, -, h⟩ := h
    injection h with h
    rw [← h]
  · injection h with h
    rw [← h]

/-- if photons always come through (from the positions `Q` of the random stream that occur), thread 0 alone can come to any of its slots before a bad report -/
theorem slot_reached {C : Cfg α} {asg : Nat → List Nat} (hd : Distributes C asg) (hT : 0 < C.T)
    (ho : ∀ t < C.T, ∀ q a q', C.att t q = .ok (a, q') → AttOk C a)
    (Q : Nat → Prop) (hQ : Q 0) (hx : ∀ q, Q q → ∃ a q', C.att 0 q = .ok (a, q') ∧ simCode C.D a = 1 ∧ Q q') (k : Nat) (hk : k < (asg 0).length)
    (hs : ∀ k' < k, ∀ j, (asg 0)[k']? = some j → reports C 0 (progAt C 0 k') = true → C.T ≤ C.n ∧ j ≤ 21474836) :
    ∃ i s j a, Reach C asg i s ∧ Q (s.thr 0).pos ∧ (s.thr 0).pc = .save j a ((asg 0).drop (k + 1)) ∧ (asg 0)[k]? = some j := by
  -- from a state that works on slot `k`
  have work : ∀ k (hk : k < (asg 0).length) i s, Reach C asg i s → Q (s.thr 0).pos → (s.thr 0).pc = nextPc ((asg 0).drop k) →
      ∃ i s j a, Reach C asg i s ∧ Q (s.thr 0).pos ∧ (s.thr 0).pc = .save j a ((asg 0).drop (k + 1)) ∧ (asg 0)[k]? = some j := by
    intro k hk i s hr hq hpc
    rw [List.drop_eq_getElem_cons hk] at hpc
    have hpc : (s.thr 0).pc = .work (asg 0)[k] ((asg 0).drop (k + 1)) := hpc
    obtain ⟨a, q', ha, hc, hq'⟩ := hx _ hq
    have hj : (asg 0)[k] < C.n := asg_lt hd hT (List.getElem_mem _)
    obtain ⟨x, hw⟩ := workStep_safe (C := C) (t := 0) (j := (asg 0)[k]) (rest := (asg 0).drop (k + 1)) (safe_inv ho hr 0 hT) s.sh (ho 0 hT _ a q' ha) q' hj
    have hst : tstep C 0 s = .next (s.set 0 x) := by
      unfold tstep
      simp only [hpc, ha, Out.bind_ok, hw, Res.of]
    have m := tstep_move hst
    refine ⟨i + 1, s.set 0 x, (asg 0)[k], ?_⟩
    have hsv : ∃ a', ((s.set 0 x).thr 0).pos = q' ∧ ((s.set 0 x).thr 0).pc = .save (asg 0)[k] a' ((asg 0).drop (k + 1)) := by
      unfold workStep at hw
      simp only [hc, if_true] at hw
      rw [if_neg (by omega), Out.bind_eq_ok] at hw
      obtain ⟨y, hy, hw⟩ := hw
      injection hw with hw
      rw [set_thr, ← hw]
      exact ⟨_, passLeaks_pos hy, rfl⟩
    obtain ⟨a', hp', ha'⟩ := hsv
    exact ⟨a', hr.step hT hst, by rw [hp']; exact hq', ha', List.getElem?_eq_getElem hk⟩
  induction k with
  | zero => exact work 0 hk 0 (initSt C asg) .start hQ (by simp [initSt])
  | succ k ih =>
    obtain ⟨i, s, j, a, hr, hq, hpc, hj⟩ := ih (by omega) (fun k' hk' => hs k' (by omega))
    have hlen : (recorded C.D (s.thr 0)).length = k := by
      have L := local_inv hr 0
      obtain ⟨l, a0, h1, -⟩ := L.held j a _ hpc
      have h2 := congrArg List.length L.slots
      rw [hpc, h1] at h2
      simp [pending] at h2
      unfold recorded
      simp [hpc, h1]
      omega
    obtain ⟨x, hsv⟩ := saveStep_safe (t := 0) (safe_inv ho hr 0 hT) hpc s.sh hT (fun h => by
      rw [prog_inv hr 0, hlen] at h
      exact hs k (by omega) j hj h)
    have hst : tstep C 0 s = .next (s.set 0 x) := by
      unfold tstep
      simp only [hpc, hsv, Res.of]
    have hrf : ∃ n, ((s.set 0 x).thr 0).pos = (s.thr 0).pos ∧ ((s.set 0 x).thr 0).pc = .refl n ((asg 0).drop (k + 1)) := by
      rw [set_thr]
      unfold saveStep at hsv
      split at hsv
      · cases hsv
      split at hsv
      · split at hsv
        · cases hsv
        · simp only at hsv
          split at hsv
          · rw [Out.bind_eq_ok] at hsv
            obtain ⟨e, -, hsv⟩ := hsv
            rw [Out.bind_eq_ok] at hsv
            obtain ⟨i, -, hsv⟩ := hsv
            injection hsv with hsv
            rw [← hsv]
            exact ⟨_, rfl, rfl⟩
          · injection hsv with hsv
            rw [← hsv]
            exact ⟨_, rfl, rfl⟩
      · cases hsv
    obtain ⟨n, hp1, hn⟩ := hrf
    have hr1 := hr.step hT hst
    rw [← hp1] at hq
    generalize s.set 0 x = s1 at hr1 hn hq
    have hst2 : tstep C 0 s1 = .next (s1.set 0 ({ s1.thr 0 with pc := nextPc ((asg 0).drop (k + 1)) }, { s1.sh with irefl := s1.sh.irefl + n })) := by
      unfold tstep
      simp only [hn]
    exact work (k + 1) hk _ _ (hr1.step hT hst2) (by rw [set_thr]; exact hq) (by rw [set_thr])

/-- a bad report is undefined behaviour -/
theorem bad_report_ub {C : Cfg α} {asg : Nat → List Nat} (hd : Distributes C asg) (hT : 0 < C.T)
    (ho : ∀ t < C.T, ∀ q a q', C.att t q = .ok (a, q') → AttOk C a)
    (Q : Nat → Prop) (hQ : Q 0) (hx : ∀ q, Q q → ∃ a q', C.att 0 q = .ok (a, q') ∧ simCode C.D a = 1 ∧ Q q') (k j : Nat) (hk : (asg 0)[k]? = some j)
    (hr : reports C 0 (progAt C 0 k) = true) (hb : ¬ (C.T ≤ C.n ∧ j ≤ 21474836)) : ∃ i s, Reach C asg i s ∧ tstep C 0 s = .ub := by
  classical
  have hex : ∃ k, ∃ j, (asg 0)[k]? = some j ∧ reports C 0 (progAt C 0 k) = true ∧ ¬ (C.T ≤ C.n ∧ j ≤ 21474836) := ⟨k, j, hk, hr, hb⟩
  obtain ⟨j', h1, h2, h3⟩ := Nat.find_spec hex
  have hmin : ∀ k' < Nat.find hex, ∀ j, (asg 0)[k']? = some j → reports C 0 (progAt C 0 k') = true → C.T ≤ C.n ∧ j ≤ 21474836 := by
    intro k' hk' j g1 g2
    by_contra g3
    exact Nat.find_min hex hk' ⟨j, g1, g2, g3⟩
  generalize Nat.find hex = m at h1 h2 hmin
  obtain ⟨i, s, j'', a, hr, -, hpc, hj⟩ := slot_reached hd hT ho Q hQ hx m (by
    rw [List.getElem?_eq_some_iff] at h1; exact h1.1) hmin
  rw [h1] at hj
  injection hj with hj
  subst hj
  refine ⟨i, s, hr, ?_⟩
  have hs := saving_slot hr hpc
  have hlen : (recorded C.D (s.thr 0)).length = m := by
    have L := local_inv hr 0
    obtain ⟨l, a0, e1, -⟩ := L.held _ a _ hpc
    have e2 := congrArg List.length L.slots
    rw [hpc, e1] at e2
    have e3 := (List.getElem?_eq_some_iff.1 h1).1
    simp [pending] at e2
    unfold recorded
    simp [hpc, e1]
    omega
  have hrep : reports C 0 (s.thr 0).prog = true := by rw [prog_inv hr 0, hlen]; exact h2
  unfold tstep
  simp only [hpc]
  unfold saveStep
  rw [if_pos]
  · rfl
  · rw [hrep, Bool.true_and, decide_eq_true_iff]
    by_cases hle : C.T ≤ C.n
    · right; by_contra hc; exact h3 ⟨hle, by omega⟩
    · left; exact Nat.div_eq_of_lt (by omega)

end

/-- **C77, C52**: a simulation whose photons come through has no undefined behaviour, whatever the schedule, exactly if the slots of thread 0 are
harmless. -/
theorem simulation_safe_iff {C : Cfg ℝ} {asg : Nat → List Nat} (hd : Distributes C asg) (hT : 0 < C.T) (h1 : ∀ t < C.T, ∀ q, C.att t q ≠ .ub)
    (h2 : ∀ t < C.T, ∀ q a q', C.att t q = .ok (a, q') → AttOk C a) (Q : Nat → Prop) (hQ : Q 0) (hx : ∀ q, Q q → ∃ a q', C.att 0 q = .ok (a, q') ∧ simCode C.D a = 1 ∧ Q q') :
    (∀ i s, Reach C asg i s → ∀ t < C.T, tstep C t s ≠ .ub) ↔ Harmless C.n C.T (asg 0) := by
  constructor
  · intro h k j hk h0 hdv
    by_contra hb
    have hj : j < C.n := asg_lt hd hT (List.mem_of_getElem? hk)
    obtain ⟨i, s, hr, hu⟩ := bad_report_ub hd hT h2 Q hQ hx k j hk ((reports_when C (by omega) hT k).2 ⟨h0, hdv⟩) hb
    exact h i s hr 0 hT hu
  · intro h i s hr t ht
    exact simulation_safe hd (simOk_of_harmless hd hT h1 h2 h) hr ht

/-! ## Distributions -/

/-- enough photons, not too many -/
theorem harmless_small {n T : Nat} {slots : List Nat} (h1 : T ≤ n) (h2 : ∀ j ∈ slots, j ≤ 21474836) : Harmless n T slots :=
  fun _ j hk _ _ => ⟨h1, h2 j (List.mem_of_getElem? hk)⟩

/-- one photon per thread -/
theorem harmless_single {n T : Nat} {slots : List Nat} (h : slots.length ≤ 1) : Harmless n T slots := by
  intro k j hk h0
  have := (List.getElem?_eq_some_iff.1 hk).1
  omega

/-- the distribution of `schedule(static)`, which is what compilers do for a plain `omp for`: every thread gets a block of `n/T` slots, the first
`n%T` threads one more -/
def staticSlots (n T t : Nat) : List Nat := List.range' (t * (n / T) + min t (n % T)) (n / T + if t < n % T then 1 else 0)

theorem static_prefix (n T m : Nat) : (List.range m).flatMap (staticSlots n T) = List.range (m * (n / T) + min m (n % T)) := by
  induction m with
  | zero => simp
  | succ m ih =>
    rw [List.range_succ, List.flatMap_append, ih, List.range_eq_range', List.range_eq_range']
    simp only [List.flatMap_cons, List.flatMap_nil, List.append_nil, staticSlots]
    have := List.range'_append (s := 0) (m := m * (n / T) + min m (n % T)) (n := n / T + if m < n % T then 1 else 0) (step := 1)
    rw [one_mul, Nat.zero_add] at this
    rw [this]
    congr 1
    rw [Nat.add_mul]
    split <;> omega

theorem static_distributes {α : Type} (C : Cfg α) (hT : 0 < C.T) : Distributes C (staticSlots C.n C.T) := by
  unfold Distributes
  rw [static_prefix, Nat.min_eq_right (Nat.mod_lt _ hT).le, Nat.div_add_mod]

/-- **C77**: with static distribution, up to 21474837 photons per thread are harmless, also when there are more threads than photons. -/
theorem static_harmless (n T : Nat) (h : n ≤ 21474837 * T) : Harmless n T (staticSlots n T 0) := by
  by_cases hl : T ≤ n
  · refine harmless_small hl fun j hj => ?_
    simp only [staticSlots, List.mem_range'_1] at hj
    have h1 := Nat.div_add_mod n T
    have h2 : n / T ≤ 21474837 := Nat.div_le_of_le_mul (by omega)
    rcases Nat.lt_or_ge (n / T) 21474837 with h3 | h3
    · split at hj <;> omega
    · have h4 : n / T = 21474837 := by omega
      rw [h4] at h1
      split at hj
      · next h5 => exfalso; rw [Nat.mul_comm] at h1; omega
      · omega
  · refine harmless_single ?_
    simp only [staticSlots, List.length_range']
    rw [Nat.div_eq_of_lt (by omega)]
    split <;> omega

/-- … and on a single thread 23860930 photons are too many -/
theorem single_thread_overflow (m : Nat) (h : 2386093 ≤ m) : ¬ Harmless (10 * m) 1 (staticSlots (10 * m) 1 0) := by
  intro hh
  have hp : period (10 * m) 1 = m := by unfold period; omega
  have hk : (staticSlots (10 * m) 1 0)[9 * m]? = some (9 * m) := by
    simp only [staticSlots, Nat.div_one, Nat.mod_one]
    rw [List.getElem?_range' (by simp; omega)]
    simp
  have := (hh (9 * m) (9 * m) hk (by omega) (by rw [hp]; exact ⟨9, by ring⟩)).2
  omega

/-- more threads than photons, and thread 0 gets two of them (dynamic distribution): division by zero -/
theorem few_photons_division (n T j1 j2 : Nat) (rest : List Nat) (hn : 0 < n) (h : n < T) : ¬ Harmless n T (j1 :: j2 :: rest) := by
  intro hh
  have hp : period n T = 1 := by
    have h1 := period_pos n T hn (by omega)
    have h2 := (period_least n T (by omega) 1).2 (by omega)
    omega
  have := (hh 1 j2 rfl one_pos (by rw [hp])).1
  omega

example : Harmless 2147483647 100 (staticSlots 2147483647 100 0) := static_harmless _ _ (by norm_num)

end Polycap
