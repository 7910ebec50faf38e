import Verif.Props.SimProgress
import Verif.Props.LaunchSafe

/-!
# The whole call `polycap_source_get_transmission_efficiencies` (C33, C36, C49, C52, C54)
-/
namespace Polycap
open CNum

section generic
variable {α : Type} [CNum α]

/-! ## Arguments -/

/-- **C49**: the number of threads used, for every value passed. -/
theorem threads_valid (maxThreads omp : Int) (h : 1 ≤ omp) :
    1 ≤ threadsUsed maxThreads omp ∧ threadsUsed maxThreads omp ≤ omp ∧
      (1 ≤ maxThreads → maxThreads ≤ omp → threadsUsed maxThreads omp = maxThreads) := by
  unfold threadsUsed
  split_ifs <;> omega

/-- the documented reasons to refuse a simulation -/
def SimArgsBad (a : SimArgs α) : Prop :=
  a.source = none ∨ a.monitor = true ∨ (∃ S, a.source = some (S, none)) ∨
  (∃ S d, a.source = some (S, d) ∧ (S.energies = [] ∨ ∃ e ∈ S.energies, energyBad e = true)) ∨ a.nullEnergies = true ∨ a.nPhotons < 1

theorem simRejects_iff (a : SimArgs α) : simRejects a = true ↔ SimArgsBad a := by
  unfold simRejects SimArgsBad
  cases hs : a.source with
  | none => simp
  | some x =>
    obtain ⟨S, d⟩ := x
    cases d <;> cases hS : S.energies <;> simp [hS]
    rename_i d hd tl
    generalize (∃ x ∈ tl, energyBad x = true) = q
    tauto

/-- **C54**: a simulation is refused exactly for the documented reasons; then NULL is returned and an invalid-argument error set.
Otherwise, if the call returns, it returns an object and the error slot is as before. -/
theorem simulation_arguments (lib : Xray α) (a : SimArgs α) (omp : Int) (e : EArg) (r : Option (TE α)) (e' : EArg)
    (h : SimOutcome lib a omp e r e') :
    (SimArgsBad a → r = none ∧ e' = e.set .invalidArgument) ∧ (¬ SimArgsBad a → r.isSome = true ∧ e' = e) := by
  cases h with
  | rejected h => exact ⟨fun _ => ⟨rfl, rfl⟩, fun hb => absurd ((simRejects_iff a).1 h) hb⟩
  | ran h S D hs u hu fuel k asg hd n s hr hf =>
    refine ⟨fun hb => ?_, fun _ => ⟨rfl, rfl⟩⟩
    rw [(simRejects_iff a).2 hb] at h
    cases h

/-- A refused simulation always has an outcome (nothing is undefined, nothing hangs). -/
theorem simulation_refuses (lib : Xray α) (a : SimArgs α) (omp : Int) (e : EArg) (hb : SimArgsBad a) :
    SimOutcome lib a omp e none (e.set .invalidArgument) := .rejected ((simRejects_iff a).2 hb)

/-- The photons a thread goes through, for an outcome: everything in `Reports` holds of the returned object. -/
theorem outcome_reports (lib : Xray α) (a : SimArgs α) (omp : Int) (e : EArg) (r : TE α) (e' : EArg)
    (h : SimOutcome lib a omp e (some r) e') :
    ∃ (S : Src α) (D : Descr α) (u : Nat → Nat → α) (fuel k : Nat) (H : List (Nat × Attempt α)),
      a.source = some (S, some D) ∧ (∀ t i, (lit 0 <=. u t i) = true ∧ (u t i <. lit 1) = true) ∧
      Reports (simCfg lib S D a omp u fuel k) H r ∧ r.energies = S.energies ∧
      ∀ x ∈ H, ∃ t < (threadsUsed a.maxThreads omp).toNat, ∃ q q', attempt lib S D a.leak fuel k (u t) q = .ok (x.2, q') := by
  cases h with
  | ran h S D hs u hu fuel k asg hd n s hr hf =>
    exact ⟨S, D, u, fuel, k, _, hs, hu, simulation_reports hd hr hf S.energies, rfl, allHist_mem hr hf⟩

theorem attempt_ok {lib : Xray α} {S : Src α} {D : Descr α} {leak : Bool} {fuel k : Nat} {u : Nat → α} {n : Nat} {a : Attempt α} {m : Nat}
    (h : attempt lib S D leak fuel k u n = .ok (a, m)) :
    ∃ x, getPhoton S D u fuel n = .ok (x, m) ∧ a.src = x.src ∧
      launch lib (some D) leak fuel k (some x.photon) (some S.energies) true = .ok (a.code, a.wts, some a.ph) := by
  unfold attempt at h
  rw [Out.bind_eq_ok] at h
  obtain ⟨x, hx, h⟩ := h
  rw [Out.bind_eq_ok] at h
  obtain ⟨y, hy, h⟩ := h
  split at h
  · injection h with h; injection h with h1 h2
    subst h1 h2
    exact ⟨x.1, hx, rfl, hy⟩
  · cases h

theorem attempt_codes {lib : Xray α} {S : Src α} {D : Descr α} {leak : Bool} {fuel k : Nat} {u : Nat → α} {n : Nat} {a : Attempt α} {m : Nat}
    (h : attempt lib S D leak fuel k u n = .ok (a, m)) :
    (a.code = -2 ∨ a.code = -1 ∨ a.code = 0 ∨ a.code = 1 ∨ a.code = 2) ∧
    (simCode D a = -1 ∨ simCode D a = -2 ∨ simCode D a = 0 ∨ simCode D a = 1 ∨ simCode D a = 2) := by
  obtain ⟨x, -, -, hl⟩ := attempt_ok h
  have hc := launch_codes _ _ _ _ _ _ _ _ _ _ _ hl
  refine ⟨hc, ?_⟩
  unfold simCode
  split_ifs with h1 h2
  · simp only; split <;> simp
  · simp only
    unfold withinPcBoundary
    split
    · simp
    · dsimp only; split <;> simp
  · omega

end generic

/-! ## A valid source and description (exact reals) -/

/-- What the constructors guarantee about the source and the optic of a simulation (and xraylib about cross sections). -/
structure GoodSetup (lib : Xray ℝ) (S : Src ℝ) (D : Descr ℝ) : Prop where
  src : GoodSrc S
  grid : Grid D.prof
  caps : 1 ≤ D.n_cap
  ext0 : 0 < D.prof.ext 0
  comp : scatfRejects D S.energies = false
  cs : ∀ z e, 0 ≤ lib.csTotal z e

theorem attempt_weights {lib : Xray ℝ} {S : Src ℝ} {D : Descr ℝ} (G : GoodSetup lib S D) {leak : Bool} {fuel k : Nat} {u : Nat → ℝ}
    (hu : ∀ i, 0 ≤ u i ∧ u i ≤ 1) {n : Nat} {a : Attempt ℝ} {m : Nat} (h : attempt lib S D leak fuel k u n = .ok (a, m)) (hc : a.code = 1) :
    ∃ ws, a.wts = .filled ws ∧ ws.length = S.energies.length ∧ ∀ w ∈ ws, 0 ≤ w ∧ w ≤ 1 := by
  obtain ⟨x, hx, -, hl⟩ := attempt_ok h
  obtain ⟨h0, -⟩ := source_photon_geometry S G.src D u hu fuel n x m hx
  rw [hc] at hl
  have hn : D.prof.z 0 ≤ D.prof.z D.prof.nmax := mono_of_step G.grid.inc (Nat.zero_le _) (le_refl _)
  have hv : ∀ v : Nat → ℝ, ValueAt D.prof v 0 (v 0) := fun v =>
    ⟨0, by have := G.grid.two; omega, by rw [G.grid.start], by have := G.grid.inc 0 (by have := G.grid.two; omega); rw [G.grid.start] at this; exact this.le,
      by rw [linAt, G.grid.start]; simp⟩
  refine launch_weights_filled_partial lib D leak fuel k x.photon S.energies G.cs G.comp G.grid G.caps (by rw [h0]) (by rw [h0, ← G.grid.start]; exact hn)
    (D.prof.ext 0) (D.prof.cap 0) (by rw [h0]; exact hv _) (by rw [h0]; exact hv _) G.ext0 (Or.inr (Or.inl h0)) _ _ hl

/-- Every photon of a valid setup is what the simulation relies on. -/
theorem attempt_attOk {lib : Xray ℝ} {S : Src ℝ} {D : Descr ℝ} (G : GoodSetup lib S D) (a : SimArgs ℝ) (omp : Int) {u : Nat → Nat → ℝ}
    (hu : ∀ t i, 0 ≤ u t i ∧ u t i ≤ 1) {fuel k : Nat} {t n : Nat} {x : Attempt ℝ} {m : Nat}
    (h : attempt lib S D a.leak fuel k (u t) n = .ok (x, m)) : AttOk (simCfg lib S D a omp u fuel k) x := by
  obtain ⟨c1, c2⟩ := attempt_codes h
  obtain ⟨-, -, hes, hb, -⟩ := (scatf_accepts_iff D S.energies).mp G.comp
  obtain ⟨p, hp, -, hl⟩ := attempt_ok h
  have hb' : ∀ e ∈ S.energies, energyBad e = false := by
    intro e he
    obtain ⟨b1, b2⟩ := hb e he
    simp only [energyBad, gt, real_lt, real_lit, Bool.or_eq_false_iff, decide_eq_false_iff_not, not_lt]
    push_cast
    exact ⟨b1, b2⟩
  obtain ⟨l1, l2⟩ := launch_leaks_shape lib D a.leak fuel k p.photon S.energies hes hb' _ _ _ hl
  refine ⟨c1, c2, ?_, ?_, fun _ l hl => (l1 l hl).ge, fun _ l hl => (l2 l hl).ge⟩
  · obtain ⟨Q, hQ, he⟩ := launch_ended hes hb hl
    generalize hw : x.wts = o at he
    generalize x.code = cc at he
    cases he with
    | outside => rfl
    | glass => rfl
    | front => rfl
    | within qr _ _ _ _ _ w _ c o P' hy =>
      have := (launchWall_codes _ _ _ _ _ _ _ _ _ hy).2
      rw [this]; rfl
    | inside qr _ _ c o P' hy =>
      obtain ⟨iesc, ix, Q', -, -, -, -, -, k4, -⟩ := launchInside_inv _ _ _ _ _ _ _ _ _ hy
      rw [k4]; rfl
  · intro h1
    have hc : x.code = 1 := by
      change simCode D x = 1 at h1
      unfold simCode at h1
      split at h1
      · assumption
      · assumption
    obtain ⟨ws, w1, w2, -⟩ := attempt_weights G (hu t) h hc
    exact ⟨ws, w1, w2.ge⟩

theorem real_unit {u : Nat → Nat → ℝ} (hu : ∀ t i, (lit 0 <=. u t i) = true ∧ (u t i <. lit 1) = true) : ∀ t i, 0 ≤ u t i ∧ u t i ≤ 1 := by
  intro t i
  obtain ⟨h1, h2⟩ := hu t i
  simp only [real_le, real_lt, real_lit, decide_eq_true_eq] at h1 h2
  push_cast at h1 h2
  exact ⟨h1, h2.le⟩

/-- **C33** for the whole call: the reported efficiencies are the sums of the reported exit weights over the reported number of
started photons; they are not negative and at most the reported open area, which is at most 1. -/
theorem simulation_efficiencies (lib : Xray ℝ) (a : SimArgs ℝ) (omp : Int) (e : EArg) (r : TE ℝ) (e' : EArg)
    (h : SimOutcome lib a omp e (some r) e') (hG : ∀ S D, a.source = some (S, some D) → GoodSetup lib S D) :
    r.effs.length = r.energies.length ∧
    (∀ i < r.energies.length, r.effs.getD i 0 =
      ((List.range r.iExit).map (fun j => (r.exitW (j * r.energies.length + i)).getD 0)).sum / r.iStart) ∧
    (∀ x ∈ r.effs, 0 ≤ x ∧ x ≤ r.openArea) ∧ 0 < r.openArea ∧ r.openArea ≤ 1 ∧ (r.iExit : Int) = a.nPhotons := by
  cases h with
  | ran h S D hs u hu fuel k asg hd n s hr hf =>
    have G := hG S D hs
    have hnp : 1 ≤ a.nPhotons := by
      by_contra hc
      have : simRejects a = true := (simRejects_iff a).2 (Or.inr (Or.inr (Or.inr (Or.inr (Or.inr (by omega))))))
      rw [this] at h; cases h
    have hn : 1 ≤ (simCfg lib S D a omp u fuel k).n := by show 1 ≤ a.nPhotons.toNat; omega
    have hie := (simulation_reports hd hr hf S.energies).iExit
    obtain ⟨f1, f2⟩ := efficiencies_formula hd hn hr hf S.energies
    obtain ⟨b1, b2, b3⟩ := efficiencies_bounds hd hn hr hf S.energies (by
      intro t ht q x q' hq w hw
      have hq : attempt lib S D a.leak fuel k (u t) q = .ok (x, q') := hq
      cases hx : x.wts with
      | filled ws =>
        have hes : w ∈ ws := by
          unfold wtsOf at hw
          rw [hx] at hw
          exact List.mem_of_mem_take hw
        obtain ⟨p, hp, -, hl⟩ := attempt_ok hq
        rw [hx] at hl
        exact (launch_weights lib D a.leak fuel k p.photon S.energies G.cs G.comp x.code ws _ hl).2 w hes
      | untouched => unfold wtsOf at hw; rw [hx] at hw; simp at hw
      | uninit => unfold wtsOf at hw; rw [hx] at hw; simp at hw)
    refine ⟨f1, fun i hi => ?_, b1, b2, b3, ?_⟩
    · rw [f2 i hi, hie]; rfl
    · rw [hie]; show ((a.nPhotons.toNat : Nat) : Int) = _; omega

/-- **C52** for the whole call without leak calculation: no schedule leads to undefined behaviour, and in every state either all
threads are done or one can go on (unless the rejection loop of the photon generator does not end).  Conditions: a valid setup and
harmless progress reports (see `Harmless`: e.g. static distribution and at most 21474837 photons per thread). -/
theorem simulation_safe_noleak (lib : Xray ℝ) (S : Src ℝ) (D : Descr ℝ) (G : GoodSetup lib S D) (a : SimArgs ℝ) (hl : a.leak = false) (omp : Int)
    (u : Nat → Nat → ℝ) (hu : ∀ t i, 0 ≤ u t i ∧ u t i ≤ 1) (fuel k : Nat) (asg : Nat → List Nat) (hd : Distributes (simCfg lib S D a omp u fuel (k + 1)) asg)
    (hT : 0 < (threadsUsed a.maxThreads omp).toNat) (hh : Harmless a.nPhotons.toNat (threadsUsed a.maxThreads omp).toNat (asg 0)) :
    SimOk (simCfg lib S D a omp u fuel (k + 1)) asg := by
  refine simOk_of_harmless hd hT (fun t ht q hq => ?_) (fun t ht q x q' hq => attempt_attOk G a omp hu hq) hh
  have hq : attempt lib S D a.leak fuel (k + 1) (u t) q = .ub := hq
  unfold attempt at hq
  cases hp : getPhoton S D (u t) fuel q with
  | ub => exact source_photon_safe S G.src D (u t) fuel q hp
  | fuel => rw [hp] at hq; cases hq
  | ok x =>
    rw [hp, Out.bind_ok, hl] at hq
    obtain ⟨h0, -⟩ := source_photon_geometry S G.src D (u t) (hu t) fuel q x.1 x.2 hp
    obtain ⟨c, o, P', hL⟩ := launch_noleak_returns lib D G.grid fuel k x.1.photon h0.ge S.energies G.comp
    rw [hL, Out.bind_ok] at hq
    cases hq

end Polycap
