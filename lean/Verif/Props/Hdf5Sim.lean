import Verif.Props.Hdf5File
import Verif.Props.SimExample

/-!
# C38: the file written after a simulation
-/
namespace Polycap.H5
open CNum

variable {α : Type}

theorem exists_list {β : Type} (P : Nat → β → Prop) : ∀ n, (∀ j < n, ∃ v, P j v) → ∃ l : List β, l.length = n ∧ ∀ j v, l[j]? = some v → P j v
  | 0, _ => ⟨[], rfl, by simp⟩
  | n + 1, h => by
    obtain ⟨l, hl, h'⟩ := exists_list P n (fun j hj => h j (by omega))
    obtain ⟨v, hv⟩ := h n (by omega)
    refine ⟨l ++ [v], by simp [hl], fun j w hw => ?_⟩
    by_cases hj : j < n
    · rw [List.getElem?_append_left (by omega)] at hw
      exact h' j w hw
    · rw [List.getElem?_append_right (by omega), hl] at hw
      have : j = n := by
        by_contra hne
        rw [List.getElem?_eq_none (by simp; omega)] at hw
        cases hw
      subst this
      simp at hw; exact hw ▸ hv

variable [CNum α]

omit [CNum α] in
theorem written_rows {ne N : Nat} {L : Nat → Option (LeakRec α)} {W : Nat → Option α} {rec : Leak α → LeakRec α} {ls : List (Leak α)}
    (w : Written ne N L W rec ls) : HoldsRows ne W (ls.map (fun l => l.weight.take ne)) := by
  refine ⟨fun r hr => ?_, fun j r hr l hl => ?_⟩
  · obtain ⟨x, hx, rfl⟩ := List.mem_map.1 hr
    have := w.long x hx
    simp; omega
  · rw [List.getElem?_map] at hr
    cases hx : ls[j]? with
    | none => rw [hx] at hr; cases hr
    | some x =>
      rw [hx] at hr
      simp only [Option.map_some, Option.some.injEq] at hr
      subst hr
      obtain ⟨hj, rfl⟩ := List.getElem?_eq_some_iff.1 hx
      exact w.rows j l hj hl

/-- What a simulation returns holds a list of events: for slot `j` the one photon of that slot that came out. -/
theorem reports_hold {C : Cfg α} {H : List (Nat × Attempt α)} {r : TE α} (R : Reports C H r) (he : r.effs.length = C.ne)
    (hn : r.energies.length = C.ne) :
    ∃ (ps : List (Attempt α)) (es is : List (Leak α)), ps.length = C.n ∧ (∀ j a, ps[j]? = some a → (j, a) ∈ H ∧ simCode C.D a = 1) ∧
      es.Perm (if C.leak then extOf C.D C.ne H else []) ∧ is.Perm (if C.leak then intOf C.D C.ne H else []) ∧
      Holds r ⟨ps.map startRec, ps.map (fun a => exitRec C.D.prof a.ph), ps.map (wtsOf C.ne), es.map extRec, es.map (fun l => l.weight.take C.ne),
        is.map intRec, is.map (fun l => (l.elecv.x, l.elecv.y)), is.map (fun l => l.weight.take C.ne)⟩ := by
  obtain ⟨ps, hp, hps⟩ := exists_list _ C.n R.slot
  obtain ⟨es, pe, we⟩ := R.ext
  obtain ⟨is, pi, wi⟩ := R.int
  refine ⟨ps, es, is, hp, fun j a h => ⟨(hps j a h).1, (hps j a h).2.1⟩, pe, pi, ?_⟩
  have hg : ∀ j < r.iExit, ∃ a, ps[j]? = some a := fun j hj => ⟨ps[j]'(by rw [hp, ← R.iExit]; exact hj), List.getElem?_eq_getElem _⟩
  constructor
  · rw [he, hn]
  · simp [hp, R.iExit]
  · simp [hp, R.iExit]
  · simp [hp, R.iExit]
  · intro j hj
    obtain ⟨a, ha⟩ := hg j hj
    rw [(hps j a ha).2.2.2.1]; simp [ha]
  · intro j hj
    obtain ⟨a, ha⟩ := hg j hj
    rw [(hps j a ha).2.2.2.2.1]; simp [ha]
  · rw [hn]
    refine ⟨fun w hw => ?_, fun j w hw l hl => ?_⟩
    · obtain ⟨a, ha, rfl⟩ := List.mem_map.1 hw
      obtain ⟨j, hj⟩ := List.mem_iff_getElem?.1 ha
      exact (hps j a hj).2.2.2.2.2.1
    · simp only [List.getElem?_map, Option.map_eq_some_iff] at hw
      obtain ⟨a, ha, rfl⟩ := hw
      exact (hps j a ha).2.2.2.2.2.2 l hl
  · simp [we.len]
  · simp [we.len]
  · intro j _; rw [we.recs]; simp
  · rw [hn]; exact written_rows we
  · simp [wi.len]
  · simp [intRec]
  · simp [wi.len]
  · intro j _; rw [wi.recs]; simp
  · rw [hn]; exact written_rows wi

/-- The photons of an outcome, with one efficiency per energy. -/
theorem outcome_reports' (lib : Xray α) (a : SimArgs α) (omp : Int) (e : EArg) (r : TE α) (e' : EArg) (h : SimOutcome lib a omp e (some r) e') :
    ∃ (S : Src α) (D : Descr α) (u : Nat → Nat → α) (fuel k : Nat) (H : List (Nat × Attempt α)), a.source = some (S, some D) ∧
      Reports (simCfg lib S D a omp u fuel k) H r ∧ r.energies = S.energies ∧ r.effs.length = S.energies.length := by
  cases h with
  | ran h S D hs u hu fuel k asg hd n s hr hf =>
    exact ⟨S, D, u, fuel, k, _, hs, simulation_reports hd hr hf S.energies, rfl, effs_length hr hf S.energies⟩

/-- **C38.**  Simulate, then write: if the call returns `true`, the file holds, for every transmitted photon and every leak of the
simulation, what was recorded of it, and the parameters of the simulation. -/
theorem simulation_file (lib : Xray α) (a : SimArgs α) (omp : Int) (e : EArg) (r : TE α) (e' : EArg) (h : SimOutcome lib a omp e (some r) e')
    {env : Env} (hs : env.Stacks) (hu : ∀ n, env.ok .mallocU n = true) {S : Src α} {D : Descr α} (hS : a.source = some (S, some D))
    (hz : D.iz.length = D.wi.length) :
    ∃ (H : List (Nat × Attempt α)) (u : Nat → Nat → α) (fuel k : Nat) (ps : List (Attempt α)) (es is : List (Leak α)) (b : Bool) (w : W α),
      Reports (simCfg lib S D a omp u fuel k) H r ∧
      ps.length = a.nPhotons.toNat ∧ (∀ j p, ps[j]? = some p → (j, p) ∈ H ∧ simCode D p = 1) ∧
      es.Perm (if a.leak then extOf D S.energies.length H else []) ∧ is.Perm (if a.leak then intOf D S.energies.length H else []) ∧
      writeHdf5 env true (some r) (some ⟨S, D, r.openArea⟩) e' = .ok (b, w) ∧
      (b = true → w.k.sets.reverse = fullFile r ⟨ps.map startRec, ps.map (fun p => exitRec D.prof p.ph), ps.map (wtsOf S.energies.length),
        es.map extRec, es.map (fun l => l.weight.take S.energies.length), is.map intRec, is.map (fun l => (l.elecv.x, l.elecv.y)),
        is.map (fun l => l.weight.take S.energies.length)⟩ ⟨S, D, r.openArea⟩) := by
  obtain ⟨S', D', u, fuel, k, H, hS', R, hE, hF⟩ := outcome_reports' lib a omp e r e' h
  rw [hS] at hS'
  simp only [Option.some.injEq, Prod.mk.injEq] at hS'
  obtain ⟨rfl, rfl⟩ := hS'
  obtain ⟨ps, es, is, h1, h2, h3, h4, hH⟩ := reports_hold R hF (by rw [hE]; rfl)
  obtain ⟨b, w, hw, -, -, hb, -⟩ := hdf5_write (inp := ⟨S, D, r.openArea⟩) hs hu hH hz e'
  exact ⟨H, u, fuel, k, ps, es, is, b, w, R, h1, h2, h3, h4, hw, fun ht => (hb ht).1⟩

/-! ## Examples -/

/-- an environment in which only the calls in `l` fail -/
def envFail (l : List Call) : Env := ⟨Tables.initial, fun c _ => !decide (c ∈ l), fun _ => ⟨[⟨0, 0, true⟩], true, true⟩⟩

theorem envFail_stacks (l : List Call) : (envFail l).Stacks := fun _ => by simp [envFail]

/-- one photon, one energy, one external and one internal leak -/
noncomputable def exTE : TE ℝ where
  energies := [10]
  effs := [1/2]
  openArea := 1
  iStart := 2
  iExit := 1
  iExt := 1
  iInt := 1
  start j := if j = 0 then some ⟨1, 2, 3, 4, 5, 6, 7, 8⟩ else none
  exit j := if j = 0 then some ⟨1, 2, 3, 4, 5, 6, 7, 8, 9⟩ else none
  exitW j := if j = 0 then some (1/2) else none
  extL j := if j = 0 then some ⟨⟨1, 2, 3⟩, 4, 5, none, 1⟩ else none
  extW j := if j = 0 then some (1/4) else none
  intL j := if j = 0 then some ⟨⟨1, 2, 3⟩, 4, 5, some (6, 7), 2⟩ else none
  intW j := if j = 0 then some (1/8) else none

noncomputable def exEv : Events ℝ where
  starts := [⟨1, 2, 3, 4, 5, 6, 7, 8⟩]
  exits := [⟨1, 2, 3, 4, 5, 6, 7, 8, 9⟩]
  wts := [[1/2]]
  ext := [⟨⟨1, 2, 3⟩, 4, 5, none, 1⟩]
  extW := [[1/4]]
  int := [⟨⟨1, 2, 3⟩, 4, 5, some (6, 7), 2⟩]
  intE := [(6, 7)]
  intW := [[1/8]]

theorem ex_holds : Holds exTE exEv := by
  have one : ∀ j < 1, j = 0 := fun j hj => by omega
  have rows : ∀ (f : Nat → Option ℝ) (x : ℝ), f 0 = some x → HoldsRows 1 f [[x]] := fun f x hf =>
    ⟨by simp, fun j r hr l hl => by
      rcases j with _ | j
      · simp at hr; subst hr; rw [one l hl]; simp [hf]
      · simp at hr⟩
  constructor <;> try rfl
  · intro j hj; rw [one j hj]; rfl
  · intro j hj; rw [one j hj]; rfl
  · exact rows _ _ rfl
  · intro j hj; rw [one j hj]; rfl
  · exact rows _ _ rfl
  · intro j hj; rw [one j hj]; rfl
  · exact rows _ _ rfl

/-- all calls succeed: `true` and a complete file -/
example : ∃ w, writeHdf5 (envFail []) true (some exTE) (some ⟨zSrc, zD, 1⟩) (some none) = .ok (true, w) ∧
    w.k.sets.reverse = fullFile exTE exEv ⟨zSrc, zD, 1⟩ := by
  obtain ⟨b, w, h, -, h2, h3, -, -⟩ := hdf5_write (envFail_stacks []) (fun _ => rfl) ex_holds (inp := ⟨zSrc, zD, 1⟩) rfl (some none)
  cases b with
  | false => obtain ⟨c, n, -, -, hc⟩ := h2 rfl; simp [envFail] at hc
  | true => exact ⟨w, h, (h3 rfl).1⟩

/-- only closing the file fails: `true` all the same -/
example : ∃ w c, writeHdf5 (envFail [.fclose]) true (some exTE) (some ⟨zSrc, zD, 1⟩) (some none) = .ok (true, w) ∧
    (.fclose, false) ∈ w.log ∧ w.err = some (some c) :=
  hdf5_close_failure (envFail_stacks _) (fun c n => by simp [envFail]) ex_holds rfl

/-- writing a dataset fails: `false`, an error is set, the file stays open -/
example : ∃ w, writeHdf5 (envFail [.dcreate]) true (some exTE) (some ⟨zSrc, zD, 1⟩) (some none) = .ok (false, w) ∧ w.k.file = true ∧ w.ids = 2 :=
  hdf5_failure_leaks (envFail_stacks _) (fun c n => by simp [envFail]) _ _ _

/-- the source was released before -/
example : writeHdf5 (envFail []) true (some exTE) none (some none) = .ub :=
  hdf5_source_needed (envFail_stacks _) (fun c n => by simp [envFail]) ex_holds _

/-- the simulation of `z_simulation`, written to a file -/
example : ∃ r w, SimOutcome zLib zArgs 1 none (some r) none ∧ writeHdf5 (envFail []) true (some r) (some ⟨zSrc, zD, r.openArea⟩) none = .ok (true, w) := by
  obtain ⟨r, h, -⟩ := z_simulation
  obtain ⟨S, D, u, fuel, k, H, hS, R, hE, hF⟩ := outcome_reports' _ _ _ _ _ _ h
  obtain ⟨ps, es, is, -, -, -, -, hH⟩ := reports_hold R hF (by rw [hE]; rfl)
  obtain ⟨b, w, hw, -, h2, -⟩ := hdf5_write (envFail_stacks []) (fun _ => rfl) hH (inp := ⟨zSrc, zD, r.openArea⟩) rfl none
  cases b with
  | false => obtain ⟨c, n, -, -, hc⟩ := h2 rfl; simp [envFail] at hc
  | true => exact ⟨r, w, h, hw⟩

end Polycap.H5
