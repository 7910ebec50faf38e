import Verif.Getters
import Verif.Props.Hdf5Sim
import Verif.Props.Fresnel

/-!
# C37: reading the results of a simulation
-/
namespace Polycap.Get
open CNum Polycap.H5

variable {α : Type} [CNum α]

omit [CNum α] in
theorem firstFail_none {ok : Nat → Bool} : ∀ {n : Nat}, firstFail ok n = none ↔ ∀ k < n, ok k = true
  | 0 => by simp [firstFail]
  | n + 1 => by
    have ih := @firstFail_none ok n
    rw [firstFail]
    cases h : firstFail ok n with
    | some i =>
      simp only [reduceCtorEq, false_iff, not_forall]
      have : ¬ ∀ k < n, ok k = true := fun h' => by rw [ih.2 h'] at h; cases h
      push Not at this
      obtain ⟨k, hk, hn⟩ := this
      exact ⟨k, by omega, hn⟩
    | none =>
      have h' := ih.1 h
      by_cases hn : ok n = true
      · rw [if_pos hn]
        exact ⟨fun _ k hk => by
          by_cases e : k = n
          · rw [e]; exact hn
          · exact h' k (by omega), fun _ => rfl⟩
      · rw [if_neg hn]
        simp only [reduceCtorEq, false_iff, not_forall]
        exact ⟨n, by omega, hn⟩

omit [CNum α] in
theorem firstFail_some {ok : Nat → Bool} {n : Nat} (h : ¬ ∀ k < n, ok k = true) : ∃ i, firstFail ok n = some i := by
  cases h' : firstFail ok n with
  | none => exact absurd (firstFail_none.1 h') h
  | some i => exact ⟨i, rfl⟩

omit [CNum α] in
theorem read_events {β : Type} {f : Nat → Option β} {xs : List β} {n : Nat} (hl : xs.length = n) (h : ∀ j < n, f j = xs[j]?) :
    readBuf f n = .ok xs := by
  rw [readBuf_ok f xs n (by omega) h, List.take_of_length_le (by omega)]

omit [CNum α] in
theorem rowAt_ok {ne : Nat} {w : Nat → Option α} {rows : List (List α)} (h : HoldsRows ne w rows) {i : Nat} {r : List α} (hr : rows[i]? = some r) :
    rowAt w ne i = .ok r :=
  read_events (h.1 r (List.mem_of_getElem? hr)) (h.2 i r hr)

omit [CNum α] in
theorem rowsLoop_ok {ok : Nat → Bool} {base ne : Nat} {w : Nat → Option α} {rows : List (List α)} (h : HoldsRows ne w rows) :
    ∀ n ≤ rows.length, (∃ x, rowsLoop ok base w ne n = .ok x) ∧
      ((∀ k < n, ok (base + k) = true) → rowsLoop ok base w ne n = .ok (some (rows.take n))) ∧
      (¬ (∀ k < n, ok (base + k) = true) → rowsLoop ok base w ne n = .ok none)
  | 0, _ => ⟨⟨_, rfl⟩, fun _ => by simp [rowsLoop], fun h => absurd (fun k hk => absurd hk (Nat.not_lt_zero _)) h⟩
  | n + 1, hn => by
    obtain ⟨-, i1, i2⟩ := rowsLoop_ok (ok := ok) (base := base) h n (by omega)
    have hr : rows[n]? = some rows[n] := List.getElem?_eq_getElem _
    by_cases hk : ∀ k < n, ok (base + k) = true
    · have e := i1 hk
      by_cases hb : ok (base + n) = true
      · have e' : rowsLoop ok base w ne (n + 1) = .ok (some (rows.take (n + 1))) := by
          rw [rowsLoop, e, Out.bind_ok]
          simp only [hb, if_true]
          rw [rowAt_ok h hr, Out.bind_ok, List.take_add_one, hr]; rfl
        refine ⟨⟨_, e'⟩, fun _ => e', fun hc => absurd (fun k hk' => ?_) hc⟩
        by_cases e : k = n
        · rw [e]; exact hb
        · exact hk k (by omega)
      · have e' : rowsLoop ok base w ne (n + 1) = .ok none := by
          rw [rowsLoop, e, Out.bind_ok]
          simp only [hb, Bool.false_eq_true, if_false]
        exact ⟨⟨_, e'⟩, fun hc => absurd (hc n (by omega)) hb, fun _ => e'⟩
    · have e' : rowsLoop ok base w ne (n + 1) = .ok none := by rw [rowsLoop, i2 hk, Out.bind_ok]
      exact ⟨⟨_, e'⟩, fun hc => absurd (fun k hk' => hc k (by omega)) hk, fun _ => e'⟩

/-! ## Nothing to read -/

/-- **C37.**  NULL results or results without images: `false`, an "invalid argument" error, and no output variable touched. -/
theorem getters_null (ok : Nat → Bool) (te : Arg α) (e : EArg) (h : te = none ∨ te = some none) :
    getStart ok te e = .ok (false, e.set .invalidArgument, ⟨none, none, .untouched, .untouched, .untouched, .untouched⟩) ∧
    getExit ok te e = .ok (false, e.set .invalidArgument, ⟨none, none, .untouched, .untouched, .untouched, .untouched, .untouched, .untouched⟩) ∧
    getExt ok te e = .ok (false, e.set .invalidArgument, ⟨none, .untouched⟩) ∧
    getInt ok te e = .ok (false, e.set .invalidArgument, ⟨none, .untouched⟩) := by
  rcases h with rfl | rfl <;> exact ⟨rfl, rfl, rfl, rfl⟩

/-- **C37.**  No leak of a kind: `false`, an error, a count of 0 and a NULL array. -/
theorem getters_no_leaks (ok : Nat → Bool) (r : TE α) (e : EArg) :
    (r.iExt = 0 → getExt ok (some (some r)) e = .ok (false, e.set .invalidArgument, ⟨some 0, .null⟩)) ∧
    (r.iInt = 0 → getInt ok (some (some r)) e = .ok (false, e.set .invalidArgument, ⟨some 0, .null⟩)) := by
  constructor <;> intro h <;> simp [getExt, getInt, getLeaks, h]

/-! ## The recorded values -/

/-- **C37**, start values.  The arrays have one entry per transmitted photon: entrance position (at z = 0), start direction and
electric vector with rebuilt third components, source position.  If an allocation fails: `false` and a "memory" error. -/
theorem start_data (ok : Nat → Bool) {r : TE α} {ev : Events α} (H : Holds r ev) (h0 : r.iStart ≠ 0) (h1 : r.iExit ≠ 0) (e : EArg) :
    ((∀ k < 4, ok k = true) → getStart ok (some (some r)) e = .ok (true, e, ⟨some r.iStart, some r.iExit,
      .arr (ev.starts.map (fun s => ⟨s.x, s.y, lit 0⟩)), .arr (ev.starts.map (fun s => ⟨s.dirX, s.dirY, sqrt (lit 1 -. s.dirX *. s.dirX -. s.dirY *. s.dirY)⟩)),
      .arr (ev.starts.map (fun s => ⟨s.elecX, s.elecY, sqrt (lit 1 -. s.elecX *. s.elecX -. s.elecY *. s.elecY)⟩)),
      .arr (ev.starts.map (fun s => ⟨s.srcX, s.srcY, lit 0⟩))⟩)) ∧
    (¬ (∀ k < 4, ok k = true) → ∃ o, getStart ok (some (some r)) e = .ok (false, e.set .memory, o)) := by
  constructor
  · intro h
    have : getStart ok (some (some r)) e = _ := (if_neg h0).trans (if_neg h1)
    rw [this, firstFail_none.2 h]
    dsimp only
    rw [read_events H.nStart H.start, Out.bind_ok]
    rfl
  · intro h
    obtain ⟨i, hi⟩ := firstFail_some h
    have : getStart ok (some (some r)) e = _ := (if_neg h0).trans (if_neg h1)
    exact ⟨_, by rw [this, hi]⟩

/-- **C37**, exit values: as many entries as transmitted photons, with the reflections, the distance and one weight per energy each. -/
theorem exit_data (ok : Nat → Bool) {r : TE α} {ev : Events α} (H : Holds r ev) (h0 : r.iStart ≠ 0) (e : EArg) :
    ((∀ k < 6 + r.iExit, ok k = true) → getExit ok (some (some r)) e = .ok (true, e, ⟨some r.iExit, some r.energies.length,
      .arr (ev.exits.map (fun s => ⟨s.x, s.y, s.z⟩)), .arr (ev.exits.map (fun s => ⟨s.dirX, s.dirY, sqrt (lit 1 -. s.dirX *. s.dirX -. s.dirY *. s.dirY)⟩)),
      .arr (ev.exits.map (fun s => ⟨s.elecX, s.elecY, sqrt (lit 1 -. s.elecX *. s.elecX -. s.elecY *. s.elecY)⟩)),
      .arr (ev.exits.map (·.n_refl)), .arr (ev.exits.map (·.d_travel)), .arr ev.wts⟩)) ∧
    (¬ (∀ k < 6 + r.iExit, ok k = true) → ∃ o, getExit ok (some (some r)) e = .ok (false, e.set .memory, o)) := by
  have key : getExit ok (some (some r)) e = _ := if_neg h0
  obtain ⟨-, l1, l2⟩ := rowsLoop_ok (ok := ok) (base := 6) H.wts r.iExit (by rw [H.nWts])
  constructor
  · intro h
    rw [key, firstFail_none.2 (fun k hk => h k (by omega))]
    dsimp only
    rw [read_events H.nExit H.exit, Out.bind_ok, l1 (fun k hk => h _ (by omega)), Out.bind_ok, List.take_of_length_le (by rw [H.nWts])]
    rfl
  · intro h
    by_cases h6 : ∀ k < 6, ok k = true
    · have hn : ¬ ∀ k < r.iExit, ok (6 + k) = true := fun hc => h (fun k hk => by
        by_cases hk6 : k < 6
        · exact h6 k hk6
        · have := hc (k - 6) (by omega); rwa [show 6 + (k - 6) = k by omega] at this)
      rw [key, firstFail_none.2 h6]
      dsimp only
      rw [read_events H.nExit H.exit, Out.bind_ok, l2 hn, Out.bind_ok]
      exact ⟨_, rfl⟩
    · obtain ⟨i, hi⟩ := firstFail_some h6
      exact ⟨_, by rw [key, hi]⟩

omit [CNum α] in
theorem leakLoop_ok {ok : Nat → Bool} {mk : Nat → LeakRec α → List α → Out (GLeak α)} {L : Nat → Option (LeakRec α)} {ne : Nat} {w : Nat → Option α}
    {rows : List (List α)} (h : HoldsRows ne w rows) {recs : List (LeakRec α)} (hL : ∀ j < rows.length, L j = recs[j]?)
    {out : List (GLeak α)} (ho : out.length = rows.length) (hlen : recs.length = rows.length)
    (hmk : ∀ (j : Nat) l r g, recs[j]? = some l → rows[j]? = some r → out[j]? = some g → mk ne l r = .ok g) :
    ∀ n ≤ rows.length, ((∀ k < 2 * n, ok (1 + k) = true) → leakLoop ok mk L w ne n = .ok (some (out.take n))) ∧
      (¬ (∀ k < 2 * n, ok (1 + k) = true) → leakLoop ok mk L w ne n = .ok none)
  | 0, _ => ⟨fun _ => by simp [leakLoop], fun h => absurd (fun k hk => by omega) h⟩
  | n + 1, hn => by
    obtain ⟨i1, i2⟩ := leakLoop_ok (ok := ok) h hL ho hlen hmk n (by omega)
    have hr : rows[n]? = some rows[n] := List.getElem?_eq_getElem _
    have hl : recs[n]? = some recs[n] := List.getElem?_eq_getElem _
    have hg : out[n]? = some out[n] := List.getElem?_eq_getElem _
    by_cases hk : ∀ k < 2 * n, ok (1 + k) = true
    · have e := i1 hk
      by_cases hb : ok (1 + 2 * n) = true
      · by_cases hc : ok (2 + 2 * n) = true
        · refine ⟨fun _ => ?_, fun hc' => absurd (fun k hk' => ?_) hc'⟩
          · rw [leakLoop, e, Out.bind_ok]
            simp only [hb, hc, if_true, hL n (by omega), hl]
            rw [rowAt_ok h hr, Out.bind_ok, hmk n _ _ _ hl hr hg, Out.bind_ok, List.take_add_one, hg]; rfl
          · by_cases e1 : k = 2 * n
            · rw [e1]; exact hb
            · by_cases e2 : k = 2 * n + 1
              · rw [e2, show 1 + (2 * n + 1) = 2 + 2 * n by omega]; exact hc
              · exact hk k (by omega)
        · refine ⟨fun hc' => absurd (hc' (2 * n + 1) (by omega)) (by rw [show 1 + (2 * n + 1) = 2 + 2 * n by omega]; exact hc), fun _ => ?_⟩
          rw [leakLoop, e, Out.bind_ok]
          simp only [hb, hc, Bool.false_eq_true, if_true, if_false, hL n (by omega), hl]
      · refine ⟨fun hc' => absurd (hc' (2 * n) (by omega)) hb, fun _ => ?_⟩
        rw [leakLoop, e, Out.bind_ok]
        simp only [hb, Bool.false_eq_true, if_false]
    · refine ⟨fun hc => absurd (fun k hk' => hc k (by omega)) hk, fun _ => ?_⟩
      rw [leakLoop, i2 hk, Out.bind_ok]

omit [CNum α] in
theorem getLeaks_ok (ok : Nat → Bool) {mk : Nat → LeakRec α → List α → Out (GLeak α)} {cnt : TE α → Nat} {L : TE α → Nat → Option (LeakRec α)}
    {w : TE α → Nat → Option α} {r : TE α} {rows : List (List α)} (h : HoldsRows r.energies.length (w r) rows) {recs : List (LeakRec α)}
    (hlen : recs.length = cnt r) (hrows : rows.length = cnt r) (hL : ∀ j < cnt r, L r j = recs[j]?) {out : List (GLeak α)} (ho : out.length = cnt r)
    (hmk : ∀ (j : Nat) l y g, recs[j]? = some l → rows[j]? = some y → out[j]? = some g → mk r.energies.length l y = .ok g)
    (h0 : cnt r ≠ 0) (e : EArg) :
    ((∀ k < 1 + 2 * cnt r, ok k = true) → getLeaks ok mk cnt L w (some (some r)) e = .ok (true, e, ⟨some (cnt r), .arr out⟩)) ∧
    (¬ (∀ k < 1 + 2 * cnt r, ok k = true) → ∃ o, getLeaks ok mk cnt L w (some (some r)) e = .ok (false, e.set .memory, o)) := by
  have key : getLeaks ok mk cnt L w (some (some r)) e = _ := if_neg h0
  obtain ⟨l1, l2⟩ := leakLoop_ok (ok := ok) h (by rw [hrows]; exact hL) (by omega) (by omega) hmk (cnt r) (by omega)
  constructor
  · intro hk
    rw [key, if_pos (hk 0 (by omega)), l1 (fun k hk' => hk _ (by omega)), Out.bind_ok, List.take_of_length_le (by omega)]
  · intro hk
    rw [key]
    by_cases hz : ok 0 = true
    · have hn : ¬ ∀ k < 2 * cnt r, ok (1 + k) = true := fun hc => hk (fun k hk' => by
        rcases k with _ | k
        · exact hz
        · rw [Nat.add_comm]; exact hc k (by omega))
      rw [if_pos hz, l2 hn, Out.bind_ok]
      exact ⟨_, rfl⟩
    · rw [if_neg hz]; exact ⟨_, rfl⟩

/-- **C37**, external leaks: one entry per leak, in the recorded order, with its position, its direction with rebuilt third component,
its reflections and its weights.  The electric vector of the entries is never written. -/
theorem extleak_data (ok : Nat → Bool) {r : TE α} {ev : Events α} (H : Holds r ev) (h0 : r.iExt ≠ 0) (e : EArg) :
    ((∀ k < 1 + 2 * r.iExt, ok k = true) → getExt ok (some (some r)) e = .ok (true, e, ⟨some r.iExt,
      .arr (List.zipWith (fun l w => ⟨l.coords, ⟨l.dirX, l.dirY, sqrt (lit 1 -. l.dirX *. l.dirX -. l.dirY *. l.dirY)⟩, none, r.energies.length, l.n_refl, w⟩)
        ev.ext ev.extW)⟩)) ∧
    (¬ (∀ k < 1 + 2 * r.iExt, ok k = true) → ∃ o, getExt ok (some (some r)) e = .ok (false, e.set .memory, o)) := by
  refine getLeaks_ok ok H.extW H.nExt H.nExtW H.ext (by simp [H.nExt, H.nExtW]) ?_ h0 e
  intro j l y g hl hy hg
  rw [List.getElem?_zipWith, hl, hy] at hg
  injection hg with hg
  rw [← hg]; rfl

/-- **C37**, internal leaks: in addition the electric vector, its third component rebuilt. -/
theorem intleak_data (ok : Nat → Bool) {r : TE α} {ev : Events α} (H : Holds r ev) (h0 : r.iInt ≠ 0) (e : EArg) :
    ((∀ k < 1 + 2 * r.iInt, ok k = true) → getInt ok (some (some r)) e = .ok (true, e, ⟨some r.iInt,
      .arr (List.zipWith (fun (le : LeakRec α × (α × α)) w => ⟨le.1.coords, ⟨le.1.dirX, le.1.dirY, sqrt (lit 1 -. le.1.dirX *. le.1.dirX -. le.1.dirY *. le.1.dirY)⟩,
        some ⟨le.2.1, le.2.2, sqrt (lit 1 -. le.2.1 *. le.2.1 -. le.2.2 *. le.2.2)⟩, r.energies.length, le.1.n_refl, w⟩)
        (ev.int.zip ev.intE) ev.intW)⟩)) ∧
    (¬ (∀ k < 1 + 2 * r.iInt, ok k = true) → ∃ o, getInt ok (some (some r)) e = .ok (false, e.set .memory, o)) := by
  have hE : ev.intE.length = ev.int.length := by have := congrArg List.length H.nIntE; simpa using this.symm
  refine getLeaks_ok ok H.intW H.nInt H.nIntW H.int (by simp [H.nInt, H.nIntW, hE]) ?_ h0 e
  intro j l y g hl hy hg
  rw [List.getElem?_zipWith, hy] at hg
  cases hz : (ev.int.zip ev.intE)[j]? with
  | none => rw [hz] at hg; cases hg
  | some p =>
    rw [hz] at hg
    rw [List.getElem?_zip_eq_some] at hz
    injection hg with hg
    have e1 : p.1 = l := by rw [hl] at hz; exact (Option.some.inj hz.1).symm
    have e2 : l.elec = some p.2 := by
      have := congrArg (fun x => x[j]?) H.nIntE
      simp only [List.getElem?_map, hl, hz.2, Option.map_some, Option.some.injEq] at this
      exact this
    subst e1
    rw [← hg]; simp [intLeak, e2, rebuilt, restZ]

omit [CNum α] in
/-- **C37**, efficiencies: copies of the energies and of the efficiencies, each only if asked for.  A failing allocation is not
noticed: undefined behaviour. -/
theorem result_data (ok : Nat → Bool) (r : TE α) (wN wE wT : Bool) (e : EArg) :
    (((wE = true → ok 0 = true) ∧ (wT = true → ok 1 = true)) → getData ok (some r) wN wE wT e = .ok (true, e,
      ⟨if wN then some r.energies.length else none, if wE then .arr r.energies else .untouched, if wT then .arr r.effs else .untouched⟩)) ∧
    (¬ ((wE = true → ok 0 = true) ∧ (wT = true → ok 1 = true)) → getData ok (some r) wN wE wT e = .ub) ∧
    getData ok (none : Option (TE α)) wN wE wT e = .ok (false, e.set .invalidArgument, ⟨none, .untouched, .untouched⟩) := by
  refine ⟨?_, ?_, rfl⟩
  · rintro ⟨h1, h2⟩
    cases wE <;> cases wT <;> simp [getData, copyOut, h1, h2]
  · intro h
    cases wE <;> cases wT <;> simp_all [getData, copyOut]
    · cases hh : ok 0 <;> simp_all

/-! ## Rebuilt vectors -/

/-- **C37.**  A unit vector pointing downstream is rebuilt exactly. -/
theorem rebuilt_direction (d : V3 ℝ) (h1 : d.x ^ 2 + d.y ^ 2 + d.z ^ 2 = 1) (hz : 0 ≤ d.z) : rebuilt d.x d.y = d := by
  have : restZ d.x d.y = d.z := by
    simp only [restZ, real_sqrt, real_sub, real_mul, real_lit]
    rw [show (((1:ℚ):ℝ) - d.x * d.x - d.y * d.y) = d.z ^ 2 by push_cast; linarith [h1], Real.sqrt_sq hz]
  rw [rebuilt, this]

/-- A unit vector pointing upstream is not: the sign of its third component is lost. -/
theorem rebuilt_upstream (d : V3 ℝ) (h1 : d.x ^ 2 + d.y ^ 2 + d.z ^ 2 = 1) (hz : d.z < 0) : rebuilt d.x d.y = ⟨d.x, d.y, -d.z⟩ :=
  rebuilt_direction ⟨d.x, d.y, -d.z⟩ (by simpa using h1) (by simpa using hz.le)

example : rebuilt (3/5 : ℝ) 0 = ⟨3/5, 0, 4/5⟩ := rebuilt_direction ⟨3/5, 0, 4/5⟩ (by norm_num) (by norm_num)

/-! ## After a simulation -/

/-- **C37.**  Simulate, then read (with enough memory): entry `j` of the arrays is what was recorded of the photon `ps[j]` of slot `j`
that came out; the leaks are those of the simulation, each once. -/
theorem simulation_getters (lib : Xray α) (a : SimArgs α) (omp : Int) (e : EArg) (r : TE α) (e' : EArg) (h : SimOutcome lib a omp e (some r) e')
    {S : Src α} {D : Descr α} (hS : a.source = some (S, some D)) (h1 : 1 ≤ a.nPhotons) (ok : Nat → Bool) (hok : ∀ k, ok k = true) :
    ∃ (H : List (Nat × Attempt α)) (u : Nat → Nat → α) (fuel k : Nat) (ps : List (Attempt α)) (es is : List (Leak α)),
      Reports (simCfg lib S D a omp u fuel k) H r ∧
      ps.length = a.nPhotons.toNat ∧ (∀ j p, ps[j]? = some p → (j, p) ∈ H ∧ simCode D p = 1) ∧
      es.Perm (if a.leak then extOf D S.energies.length H else []) ∧ is.Perm (if a.leak then intOf D S.energies.length H else []) ∧
      getStart ok (some (some r)) e' = .ok (true, e', ⟨some r.iStart, some ps.length, .arr (ps.map (fun p => ⟨p.ph.startC.x, p.ph.startC.y, lit 0⟩)),
        .arr (ps.map (fun p => rebuilt p.ph.startD.x p.ph.startD.y)),
        .arr (ps.map (fun p => rebuilt (startRec p).elecX (startRec p).elecY)), .arr (ps.map (fun p => ⟨p.src.x, p.src.y, lit 0⟩))⟩) ∧
      getExit ok (some (some r)) e' = .ok (true, e', ⟨some ps.length, some S.energies.length, .arr (ps.map (fun p => exitAt D.prof p.ph)),
        .arr (ps.map (fun p => rebuilt p.ph.exitD.x p.ph.exitD.y)),
        .arr (ps.map (fun p => rebuilt (exitRec D.prof p.ph).elecX (exitRec D.prof p.ph).elecY)), .arr (ps.map (fun p => p.ph.i_refl)),
        .arr (ps.map (fun p => (exitRec D.prof p.ph).d_travel)), .arr (ps.map (wtsOf S.energies.length))⟩) ∧
      (es ≠ [] → getExt ok (some (some r)) e' = .ok (true, e', ⟨some es.length, .arr (es.map (fun l =>
        ⟨l.coords, rebuilt l.dir.x l.dir.y, none, S.energies.length, l.n_refl, l.weight.take S.energies.length⟩))⟩)) ∧
      (is ≠ [] → getInt ok (some (some r)) e' = .ok (true, e', ⟨some is.length, .arr (is.map (fun l =>
        ⟨l.coords, rebuilt l.dir.x l.dir.y, some (rebuilt l.elecv.x l.elecv.y), S.energies.length, l.n_refl, l.weight.take S.energies.length⟩))⟩)) := by
  obtain ⟨S', D', u, fuel, k, H, hS', R, hE, hF⟩ := outcome_reports' lib a omp e r e' h
  rw [hS] at hS'
  simp only [Option.some.injEq, Prod.mk.injEq] at hS'
  obtain ⟨rfl, rfl⟩ := hS'
  obtain ⟨ps, es, is, hp, h2, h3, h4, hH⟩ := reports_hold R hF (by rw [hE]; rfl)
  have hn : (simCfg lib S D a omp u fuel k).n = a.nPhotons.toNat := rfl
  have hx : r.iExit = ps.length := by rw [R.iExit, hp]
  have hs0 : r.iStart ≠ 0 := by rw [R.iStart, hn]; omega
  have hx0 : r.iExit ≠ 0 := by rw [R.iExit, hn]; omega
  refine ⟨H, u, fuel, k, ps, es, is, R, hp, h2, h3, h4, ?_, ?_, ?_, ?_⟩
  · rw [(start_data ok hH hs0 hx0 e').1 (fun k _ => hok k), hx]
    simp only [List.map_map]; rfl
  · rw [(exit_data ok hH hs0 e').1 (fun k _ => hok k), hx, hE]
    simp only [List.map_map]; rfl
  · intro hne
    have hl : r.iExt = es.length := by have := hH.nExt; simp at this; exact this.symm
    rw [(extleak_data ok hH (by rw [hl]; exact fun h => hne (List.length_eq_zero_iff.1 h)) e').1 (fun k _ => hok k), hl, hE]
    simp only [List.zipWith_map, List.zipWith_self]; rfl
  · intro hne
    have hl : r.iInt = is.length := by have := hH.nInt; simp at this; exact this.symm
    rw [(intleak_data ok hH (by rw [hl]; exact fun h => hne (List.length_eq_zero_iff.1 h)) e').1 (fun k _ => hok k), hl, hE]
    simp only [List.zip_map', List.zipWith_map, List.zipWith_self]; rfl

/-- **C37.**  The start directions handed out are those of the photons, and exit directions are if the photon leaves downstream. -/
theorem simulation_directions {lib : Xray ℝ} {S : Src ℝ} {D : Descr ℝ} (G : GoodSetup lib S D) {leak : Bool} {fuel k : Nat} {u : Nat → ℝ}
    (hu : ∀ i, 0 ≤ u i ∧ u i ≤ 1) {n : Nat} {p : Attempt ℝ} {m : Nat} (h : attempt lib S D leak fuel k u n = .ok (p, m)) (hc : simCode D p = 1) :
    rebuilt p.ph.startD.x p.ph.startD.y = p.ph.startD ∧ p.ph.startC.z = 0 ∧
    (0 ≤ p.ph.exitD.z → rebuilt p.ph.exitD.x p.ph.exitD.y = p.ph.exitD) ∧
    (p.ph.exitD.z < 0 → rebuilt p.ph.exitD.x p.ph.exitD.y = ⟨p.ph.exitD.x, p.ph.exitD.y, -p.ph.exitD.z⟩) := by
  obtain ⟨x, hx, -, hl⟩ := attempt_ok h
  obtain ⟨c0, d0, dd, -⟩ := source_photon_geometry S G.src D u hu fuel n x m hx
  obtain ⟨-, -, hes, hb, -⟩ := (scatf_accepts_iff D S.energies).mp G.comp
  have hne : dot x.photon.startD x.photon.startD ≠ 0 := by rw [dd]; norm_num
  obtain ⟨s1, s2, -⟩ := launch_start lib D leak fuel k _ _ hes hb hne _ _ _ hl
  rw [vnorm_unit _ dd] at s2
  have hcode : p.code = 1 := by
    by_contra hne
    unfold simCode at hc
    rw [if_neg hne] at hc
    exact hne hc
  obtain ⟨ws, hw, -⟩ := attempt_weights G hu h hcode
  rw [hw] at hl
  obtain ⟨qr, m', len, -, -, -, -, -, hu'⟩ := launch_path lib D leak fuel k _ _ hes hb hne _ _ _ hl
  have sq : ∀ v : V3 ℝ, dot v v = 1 → v.x ^ 2 + v.y ^ 2 + v.z ^ 2 = 1 := fun v hv => by
    rw [← hv]; unfold dot; ring
  refine ⟨?_, by rw [s1]; exact c0, fun hz => rebuilt_direction _ (sq _ hu') hz, fun hz => rebuilt_upstream _ (sq _ hu') hz⟩
  rw [s2]
  exact rebuilt_direction _ (sq _ dd) d0.le

/-! ## The electric vectors -/

theorem round_unit {x : ℝ} (h : |x| ≤ 1) : realRoundAway x = -1 ∨ realRoundAway x = 0 ∨ realRoundAway x = 1 := by
  obtain ⟨h1, h2⟩ := abs_le.1 h
  have key : ∀ y : ℝ, 0 ≤ y → y ≤ 1 → ⌊y + 1/2⌋ = 0 ∨ ⌊y + 1/2⌋ = 1 := fun y hy hy' => by
    have l1 : 0 ≤ ⌊y + 1/2⌋ := Int.floor_nonneg.2 (by linarith)
    have l2 : ⌊y + 1/2⌋ < 2 := Int.floor_lt.2 (by push_cast; linarith)
    omega
  unfold realRoundAway
  split
  · rcases key x (by assumption) h2 with h | h <;> rw [h] <;> simp
  · rcases key (-x) (by linarith) (by linarith) with h | h <;> rw [h] <;> simp

theorem vnorm_comp (v : V3 ℝ) : |(vnorm v).x| ≤ 1 ∧ |(vnorm v).y| ≤ 1 := by
  have h := vnorm_dot_le v
  unfold dot at h
  constructor <;> rw [abs_le] <;> constructor <;>
    nlinarith [mul_self_nonneg (vnorm v).x, mul_self_nonneg (vnorm v).y, mul_self_nonneg (vnorm v).z]

/-- Finding (C37): whatever the electric vector, its recorded components are -1, 0 or 1: the vector handed out is a unit vector along
an axis, or else one of length √2. -/
theorem elec_recorded (E0 d0 E d : V3 ℝ) :
    let v := rebuilt (elecRound E0 d0 E d).1 (elecRound E0 d0 E d).2
    (v = ⟨1, 0, 0⟩ ∨ v = ⟨-1, 0, 0⟩ ∨ v = ⟨0, 1, 0⟩ ∨ v = ⟨0, -1, 0⟩ ∨ v = ⟨0, 0, 1⟩) ∨ v.x ^ 2 + v.y ^ 2 = 2 := by
  simp only [elecRound, real_ofInt, real_roundI]
  generalize hv : vnorm (α := ℝ) _ = v
  obtain ⟨hx, hy⟩ : |v.x| ≤ 1 ∧ |v.y| ≤ 1 := by rw [← hv]; exact vnorm_comp _
  rcases round_unit hx with h | h | h <;> rcases round_unit hy with h' | h' | h' <;> simp only [h, h', rebuilt, restZ, real_sqrt, real_sub, real_mul, real_lit] <;>
    norm_num

/-- Finding (C37): a photon along the axis with its electric vector at 45° in the entrance plane is recorded, and handed out, with
an electric vector of length √2; in C the rebuilt third component is not a number. -/
theorem elec_not_rebuilt :
    (∀ (c : V3 ℝ), let E : V3 ℝ := ⟨Real.sqrt 2 / 2, Real.sqrt 2 / 2, 0⟩
      let p : Attempt ℝ := ⟨1, c, ⟨c, ⟨0, 0, 1⟩, E, c, ⟨0, 0, 1⟩, E, 0, 0, [], [], [], false⟩, .untouched⟩
      (startRec p).elecX = 1 ∧ (startRec p).elecY = 1 ∧ (exitRec zProf p.ph).elecX = 1 ∧ (exitRec zProf p.ph).elecY = 1) ∧
    (restZ (XR.fin 1) (XR.fin 1) = XR.nan) := by
  have hs : Real.sqrt 2 * Real.sqrt 2 = 2 := Real.mul_self_sqrt (by norm_num)
  have h1 : (1:ℝ) ≤ Real.sqrt 2 := by rw [← Real.sqrt_one]; exact Real.sqrt_le_sqrt (by norm_num)
  have h2 : Real.sqrt 2 ≤ 2 := by nlinarith [Real.sqrt_nonneg 2]
  constructor
  · intro c
    have hr : realRoundAway (Real.sqrt 2 / 2) = 1 := by
      unfold realRoundAway
      rw [if_pos (by positivity), Int.floor_eq_iff]
      push_cast
      constructor <;> linarith
    have hE : elecRound (⟨Real.sqrt 2 / 2, Real.sqrt 2 / 2, 0⟩ : V3 ℝ) ⟨0, 0, 1⟩ ⟨Real.sqrt 2 / 2, Real.sqrt 2 / 2, 0⟩ ⟨0, 0, 1⟩ = (1, 1) := by
      have hsc : scalar (⟨Real.sqrt 2 / 2, Real.sqrt 2 / 2, 0⟩ : V3 ℝ) ⟨0, 0, 1⟩ = 0 := by
        simp [scalar, real_mul, real_add]
      simp only [elecRound, hsc, real_acos, Real.arccos_zero, real_sin, Real.sin_pi_div_two, real_div, real_lit, real_mul, real_add]
      have hu : vnorm (⟨Real.sqrt 2 / 2, Real.sqrt 2 / 2, 0⟩ : V3 ℝ) = ⟨Real.sqrt 2 / 2, Real.sqrt 2 / 2, 0⟩ :=
        vnorm_unit _ (by unfold dot; simp only; nlinarith)
      norm_num
      rw [hu]
      simp [hr]
    dsimp only [startRec, exitRec]
    rw [hE]
    simp
  · simp only [restZ, xr_lit, xr_mul, xr_sub]
    exact xr_sqrt_neg (x := ((1:ℚ):ℝ) - 1 * 1 - 1 * 1) (by norm_num)

/-! ## Examples -/

example : getStart (fun _ => true) (some (some exTE)) none = .ok (true, none, ⟨some 2, some 1, .arr [⟨3, 4, ((0:ℚ):ℝ)⟩],
    .arr [rebuilt 5 6], .arr [rebuilt 7 8], .arr [⟨1, 2, ((0:ℚ):ℝ)⟩]⟩) :=
  (start_data (fun _ => true) ex_holds (by norm_num [exTE]) (by norm_num [exTE]) none).1 (fun _ _ => rfl)

example : ∃ o, getExit (fun k => !decide (k = 6)) (some (some exTE)) (some none) = .ok (false, some (some .memory), o) :=
  (exit_data (fun k => !decide (k = 6)) ex_holds (by norm_num [exTE]) (some none)).2 (fun h => by have := h 6 (by norm_num [exTE]); simp at this)

example : getInt (fun _ => true) (some (some exTE)) none = .ok (true, none, ⟨some 1, .arr [⟨⟨1, 2, 3⟩, rebuilt 4 5, some (rebuilt 6 7), 1, 2, [1/8]⟩]⟩) :=
  (intleak_data (fun _ => true) ex_holds (by norm_num [exTE]) none).1 (fun _ _ => rfl)

/-- read the results of the simulation `z_simulation` -/
example : ∃ r p, SimOutcome zLib zArgs 1 none (some r) none ∧ getStart (fun _ => true) (some (some r)) none = .ok (true, none, p) ∧ p.nExit = some 1 := by
  obtain ⟨r, h, -⟩ := z_simulation
  obtain ⟨H, u, fuel, k, ps, es, is, -, hp, -, -, -, hs, -⟩ := simulation_getters _ _ _ _ _ _ h (S := zSrc) (D := zD) rfl (by norm_num [zArgs]) (fun _ => true) (fun _ => rfl)
  exact ⟨r, _, h, hs, by rw [hp]; rfl⟩

/-- ... whose second photon is one `simulation_directions` is about -/
example : ∃ p m, attempt zLib zSrc zD false 0 1 zU 6 = .ok (p, m) ∧ rebuilt p.ph.startD.x p.ph.startD.y = p.ph.startD := by
  obtain ⟨p, h, -, h2, -⟩ := z_second 0
  exact ⟨p, _, h, (simulation_directions z_setup (fun i => ⟨(zU_unit i).1, (zU_unit i).2.le⟩) h h2).1⟩

end Polycap.Get
