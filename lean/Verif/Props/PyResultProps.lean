import Verif.PyResults
import Verif.Props.GetterProps
import Verif.Props.MemoryProps

/-!
# C70, C71: results and leaks read from Python
-/
namespace Polycap.Py
open CNum Polycap.H5
set_option linter.unusedSectionVars false
variable {α : Type} [CNum α]

/-! ## Specification (C70) -/

/-- a direction of which the third component is recomputed -/
def unit3 (x y : α) : V3 α := ⟨x, y, sqrt (lit 1 -. x *. x -. y *. y)⟩

/-- what the property has to give when the simulation recorded `ev` -/
def recorded (r : TE α) (ev : Events α) : Field → Got α
  | .extleaks => .leaks (List.zipWith (fun l w => ⟨l.coords, unit3 l.dirX l.dirY, none, r.energies.length, l.n_refl, w⟩) ev.ext ev.extW)
  | .intleaks => .leaks (List.zipWith (fun (le : LeakRec α × (α × α)) w => ⟨le.1.coords, unit3 le.1.dirX le.1.dirY,
      some (unit3 le.2.1 le.2.2), r.energies.length, le.1.n_refl, w⟩) (ev.int.zip ev.intE) ev.intW)
  | .exitCoords => .vectors (ev.exits.map fun s => ⟨s.x, s.y, s.z⟩)
  | .exitDirection => .vectors (ev.exits.map fun s => unit3 s.dirX s.dirY)
  | .exitElecv => .vectors (ev.exits.map fun s => unit3 s.elecX s.elecY)
  | .nRefl => .counts (ev.exits.map (·.n_refl))
  | .exitWeights => .rows ev.wts
  | .dTravel => .numbers (ev.exits.map (·.d_travel))
  | .startCoords => .vectors (ev.starts.map fun s => ⟨s.x, s.y, lit 0⟩)
  | .startDirection => .vectors (ev.starts.map fun s => unit3 s.dirX s.dirY)
  | .startElecv => .vectors (ev.starts.map fun s => unit3 s.elecX s.elecY)
  | .srcStartCoords => .vectors (ev.starts.map fun s => ⟨s.srcX, s.srcY, lit 0⟩)

/-- what the properties give: the recorded values, except that a leak property without leaks raises `ValueError` -/
def given (r : TE α) (ev : Events α) (f : Field) : Got α :=
  if (f = .extleaks ∧ r.iExt = 0) ∨ (f = .intleaks ∧ r.iInt = 0) then .raised .valueError else recorded r ev f

def Field.isExit : Field → Bool
  | .exitCoords | .exitDirection | .exitElecv | .nRefl | .exitWeights | .dTravel => true
  | _ => false

def Field.isStart : Field → Bool
  | .startCoords | .startDirection | .startElecv | .srcStartCoords => true
  | _ => false

/-- the number of blocks the C getters hand out when these properties are read, each getter being called once -/
def blocks (r : TE α) (fs : List Field) : Nat :=
  (if Field.extleaks ∈ fs ∧ r.iExt ≠ 0 then 1 + 2 * r.iExt else 0) + (if Field.intleaks ∈ fs ∧ r.iInt ≠ 0 then 1 + 2 * r.iInt else 0)
    + (if fs.any Field.isExit then 6 + r.iExit else 0) + (if fs.any Field.isStart then 4 else 0)

/-! ## Proof -/

/-- the object after some of the getters were called -/
def view (r : TE α) (ev : Events α) (a b c d : Bool) : TEObj α :=
  { r := r
    nExt := if a then r.iExt else 0
    ext := if a then .arr (List.zipWith (fun l w => ⟨l.coords, unit3 l.dirX l.dirY, none, r.energies.length, l.n_refl, w⟩) ev.ext ev.extW) else .null
    nInt := if b then r.iInt else 0
    int := if b then .arr (List.zipWith (fun (le : LeakRec α × (α × α)) w => ⟨le.1.coords, unit3 le.1.dirX le.1.dirY,
      some (unit3 le.2.1 le.2.2), r.energies.length, le.1.n_refl, w⟩) (ev.int.zip ev.intE) ev.intW) else .null
    nStart := if d then r.iStart else 0
    nExit := if c || d then r.iExit else 0
    nEnergies := if c then r.energies.length else 0
    startC := if d then .arr (ev.starts.map fun s => ⟨s.x, s.y, lit 0⟩) else .null
    startD := if d then .arr (ev.starts.map fun s => unit3 s.dirX s.dirY) else .null
    startE := if d then .arr (ev.starts.map fun s => unit3 s.elecX s.elecY) else .null
    srcC := if d then .arr (ev.starts.map fun s => ⟨s.srcX, s.srcY, lit 0⟩) else .null
    exitC := if c then .arr (ev.exits.map fun s => ⟨s.x, s.y, s.z⟩) else .null
    exitD := if c then .arr (ev.exits.map fun s => unit3 s.dirX s.dirY) else .null
    exitE := if c then .arr (ev.exits.map fun s => unit3 s.elecX s.elecY) else .null
    refl := if c then .arr (ev.exits.map (·.n_refl)) else .null
    travel := if c then .arr (ev.exits.map (·.d_travel)) else .null
    weights := if c then .arr ev.wts else .null
    lost := 0 }

theorem view_new (r : TE α) (ev : Events α) : teNew r = view r ev false false false false := rfl

variable {r : TE α} {ev : Events α} (H : Holds r ev) (hs : r.iStart ≠ 0) (he : r.iExit ≠ 0) {ok : Nat → Bool} (hok : ∀ k, ok k = true)
include H hs he hok

theorem loadExit_view (a b d : Bool) : loadExit ok (view r ev a b false d) = .ok (some none, view r ev a b true d) := by
  have h := (Get.exit_data ok H hs (some none)).1 (fun k _ => hok k)
  unfold loadExit
  rw [show (view r ev a b false d).r = r from rfl, h]
  cases a <;> cases b <;> cases d <;> rfl

theorem loadStart_view (a b c : Bool) : loadStart ok (view r ev a b c false) = .ok (some none, view r ev a b c true) := by
  have h := (Get.start_data ok H hs he (some none)).1 (fun k _ => hok k)
  unfold loadStart
  rw [show (view r ev a b c false).r = r from rfl, h]
  cases a <;> cases b <;> cases c <;> rfl

theorem loadExt_view (h0 : r.iExt ≠ 0) (b c d : Bool) : loadExt ok (view r ev false b c d) = .ok (some none, view r ev true b c d) := by
  have h := (Get.extleak_data ok H h0 (some none)).1 (fun k _ => hok k)
  unfold loadExt
  rw [show (view r ev false b c d).r = r from rfl, h]
  cases b <;> cases c <;> cases d <;> rfl

theorem loadInt_view (h0 : r.iInt ≠ 0) (a c d : Bool) : loadInt ok (view r ev a false c d) = .ok (some none, view r ev a true c d) := by
  have h := (Get.intleak_data ok H h0 (some none)).1 (fun k _ => hok k)
  unfold loadInt
  rw [show (view r ev a false c d).r = r from rfl, h]
  cases a <;> cases c <;> cases d <;> rfl

theorem loadExt_none (h0 : r.iExt = 0) (b c d : Bool) :
    loadExt ok (view r ev false b c d) = .ok (some (some .invalidArgument), view r ev false b c d) := by
  have h := (Get.getters_no_leaks ok r (some none)).1 h0
  unfold loadExt
  rw [show (view r ev false b c d).r = r from rfl, h]
  cases b <;> cases c <;> cases d <;> rfl

theorem loadInt_none (h0 : r.iInt = 0) (a c d : Bool) :
    loadInt ok (view r ev a false c d) = .ok (some (some .invalidArgument), view r ev a false c d) := by
  have h := (Get.getters_no_leaks ok r (some none)).2 h0
  unfold loadInt
  rw [show (view r ev a false c d).r = r from rfl, h]
  cases a <;> cases c <;> cases d <;> rfl

omit H hs he hok in
theorem yields_all {β : Type} {n : Nat} {xs : List β} (h : xs.length = n) (mk : List β → Got α) : yields n (.arr xs) mk = .ok (mk xs) := by
  rw [yields, if_pos (by omega), List.take_of_length_le (by omega)]

omit H hs he hok in
theorem rowsGot_all {ws : List (List α)} {n : Nat} (h : ∀ w ∈ ws, w.length = n) : rowsGot n ws = Got.rows ws := by
  rw [rowsGot, if_pos (by rw [List.all_eq_true]; intro w hw; simp [h w hw])]
  congr 1
  conv_rhs => rw [← List.map_id ws]
  exact List.map_congr_left fun w hw => List.take_of_length_le (h w hw).le

/-- one read of an exit array -/
theorem readExit {β : Type} (cell : TEObj α → Get.Cell (List β)) (mk : TEObj α → List β → Got α) (xs : List β) (hx : xs.length = r.iExit)
    (hc : ∀ a b c d, cell (view r ev a b c d) = if c then .arr xs else .null) (a b c d : Bool) :
    readCell cell (loadExit ok) mk (view r ev a b c d) = .ok (mk (view r ev a b true d) xs, view r ev a b true d) := by
  have hy : yields (view r ev a b true d).nExit (cell (view r ev a b true d)) (mk (view r ev a b true d)) = .ok (mk (view r ev a b true d) xs) := by
    rw [hc, if_pos rfl, show (view r ev a b true d).nExit = r.iExit from rfl, yields_all hx]
  cases c with
  | true =>
    rw [readCell, if_neg (by rw [hc]; simp [isNull]), hy]; rfl
  | false =>
    rw [readCell, if_pos (by rw [hc]; rfl), loadExit_view H hs he hok]
    show (if isNull (cell (view r ev a b true d)) then _ else _) = _
    rw [if_neg (by rw [hc]; simp [isNull]), hy]; rfl

/-- one read of a start array -/
theorem readStart {β : Type} (cell : TEObj α → Get.Cell (List β)) (mk : TEObj α → List β → Got α) (xs : List β) (hx : xs.length = r.iExit)
    (hc : ∀ a b c d, cell (view r ev a b c d) = if d then .arr xs else .null) (a b c d : Bool) :
    readCell cell (loadStart ok) mk (view r ev a b c d) = .ok (mk (view r ev a b c true) xs, view r ev a b c true) := by
  have hy : yields (view r ev a b c true).nExit (cell (view r ev a b c true)) (mk (view r ev a b c true)) = .ok (mk (view r ev a b c true) xs) := by
    rw [hc, if_pos rfl, show (view r ev a b c true).nExit = r.iExit by cases c <;> rfl, yields_all hx]
  cases d with
  | true =>
    rw [readCell, if_neg (by rw [hc]; simp [isNull]), hy]; rfl
  | false =>
    rw [readCell, if_pos (by rw [hc]; rfl), loadStart_view H hs he hok]
    show (if isNull (cell (view r ev a b c true)) then _ else _) = _
    rw [if_neg (by rw [hc]; simp [isNull]), hy]; rfl

omit hs he in
theorem zip_ext (f : LeakRec α → List α → Get.GLeak α) : (List.zipWith f ev.ext ev.extW).length = r.iExt := by
  rw [List.length_zipWith, H.nExt, H.nExtW, Nat.min_self]

omit hs he in
theorem zip_int (f : LeakRec α × (α × α) → List α → Get.GLeak α) : (List.zipWith f (ev.int.zip ev.intE) ev.intW).length = r.iInt := by
  have hE : ev.intE.length = ev.int.length := by have := congrArg List.length H.nIntE; simpa using this.symm
  rw [List.length_zipWith, List.length_zip, hE, H.nInt, H.nIntW]; simp

theorem readField_view (f : Field) (a b c d : Bool) (ha : a = true → r.iExt ≠ 0) (hb : b = true → r.iInt ≠ 0) :
    readField ok f (view r ev a b c d) = .ok (given r ev f, view r ev (a || (decide (f = .extleaks) && decide (r.iExt ≠ 0)))
      (b || (decide (f = .intleaks) && decide (r.iInt ≠ 0))) (c || f.isExit) (d || f.isStart)) := by
  have hm : ∀ {γ : Type} (g : ExitRec α → γ), (ev.exits.map g).length = r.iExit := fun g => by rw [List.length_map, H.nExit]
  have hm' : ∀ {γ : Type} (g : StartRec α → γ), (ev.starts.map g).length = r.iExit := fun g => by rw [List.length_map, H.nStart]
  have hg : ∀ f : Field, f ≠ .extleaks → f ≠ .intleaks → given r ev f = recorded r ev f := fun f h1 h2 => by
    rw [given, if_neg (by tauto)]
  cases f with
  | extleaks =>
    simp only [readField]
    by_cases h0 : r.iExt = 0
    · have : a = false := by cases a <;> simp_all
      subst this
      rw [readLeaks, if_pos (show (view r ev false b c d).nExt = 0 from rfl), loadExt_none H hs he hok h0, given, if_pos (Or.inl ⟨rfl, h0⟩)]
      simp [h0, Field.isExit, Field.isStart, excOf, Out.bind_ok]
    · have hy : yields r.iExt (view r ev true b c d).ext Got.leaks = .ok (recorded r ev .extleaks) := yields_all (zip_ext H hok _) _
      rw [given, if_neg (by simp [h0])]
      cases a with
      | true =>
        rw [readLeaks, if_neg (show ¬ (view r ev true b c d).nExt = 0 from h0)]
        show (yields r.iExt (view r ev true b c d).ext Got.leaks >>= _) = _
        rw [hy]
        simp [Field.isExit, Field.isStart, Out.bind_ok]
      | false =>
        rw [readLeaks, if_pos (show (view r ev false b c d).nExt = 0 from rfl), loadExt_view H hs he hok h0, Out.bind_ok]
        show (if 0 < r.iExt then (yields r.iExt (view r ev true b c d).ext Got.leaks >>= _) else _) = _
        rw [if_pos (by omega), hy]
        simp [h0, Field.isExit, Field.isStart, Out.bind_ok]
  | intleaks =>
    simp only [readField]
    by_cases h0 : r.iInt = 0
    · have : b = false := by cases b <;> simp_all
      subst this
      rw [readLeaks, if_pos (show (view r ev a false c d).nInt = 0 from rfl), loadInt_none H hs he hok h0, given, if_pos (Or.inr ⟨rfl, h0⟩)]
      simp [h0, Field.isExit, Field.isStart, excOf, Out.bind_ok]
    · have hy : yields r.iInt (view r ev a true c d).int Got.leaks = .ok (recorded r ev .intleaks) := yields_all (zip_int H hok _) _
      rw [given, if_neg (by simp [h0])]
      cases b with
      | true =>
        rw [readLeaks, if_neg (show ¬ (view r ev a true c d).nInt = 0 from h0)]
        show (yields r.iInt (view r ev a true c d).int Got.leaks >>= _) = _
        rw [hy]
        simp [Field.isExit, Field.isStart, Out.bind_ok]
      | false =>
        rw [readLeaks, if_pos (show (view r ev a false c d).nInt = 0 from rfl), loadInt_view H hs he hok h0, Out.bind_ok]
        show (if 0 < r.iInt then (yields r.iInt (view r ev a true c d).int Got.leaks >>= _) else _) = _
        rw [if_pos (by omega), hy]
        simp [h0, Field.isExit, Field.isStart, Out.bind_ok]
  | exitWeights =>
    rw [hg _ (by simp) (by simp)]
    simp only [readField]
    rw [readExit H hs he hok (·.weights) _ _ H.nWts (fun _ _ _ _ => rfl), show (view r ev a b true d).nEnergies = r.energies.length from rfl,
      rowsGot_all H.wts.1]
    simp [Field.isExit, Field.isStart, recorded]
  | exitCoords =>
    rw [hg _ (by simp) (by simp)]
    simp only [readField]
    rw [readExit H hs he hok (·.exitC) _ _ (hm _) (fun _ _ _ _ => rfl)]
    simp [Field.isExit, Field.isStart, recorded]
  | exitDirection =>
    rw [hg _ (by simp) (by simp)]
    simp only [readField]
    rw [readExit H hs he hok (·.exitD) _ _ (hm _) (fun _ _ _ _ => rfl)]
    simp [Field.isExit, Field.isStart, recorded]
  | exitElecv =>
    rw [hg _ (by simp) (by simp)]
    simp only [readField]
    rw [readExit H hs he hok (·.exitE) _ _ (hm _) (fun _ _ _ _ => rfl)]
    simp [Field.isExit, Field.isStart, recorded]
  | nRefl =>
    rw [hg _ (by simp) (by simp)]
    simp only [readField]
    rw [readExit H hs he hok (·.refl) _ _ (hm _) (fun _ _ _ _ => rfl)]
    simp [Field.isExit, Field.isStart, recorded]
  | dTravel =>
    rw [hg _ (by simp) (by simp)]
    simp only [readField]
    rw [readExit H hs he hok (·.travel) _ _ (hm _) (fun _ _ _ _ => rfl)]
    simp [Field.isExit, Field.isStart, recorded]
  | startCoords =>
    rw [hg _ (by simp) (by simp)]
    simp only [readField]
    rw [readStart H hs he hok (·.startC) _ _ (hm' _) (fun _ _ _ _ => rfl)]
    simp [Field.isExit, Field.isStart, recorded]
  | startDirection =>
    rw [hg _ (by simp) (by simp)]
    simp only [readField]
    rw [readStart H hs he hok (·.startD) _ _ (hm' _) (fun _ _ _ _ => rfl)]
    simp [Field.isExit, Field.isStart, recorded]
  | startElecv =>
    rw [hg _ (by simp) (by simp)]
    simp only [readField]
    rw [readStart H hs he hok (·.startE) _ _ (hm' _) (fun _ _ _ _ => rfl)]
    simp [Field.isExit, Field.isStart, recorded]
  | srcStartCoords =>
    rw [hg _ (by simp) (by simp)]
    simp only [readField]
    rw [readStart H hs he hok (·.srcC) _ _ (hm' _) (fun _ _ _ _ => rfl)]
    simp [Field.isExit, Field.isStart, recorded]
omit hok in
theorem readFields_view (oks : Nat → Nat → Bool) (hoks : ∀ k n, oks k n = true) : ∀ (fs : List Field) (a b c d : Bool),
    (a = true → r.iExt ≠ 0) → (b = true → r.iInt ≠ 0) →
    readFields oks fs (view r ev a b c d) = .ok (fs.map (given r ev), view r ev (a || (decide (.extleaks ∈ fs) && decide (r.iExt ≠ 0)))
      (b || (decide (.intleaks ∈ fs) && decide (r.iInt ≠ 0))) (c || fs.any Field.isExit) (d || fs.any Field.isStart))
  | [], a, b, c, d, _, _ => by simp [readFields]
  | f :: fs, a, b, c, d, ha, hb => by
    rw [readFields, readField_view H hs he (hoks fs.length) f a b c d ha hb, Out.bind_ok]
    show (readFields oks fs _ >>= _) = _
    rw [readFields_view oks hoks fs _ _ _ _ (by cases a <;> simp_all) (by cases b <;> simp_all), Out.bind_ok]
    show Out.ok (_, _) = Out.ok (_, _)
    congr 3
    · by_cases h1 : f = .extleaks <;> by_cases h2 : r.iExt = 0 <;> simp [h1, h2, eq_comm]
    · by_cases h1 : f = .intleaks <;> by_cases h2 : r.iInt = 0 <;> simp [h1, h2, eq_comm]
    · simp [Bool.or_assoc]
    · simp [Bool.or_assoc]


omit hok in
/-- **C70 (partial).**  With enough memory, whatever properties are read in whatever order and how often: every read gives the recorded values, one per photon
(per leak); a leak property of a result without leaks raises `ValueError` instead of giving nothing.  No array of the library is lost, and `__dealloc__`
releases exactly the blocks the getters handed out. -/
theorem python_results_partial (oks : Nat → Nat → Bool) (hoks : ∀ k n, oks k n = true) (fs : List Field) :
    ∃ o, readFields oks fs (teNew r) = .ok (fs.map (given r ev), o) ∧ o.r = r ∧ o.lost = 0 ∧ deallocCount o = some (blocks r fs) := by
  refine ⟨_, (by rw [view_new r ev]; exact readFields_view H hs he oks hoks fs false false false false (by simp) (by simp)), rfl, rfl, ?_⟩
  unfold deallocCount blocks view
  by_cases h1 : Field.extleaks ∈ fs <;> by_cases h2 : r.iExt = 0 <;> by_cases h3 : Field.intleaks ∈ fs <;> by_cases h4 : r.iInt = 0 <;>
    cases h5 : fs.any Field.isExit <;> cases h6 : fs.any Field.isStart <;>
    simp [h1, h2, h3, h4, isNull, Nat.pos_of_ne_zero] <;> omega

omit H hs he hok

/-- **C70.**  `data` gives the energies and efficiencies of the result. -/
theorem python_data (ok : Nat → Bool) (r : TE α) : teCreate ok r = if ok 0 && ok 1 then .ok (teNew r, r.energies, r.effs) else .ub := by
  cases h0 : ok 0 <;> cases h1 : ok 1 <;> simp [teCreate, Get.getData, Get.copyOut, h0, h1]

/-- **C70.**  Simulate, then read in Python: entry `j` of every array belongs to the photon `ps[j]` of slot `j` that came out. -/
theorem python_simulation_results (lib : Xray α) (a : SimArgs α) (omp : Int) (e : EArg) (r : TE α) (e' : EArg) (h : SimOutcome lib a omp e (some r) e')
    {S : Src α} {D : Descr α} (hS : a.source = some (S, some D)) (h1 : 1 ≤ a.nPhotons) (oks : Nat → Nat → Bool) (hoks : ∀ k n, oks k n = true)
    (fs : List Field) :
    ∃ (H : List (Nat × Attempt α)) (u : Nat → Nat → α) (fuel k : Nat) (ps : List (Attempt α)) (es is : List (Leak α)) (gs : List (Got α)) (o : TEObj α),
      Reports (simCfg lib S D a omp u fuel k) H r ∧
      ps.length = a.nPhotons.toNat ∧ (∀ j p, ps[j]? = some p → (j, p) ∈ H ∧ simCode D p = 1) ∧
      es.Perm (if a.leak then extOf D S.energies.length H else []) ∧ is.Perm (if a.leak then intOf D S.energies.length H else []) ∧
      readFields oks fs (teNew r) = .ok (gs, o) ∧ gs.length = fs.length ∧ ∀ (i : Nat) f, fs[i]? = some f → gs[i]? = some (match f with
        | .startCoords => .vectors (ps.map fun p => ⟨p.ph.startC.x, p.ph.startC.y, lit 0⟩)
        | .startDirection => .vectors (ps.map fun p => unit3 p.ph.startD.x p.ph.startD.y)
        | .startElecv => .vectors (ps.map fun p => unit3 (startRec p).elecX (startRec p).elecY)
        | .srcStartCoords => .vectors (ps.map fun p => ⟨p.src.x, p.src.y, lit 0⟩)
        | .exitCoords => .vectors (ps.map fun p => exitAt D.prof p.ph)
        | .exitDirection => .vectors (ps.map fun p => unit3 p.ph.exitD.x p.ph.exitD.y)
        | .exitElecv => .vectors (ps.map fun p => unit3 (exitRec D.prof p.ph).elecX (exitRec D.prof p.ph).elecY)
        | .nRefl => .counts (ps.map fun p => p.ph.i_refl)
        | .dTravel => .numbers (ps.map fun p => (exitRec D.prof p.ph).d_travel)
        | .exitWeights => .rows (ps.map (wtsOf S.energies.length))
        | .extleaks => if es = [] then .raised .valueError else .leaks (es.map fun l =>
            ⟨l.coords, unit3 l.dir.x l.dir.y, none, S.energies.length, l.n_refl, l.weight.take S.energies.length⟩)
        | .intleaks => if is = [] then .raised .valueError else .leaks (is.map fun l =>
            ⟨l.coords, unit3 l.dir.x l.dir.y, some (unit3 l.elecv.x l.elecv.y), S.energies.length, l.n_refl, l.weight.take S.energies.length⟩)) := by
  obtain ⟨S', D', u, fuel, k, H, hS', R, hE, hF⟩ := outcome_reports' lib a omp e r e' h
  rw [hS] at hS'
  simp only [Option.some.injEq, Prod.mk.injEq] at hS'
  obtain ⟨rfl, rfl⟩ := hS'
  obtain ⟨ps, es, is, hp, h2, h3, h4, hH⟩ := reports_hold R hF (by rw [hE]; rfl)
  have hn : (simCfg lib S D a omp u fuel k).n = a.nPhotons.toNat := rfl
  have hs0 : r.iStart ≠ 0 := by rw [R.iStart, hn]; omega
  have hx0 : r.iExit ≠ 0 := by rw [R.iExit, hn]; omega
  obtain ⟨o, ho, -⟩ := python_results_partial hH hs0 hx0 oks hoks fs
  have hl : r.iExt = es.length := by have := hH.nExt; simp at this; exact this.symm
  have hl' : r.iInt = is.length := by have := hH.nInt; simp at this; exact this.symm
  refine ⟨H, u, fuel, k, ps, es, is, _, o, R, hp, h2, h3, h4, ho, by simp, fun i f hf => ?_⟩
  rw [List.getElem?_map, hf, Option.map_some]
  congr 1
  have ze : r.iExt = 0 ↔ es = [] := by rw [hl]; exact List.length_eq_zero_iff
  have zi : r.iInt = 0 ↔ is = [] := by rw [hl']; exact List.length_eq_zero_iff
  cases f with
  | extleaks =>
    by_cases h0 : es = []
    · simp [given, ze, h0]
    · simp only [given, ze, h0, recorded, List.zipWith_map, List.zipWith_self, hE]; simp [extRec]; exact fun _ _ => rfl
  | intleaks =>
    by_cases h0 : is = []
    · simp [given, zi, h0]
    · simp only [given, zi, h0, recorded, List.zip_map', List.zipWith_map, List.zipWith_self, hE]; simp [intRec]; exact fun _ _ => rfl
  | _ => rw [given, if_neg (by simp)]; simp only [recorded, List.map_map]; rfl

/-- FINDING (C70): when memory runs out while the exit data are read (not at the very first request), the property raises `MemoryError`, but reading it again
gives numbers that were never written, however much memory there is then. -/
theorem results_after_memory_error (r : TE α) (hs : r.iStart ≠ 0) (ok ok' : Nat → Bool) (i : Nat) (h0 : 0 < i) (hi : Get.firstFail ok 6 = some i) :
    ∃ o, readField ok .exitCoords (teNew r) = .ok (.raised .memoryError, o) ∧ readField ok' .exitCoords o = .ok (.unwritten, o) := by
  refine ⟨{ teNew r with
    nExit := r.iExit, nEnergies := r.energies.length, exitC := put (Get.cellAt i 0) .null, exitD := put (Get.cellAt i 1) .null
    exitE := put (Get.cellAt i 2) .null, refl := put (Get.cellAt i 3) .null, travel := put (Get.cellAt i 4) .null
    weights := put (Get.cellAt i 5) .null }, ?_, ?_⟩
  · have hl : ∀ {β : Type} (c : Get.Cell β), loses c .null = 0 := fun c => by cases c <;> rfl
    simp [readField, readCell, teNew, isNull, loadExit, Get.getExit, hs, hi, Out.bind_ok, EArg.set, putN, excOf, hl]
  · have : (Get.cellAt i 0 : Get.Cell (List (V3 α))) = .raw := by simp [Get.cellAt, h0]
    simp [readField, readCell, this, put, isNull, yields, Out.bind_ok]

/-- FINDING (C70): when the first request for the leaks fails, the property raises `MemoryError`; reading it again, and also collecting the object, follows a
NULL pointer. -/
theorem leaks_after_memory_error (r : TE α) (hx : r.iExt ≠ 0) (ok ok' : Nat → Bool) (h0 : ok 0 = false) :
    ∃ o, readField ok .extleaks (teNew r) = .ok (.raised .memoryError, o) ∧ readField ok' .extleaks o = .ub ∧ deallocCount o = none := by
  refine ⟨{ teNew r with nExt := r.iExt, ext := .null }, ?_, ?_, ?_⟩
  · simp [readField, readLeaks, teNew, loadExt, Get.getExt, Get.getLeaks, hx, h0, Out.bind_ok, EArg.set, putN, put, loses, excOf]
  · simp [readField, readLeaks, hx, yields]
  · simp [deallocCount, Nat.pos_of_ne_zero hx]

/-- the hypotheses are met: the result of C40's example -/
example : Holds exTE exEv ∧ exTE.iStart ≠ 0 ∧ exTE.iExit ≠ 0 ∧ exTE.iExt ≠ 0 := ⟨ex_holds, by simp [exTE], by simp [exTE], by simp [exTE]⟩
end Polycap.Py
