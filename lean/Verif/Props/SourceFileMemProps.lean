import Mathlib.Tactic.IntervalCases
import Verif.Props.SourceFileMemBase

/-!
# C96: what reading a source from file leaves in memory
-/
namespace Polycap
open CNum CM Mem
namespace FMem
set_option linter.unusedSectionVars false
set_option linter.unusedSimpArgs false
variable {α : Type} [CNum α]

/-! ## Only the tabulated points of a profile matter -/

theorem validate_congr {p q : Profile α} (hn : p.nmax = q.nmax) (hc : ∀ i, i ≤ p.nmax → p.cap i = q.cap i)
    (he : ∀ i, i ≤ p.nmax → p.ext i = q.ext i) (n : Int) : validate p n = validate q n := by
  have h1 : (List.range (p.nmax + 1)).any (fun i => p.cap i >=. p.ext i) = (List.range (q.nmax + 1)).any (fun i => q.cap i >=. q.ext i) := by
    rw [← hn]
    apply Bool.eq_iff_iff.mpr
    simp only [List.any_eq_true, List.mem_range]
    constructor <;> rintro ⟨i, hi, h⟩ <;> refine ⟨i, hi, ?_⟩
    · rwa [← hc i (by omega), ← he i (by omega)]
    · rwa [hc i (by omega), he i (by omega)]
  have h2 : ∀ qr : Int × Int, (List.range (p.nmax + 1)).map (fun i =>
        withinPcBoundary (p.ext i) (validatePoint (nShells (α := α) n) (p.ext i) (p.cap i) qr.1 qr.2).1
          (validatePoint (nShells (α := α) n) (p.ext i) (p.cap i) qr.1 qr.2).2) =
      (List.range (q.nmax + 1)).map (fun i =>
        withinPcBoundary (q.ext i) (validatePoint (nShells (α := α) n) (q.ext i) (q.cap i) qr.1 qr.2).1
          (validatePoint (nShells (α := α) n) (q.ext i) (q.cap i) qr.1 qr.2).2) := by
    intro qr
    rw [← hn]
    apply List.map_congr_left
    intro i hi
    have hi : i ≤ p.nmax := by simpa [Nat.lt_succ_iff] using hi
    rw [hc i hi, he i hi]
  simp only [validate, h1, h2]

/-- a profile as its arrays -/
def tab (p : Profile α) : Profile α := listProfile p.nmax (arr p.nmax p.z) (arr p.nmax p.cap) (arr p.nmax p.ext)

theorem arr_getD (n : Nat) (f : Nat → α) {i : Nat} (h : i ≤ n) (d : α) : (arr n f).getD i d = f i := by
  rw [List.getD_eq_getElem?_getD, arr_get n f i h]; rfl

theorem fileFinish_tab (S : Src α) (D : Descr α) (e : EArg) :
    fileFinish S { D with prof := tab D.prof } e =
      ((fileFinish S D e).1.map (fun v => (v.1, { v.2.1 with prof := tab D.prof }, v.2.2)), (fileFinish S D e).2) := by
  have c0 : (tab D.prof).cap 0 = D.prof.cap 0 := arr_getD _ _ (Nat.zero_le _) _
  have e0 : (tab D.prof).ext 0 = D.prof.ext 0 := arr_getD _ _ (Nat.zero_le _) _
  have hv : ∀ n, validate (tab D.prof) n = validate D.prof n := fun n =>
    validate_congr (by rfl) (fun i hi => arr_getD _ _ hi _) (fun i hi => arr_getD _ _ hi _) n
  have hf : ∀ (w : List α) (x : α), fileRejects S ⟨D.sig_rough, D.n_cap, D.iz, w, D.density, tab D.prof⟩ x =
      fileRejects S ⟨D.sig_rough, D.n_cap, D.iz, w, D.density, D.prof⟩ x := fun _ _ => rfl
  simp only [fileFinish, c0, e0, validateE, hv, hf]
  generalize fileRejects S _ _ = q
  cases q
  · by_cases hr : validate D.prof D.n_cap = 1
    · simp [hr]
    · simp [hr]
  · simp

/-! ## The source object in memory -/

/-- what a user sees of a source read from file -/
def viewOf (v : Src α × Descr α × α) : SrcView α :=
  ⟨⟨v.2.1.sig_rough, v.2.1.n_cap, v.2.2, v.2.1.iz.length, v.2.1.iz, v.2.1.wi, v.2.1.density,
      (v.2.1.prof.nmax, arr v.2.1.prof.nmax v.2.1.prof.z, arr v.2.1.prof.nmax v.2.1.prof.cap, arr v.2.1.prof.nmax v.2.1.prof.ext)⟩,
    v.1.d_source, v.1.src_x, v.1.src_y, v.1.src_sigx, v.1.src_sigy, v.1.src_shiftx, v.1.src_shifty, v.1.hor_pol, v.1.energies⟩

/-- the blocks of a source read from file; `k`, `j`: number of blocks used and released before and after those of the profile -/
def objBlocks (b : Nat) (D S : Block α) (f : Option (Block α)) (is : List Int) (ws es : List α) (p : Profile α) (k j : Nat) : List (Option (Block α)) :=
  [some D, some S, some .rng, f, some (.ints is), some (.doubles ws), some (.doubles es)] ++ (List.replicate k none ++
  ([some (.profile p.nmax (some (b + (8 + k))) (some (b + (9 + k))) (some (b + (10 + k)))), some (.doubles (arr p.nmax p.z)),
   some (.doubles (arr p.nmax p.cap)), some (.doubles (arr p.nmax p.ext))] ++ List.replicate j none))

theorem fileFinish_some {S : Src α} {D : Descr α} {e e' : EArg} {v : Src α × Descr α × α} (h : fileFinish S D e = (some v, e')) :
    v = (S, { D with wi := (checkWeight D.wi e).1 }, openArea (D.prof.cap 0) (D.prof.ext 0) D.n_cap) := by
  simp only [fileFinish] at h
  split at h
  · cases h
  · split at h
    · cases h
    · simp only [Prod.mk.injEq, Option.some.injEq] at h
      exact h.1.symm

theorem take_arr (n : Nat) (f : Nat → α) : List.take (n + 1) (arr n f) = arr n f := List.take_of_length_le (by simp)

/-- `polycap_source_free` on a complete source -/
theorem free_obj (S : Src α) (n : Nat) (f : Option (Block α)) (is : List Int) (ws es : List α) (p : Profile α)
    (m : Nat → Option (Block α)) (b : Nat) (o : Nat → Bool) (k j : Nat) (hk : k = 0 ∧ j = 0 ∨ k = 4 ∧ j = 2)
    (s0 : α) (n0 : Int) (o0 : α) (ne0 : Nat) (r0 : α) :
    (sourceFree (some (b + 1))).run (hp m b (objBlocks b (.descr s0 n0 o0 ne0 (some (b + 4)) (some (b + 5)) r0 (some (b + (7 + k))))
      (srcBlock (some b) (some (b + 2)) S n (some (b + 6))) f is ws es p k j) o) =
    some ((), hp m b ([none, none, none, f] ++ List.replicate (7 + k + j) none) o) := by
  rcases hk with ⟨rfl, rfl⟩ | ⟨rfl, rfl⟩ <;>
  simp [srcBlock, objBlocks, sourceFree, descriptionFree, profileFree, rngFree, loadProfile, run_bind, load_hp, load_hp0, free_hp, free_hp0, List.replicate]

theorem finish_hp (S : Src α) (sig : α) (n_cap : Int) (rho : α) (is : List Int) (ws es : List α) (D0 : Block α) (p : Profile α) (e : EArg)
    (hw : ws.length = is.length)
    (m : Nat → Option (Block α)) (b : Nat) (o : Nat → Bool) (k j : Nat) (hk : k = 0 ∧ j = 0 ∨ k = 4 ∧ j = 2)
    (hd : ∃ s0 n0 o0 ne0 r0, D0 = .descr s0 n0 o0 ne0 (some (b + 4)) (some (b + 5)) r0 (some (b + (7 + k)))) :
    (finishM S sig n_cap is.length rho es.length (some b) (some (b + 1)) (some (b + 4)) (some (b + 5)) (some (b + 6)) (some (b + (7 + k))) e).run
      (hp m b (objBlocks b D0 (srcBlock (some b) (some (b + 2)) S es.length (some (b + 6))) none is ws es p k j) o) =
    match fileFinish { S with energies := es } ⟨sig, n_cap, is, ws, rho, p⟩ e with
    | (none, e') => some ((none, e'), hp m b (List.replicate (11 + k + j) none) o)
    | (some v, e') => some ((some (b + 1), e'), hp m b (objBlocks b
        (.descr sig n_cap v.2.2 is.length (some (b + 4)) (some (b + 5)) rho (some (b + (7 + k))))
        (srcBlock (some b) (some (b + 2)) S es.length (some (b + 6))) none is v.2.1.wi es p k j) o) := by
  have ht := fileFinish_tab { S with energies := es } ⟨sig, n_cap, is, ws, rho, p⟩ e
  have c0 : (tab p).cap 0 = p.cap 0 := arr_getD _ _ (Nat.zero_le _) _
  have e0 : (tab p).ext 0 = p.ext 0 := arr_getD _ _ (Nat.zero_le _) _
  have tw : List.take is.length ws = ws := List.take_of_length_le (by omega)
  obtain ⟨s0, n0, o0, ne0, r0, rfl⟩ := hd
  have key : (finishM S sig n_cap is.length rho es.length (some b) (some (b + 1)) (some (b + 4)) (some (b + 5)) (some (b + 6)) (some (b + (7 + k))) e).run
      (hp m b (objBlocks b (.descr s0 n0 o0 ne0 (some (b + 4)) (some (b + 5)) r0 (some (b + (7 + k))))
        (srcBlock (some b) (some (b + 2)) S es.length (some (b + 6))) none is ws es p k j) o) =
      (if (fileFinish { S with energies := es } ⟨sig, n_cap, is, ws, rho, tab p⟩ e).1 = none then do
        sourceFree (some (b + 1))
        pure (none, (fileFinish { S with energies := es } ⟨sig, n_cap, is, ws, rho, tab p⟩ e).2)
      else pure (some (b + 1), (fileFinish { S with energies := es } ⟨sig, n_cap, is, ws, rho, tab p⟩ e).2) : CM (Block α) (Ptr × EArg)).run
      (hp m b (objBlocks b (.descr sig n_cap (openArea (p.cap 0) (p.ext 0) n_cap) is.length (some (b + 4)) (some (b + 5)) rho (some (b + (7 + k))))
        (srcBlock (some b) (some (b + 2)) S es.length (some (b + 6))) none is (checkWeight ws e).1 es p k j) o) := by
    rcases hk with ⟨rfl, rfl⟩ | ⟨rfl, rfl⟩ <;>
    · unfold finishM
      simp only [srcBlock, objBlocks]
      simp [run_bind, loadInts, load_hp, load_hp0, loadArr, hw, loadProfile, take_arr, storeArr, store_hp, store_hp0, checkWeight_length,
        List.replicate, tw, ← c0, ← e0]
      rfl
  rw [key, ht]
  rcases hf : fileFinish { S with energies := es } ⟨sig, n_cap, is, ws, rho, p⟩ e with ⟨v, e'⟩
  cases v with
  | none =>
    simp only [Option.map_none, if_true]
    rw [run_bind_some (free_obj S es.length none is _ es p m b o k j hk _ _ _ _ _)]
    rcases hk with ⟨rfl, rfl⟩ | ⟨rfl, rfl⟩ <;> rfl
  | some v =>
    have := fileFinish_some hf
    subst this
    simp

/-! ## The profile -/

/-- the value reader that belongs to the memory reader; `pv`: the profile (if any) and error of `polycap_profile_new_from_file` -/
def _root_.Polycap.FileEnvM.value (env : FileEnvM α) (pv : List (Tok α) → EArg → Option (Profile α) × EArg) : FileEnv α :=
  ⟨env.trunc, env.fit, fun ts e => ((pv ts e).1, (pv ts e).2, env.names ts)⟩

/-- what is used of `polycap_profile_new_from_file` (see `PFile.profile_file_outcomes`): it gives a profile, all files closed, or NULL and
an error, and then leaves at most `FILE` objects behind -/
def FilesOk (env : FileEnvM α) (pv : List (Tok α) → EArg → Option (Profile α) × EArg) : Prop :=
  ∀ ts e m b o,
    (∃ ex e', (env.pff ts e).run (hp m b [] o) = some ((none, e'), hp m b ex o) ∧ (∀ c ∈ ex, c = none ∨ c = some (.raw 0)) ∧
      (e = some none → e' ≠ some none) ∧ (pv ts e = (none, e') ∨ ∃ n, o n = false)) ∨
    (∃ p, pv ts e = (some p, e) ∧ (env.pff ts e).run (hp m b [] o) = some ((some (b + 1), e), hp m b
      [none, some (.profile p.nmax (some (b + 2)) (some (b + 3)) (some (b + 4))), some (.doubles (arr p.nmax p.z)),
        some (.doubles (arr p.nmax p.cap)), some (.doubles (arr p.nmax p.ext)), none, none] o))

/-- the blocks before the profile is made -/
def blocks7 (D S : Block α) (f : Option (Block α)) (is : List Int) (ws es : List α) : List (Option (Block α)) :=
  [some D, some S, some .rng, f, some (.ints is), some (.doubles ws), some (.doubles es)]

theorem set_reports (e : EArg) (c : Code) (h : e = some none) : e.set c ≠ some none := by subst h; simp

theorem profileM_hp (env : FileEnvM α) (pv : List (Tok α) → EArg → Option (Profile α) × EArg) (ok : FilesOk env pv) (type : Int)
    (ts : List (Tok α)) (e : EArg) (D S : Block α) (f : Option (Block α)) (is : List Int) (ws es : List α)
    (m : Nat → Option (Block α)) (b : Nat) (o : Nat → Bool) :
    (match scanProfile (env.value pv) type ts e with
      | .ok (none, e', ts') => (e = some none → e' ≠ some none) ∧ ∃ ex, (profileM env type ts e).run (hp m b (blocks7 D S f is ws es) o) =
          some ((none, e', ts'), hp m b (blocks7 D S f is ws es ++ ex) o) ∧
          ∀ c ∈ ex, c = none ∨ ¬ (type = 0 ∨ type = 1 ∨ type = 2) ∧ c = some (.raw 0)
      | .ok (some p, e', ts') => ∃ k j, (k = 0 ∧ j = 0 ∨ k = 4 ∧ j = 2) ∧ (profileM env type ts e).run (hp m b (blocks7 D S f is ws es) o) =
          some ((some (b + (7 + k)), e', ts'), hp m b (objBlocks b D S f is ws es p k j) o)
      | _ => (profileM env type ts e).run (hp m b (blocks7 D S f is ws es) o) = none) ∨
    ((∃ n, o n = false) ∧ ∃ ex e' ts', (profileM env type ts e).run (hp m b (blocks7 D S f is ws es) o) =
          some ((none, e', ts'), hp m b (blocks7 D S f is ws es ++ ex) o) ∧ (e = some none → e' ≠ some none) ∧
          ∀ c ∈ ex, c = none ∨ ¬ (type = 0 ∨ type = 1 ∨ type = 2) ∧ c = some (.raw 0)) := by
  by_cases ht : type = 0 ∨ type = 1 ∨ type = 2
  · simp only [profileM, scanProfile, if_pos ht]
    cases hu : useAll (scanMany 7 ts).1 with
    | ub => left; simp [Out.bind, bind, lift, CM.bind, ub]
    | fuel => left; simp [Out.bind, bind, lift, CM.bind, ub]
    | ok l =>
      simp only [Out.bind_ok, lift, run_bind, run_pure]
      match l, hu with
      | [l, eu, ed, iu, id, fu, fd], hu =>
        simp only
        have h7 : (blocks7 D S f is ws es).length = 7 := rfl
        rcases profileNew_hp env.fit ⟨type, l, eu, ed, iu, id, fu, fd⟩ e m b (blocks7 D S f is ws es) o with ⟨k, e', hr, hc⟩ | ⟨p, hv, hr⟩
        · rcases hc with ⟨rfl, hv⟩ | ⟨rfl, hn⟩
          · left
            have hv' : profileValue (env.value pv).fit ⟨type, l, eu, ed, iu, id, fu, fd⟩ = none := hv
            simp only [hv', Option.isNone_none, if_true]
            refine ⟨set_reports e _, List.replicate k none, ?_, fun c hc => Or.inl (List.eq_of_mem_replicate hc)⟩
            rw [run_bind_some hr]; rfl
          · right
            refine ⟨hn, List.replicate k none, e.set .memory, (scanMany 7 ts).2, ?_, set_reports e _, fun c hc => Or.inl (List.eq_of_mem_replicate hc)⟩
            rw [run_bind_some hr]; rfl
        · left
          have hv' : profileValue (env.value pv).fit ⟨type, l, eu, ed, iu, id, fu, fd⟩ = some p := hv
          simp only [hv', Option.isNone_some, Bool.false_eq_true, if_false]
          refine ⟨0, 0, Or.inl ⟨rfl, rfl⟩, ?_⟩
          rw [run_bind_some hr]
          simp only [h7, run_pure]
          simp [objBlocks, blocks7]
      | [], _ | [_], _ | [_, _], _ | [_, _, _], _ | [_, _, _, _], _ | [_, _, _, _, _], _ | [_, _, _, _, _, _], _ | _ :: _ :: _ :: _ :: _ :: _ :: _ :: _ :: _, _ =>
        left; rfl
  · simp only [scanProfile, if_neg ht, FileEnvM.value]
    unfold profileM
    rw [if_neg ht]
    have h7 : (blocks7 D S f is ws es).length = 7 := rfl
    have fail : ∀ (q1 q2 q3 : Ptr) (bs : List (Option (Block α))) (ex : List (Option (Block α))) (e1 : EArg),
        (e = some none → e1 ≠ some none) → (q1 = none ∨ q2 = none ∨ q3 = none) → (∀ c ∈ ex, c = none ∨ c = some (.raw 0)) →
        ((do
          let p ← if q1 = none ∨ q2 = none ∨ q3 = none then pure ((none : Ptr), e1.set .invalidArgument) else env.pff ts e1
          if p.1 = none then pure (none, p.2, env.names ts) else do
          free q3
          free q2
          free q1
          pure (p.1, p.2, env.names ts) : CM (Block α) (Ptr × EArg × List (Tok α))).run (hp m b (bs ++ ex) o) =
          some ((none, e1.set .invalidArgument, env.names ts), hp m b (bs ++ ex) o)) := by
      intro q1 q2 q3 bs ex e1 _ hq _
      rw [if_pos hq]
      simp [run_bind]
    have rep : ∀ e1 : EArg, (e = some none → e1 ≠ some none) → (e = some none → e1.set .invalidArgument ≠ some none) := by
      intro e1 h he
      have := h he
      match e1 with
      | none => simp
      | some none => exact absurd rfl this
      | some (some _) => simp
    have mem2 : ∀ (c1 c2 c3 : Option (Block α)), (c1 = none ∨ c1 = some (.raw 0)) → (c2 = none ∨ c2 = some (.raw 0)) → (c3 = none ∨ c3 = some (.raw 0)) →
        ∀ c ∈ [c1, c2, c3], c = none ∨ ¬ (type = 0 ∨ type = 1 ∨ type = 2) ∧ c = some (.raw 0) := by
      intro c1 c2 c3 h1 h2 h3 c hc
      simp only [List.mem_cons, List.not_mem_nil, or_false] at hc
      rcases hc with rfl | rfl | rfl
      · exact h1.imp_right fun h => ⟨ht, h⟩
      · exact h2.imp_right fun h => ⟨ht, h⟩
      · exact h3.imp_right fun h => ⟨ht, h⟩
    by_cases hall : o (b + 7) = true ∧ o (b + 8) = true ∧ o (b + 9) = true
    · obtain ⟨o7, o8, o9⟩ := hall
      have base : hp m b (blocks7 D S f is ws es ++ [some (.raw 0), some (.raw 0), some (.raw 0)]) o =
          hp (lay m b (blocks7 D S f is ws es ++ [some (.raw 0), some (.raw 0), some (.raw 0)])) (b + 10) [] o := by
        have := hp_app m b (blocks7 D S f is ws es ++ [some (.raw 0), some (.raw 0), some (.raw 0)]) [] o
        rw [List.append_nil] at this
        exact this.symm
      have app : ∀ ex, hp (lay m b (blocks7 D S f is ws es ++ [some (.raw 0), some (.raw 0), some (.raw 0)])) (b + 10) ex o =
          hp m b (blocks7 D S f is ws es ++ [some (.raw 0), some (.raw 0), some (.raw 0)] ++ ex) o := fun ex => hp_app m b _ ex o
      have pre : ∀ k : (Ptr × EArg) → (Ptr × EArg) → (Ptr × EArg) → CM (Block α) (Ptr × EArg × List (Tok α)),
          (do
            let l1 ← lineM e
            let l2 ← lineM l1.2
            let l3 ← lineM l2.2
            k l1 l2 l3 : CM (Block α) (Ptr × EArg × List (Tok α))).run (hp m b (blocks7 D S f is ws es) o) =
          (k (some (b + 7), e) (some (b + 8), e) (some (b + 9), e)).run
            (hp (lay m b (blocks7 D S f is ws es ++ [some (.raw 0), some (.raw 0), some (.raw 0)])) (b + 10) [] o) := by
        intro k
        rw [← base]
        simp [lineM, run_bind, malloc_hp, blocks7, o7, o8, o9]
      rw [pre]
      simp only [reduceCtorEq, or_self, if_false]
      rcases ok ts e (lay m b (blocks7 D S f is ws es ++ [some (.raw 0), some (.raw 0), some (.raw 0)])) (b + 10) o with
        ⟨ex, e', hr, hex, hrep, hc⟩ | ⟨p, hv, hr⟩
      · rw [run_bind_some hr, app]
        have hex' : ∀ c ∈ [some (.raw 0), some (.raw 0), some (.raw 0)] ++ ex, c = none ∨ ¬ (type = 0 ∨ type = 1 ∨ type = 2) ∧ c = some (.raw 0) := by
          intro c hc
          rcases List.mem_append.mp hc with hc | hc
          · exact mem2 _ _ _ (Or.inr rfl) (Or.inr rfl) (Or.inr rfl) c hc
          · exact (hex c hc).imp_right fun h => ⟨ht, h⟩
        rcases hc with hv | hn
        · left
          simp only [hv]
          refine ⟨hrep, [some (.raw 0), some (.raw 0), some (.raw 0)] ++ ex, ?_, hex'⟩
          simp
        · right
          refine ⟨hn, [some (.raw 0), some (.raw 0), some (.raw 0)] ++ ex, e', env.names ts, ?_, hrep, hex'⟩
          simp
      · left
        rw [run_bind_some hr, app]
        simp only [hv]
        refine ⟨4, 2, Or.inr ⟨rfl, rfl⟩, ?_⟩
        simp [run_bind, free_hp, blocks7, objBlocks, List.replicate, Nat.add_assoc]
    · right
      have hn : ∃ n, o n = false := by
        by_contra hc
        simp only [not_exists, Bool.not_eq_false] at hc
        exact hall ⟨hc _, hc _, hc _⟩
      let c : Nat → Option (Block α) := fun i => if o (b + i) = true then some (.raw 0) else none
      let q : Nat → Ptr := fun i => if o (b + i) = true then some (b + i) else none
      let g : EArg → Nat → EArg := fun e i => if o (b + i) = true then e else e.set .memory
      have pre : ∀ k : (Ptr × EArg) → (Ptr × EArg) → (Ptr × EArg) → CM (Block α) (Ptr × EArg × List (Tok α)),
          (do
            let l1 ← lineM e
            let l2 ← lineM l1.2
            let l3 ← lineM l2.2
            k l1 l2 l3 : CM (Block α) (Ptr × EArg × List (Tok α))).run (hp m b (blocks7 D S f is ws es) o) =
          (k (q 7, g e 7) (q 8, g (g e 7) 8) (q 9, g (g (g e 7) 8) 9)).run
            (hp m b (blocks7 D S f is ws es ++ [c 7, c 8, c 9]) o) := by
        intro k
        simp only [q, g, c]
        cases o7 : o (b + 7) <;> cases o8 : o (b + 8) <;> cases o9 : o (b + 9) <;>
          simp [lineM, run_bind, malloc_hp, blocks7, o7, o8, o9]
      rw [pre]
      have hq : q 7 = none ∨ q 8 = none ∨ q 9 = none := by
        by_contra hc
        apply hall
        simp only [q, not_or] at hc
        simpa using hc
      have hcc : ∀ i, c i = none ∨ c i = some (.raw 0) := fun i => by simp only [c]; split <;> simp
      have hrep : e = some none → g (g (g e 7) 8) 9 ≠ some none := by
        rintro rfl
        simp only [g]
        revert hall
        cases o (b + 7) <;> cases o (b + 8) <;> cases o (b + 9) <;> simp
      refine ⟨hn, [c 7, c 8, c 9], (g (g (g e 7) 8) 9).set .invalidArgument, env.names ts, ?_, rep _ hrep, mem2 _ _ _ (hcc 7) (hcc 8) (hcc 9)⟩
      exact fail _ _ _ _ _ _ hrep hq (by
        intro x hx
        simp only [List.mem_cons, List.not_mem_nil, or_false] at hx
        rcases hx with rfl | rfl | rfl
        · exact hcc 7
        · exact hcc 8
        · exact hcc 9)

/-! ## From the profile on -/

/-- blocks left behind by a refusal: only `FILE` objects and, if the profile was to be read from files (`U`), names of files -/
def Left (U : Prop) (bs : List (Option (Block α))) : Prop :=
  ∀ i c, bs[i]? = some (some c) → c = .raw 0 ∧ 3 ≤ i ∧ (i = 3 ∨ U)

/-- the reader on memory does what the reader on values does, or memory ran out; `C`: the input file was closed (or never opened) -/
def Res (U : Prop) (C : Bool) (e : EArg) (m : Nat → Option (Block α)) (b : Nat) (o : Nat → Bool) (V : Out (Option (Src α × Descr α × α) × EArg))
    (R : Option ((Ptr × EArg) × Heap (Block α))) : Prop :=
  (match V with
    | .ok (none, e') => (e = some none → e' ≠ some none) ∧ ∃ bs, R = some ((none, e'), hp m b bs o) ∧ Left U bs ∧
        (C = true → ∀ x ∈ bs, x = none) ∧ (C = false → bs[3]? = some (some (.raw 0)))
    | .ok (some v, e') => v.2.1.wi.length = v.2.1.iz.length ∧ ∃ k j, (k = 0 ∧ j = 0 ∨ k = 4 ∧ j = 2) ∧ R = some ((some (b + 1), e'), hp m b (objBlocks b
        (.descr v.2.1.sig_rough v.2.1.n_cap v.2.2 v.2.1.iz.length (some (b + 4)) (some (b + 5)) v.2.1.density (some (b + (7 + k))))
        (srcBlock (some b) (some (b + 2)) v.1 v.1.energies.length (some (b + 6))) none v.2.1.iz v.2.1.wi v.1.energies v.2.1.prof k j) o)
    | _ => R = none) ∨
  ((∃ n, o n = false) ∧ (R = none ∨ ∃ bs e', R = some ((none, e'), hp m b bs o) ∧ (e = some none → e' ≠ some none) ∧ Left U bs))

/-- polycap-source.c:343-445 on values (the second half of `fileBody`) -/
def endV (env : FileEnv α) (S : Src α) (sig : α) (is : List Int) (ws : List α) (rho : α) (ts : List (Tok α)) (e : EArg) :
    Out (Option (Src α × Descr α × α) × EArg) := do
  let np ← outside (scanInt id ts 0)
  let ty ← outside (scanInt some np.2.2 none)
  let type ← useVar ty.2.1
  let pr ← scanProfile env type ty.2.2 e
  match pr.1 with
  | none => .ok (none, pr.2.1)
  | some p => do
    let nc ← outside (scanInt id pr.2.2 0)
    .ok (fileFinish S ⟨sig, nc.2.1, is, ws, rho, p⟩ pr.2.1)

/-- the profile type behind the number of photons -/
def typeAt (ts : List (Tok α)) : Option Int :=
  match scanInt id ts 0 with
  | none => none
  | some np => match scanInt some np.2.2 none with
    | none => none
    | some ty => ty.2.1

/-- the profile is not one of the three built-in shapes -/
def Named (ty : Option Int) : Prop := ∀ t, ty = some t → ¬ (t = 0 ∨ t = 1 ∨ t = 2)

/-- the input (behind the energies) holds a profile that can be used -/
def profileAt (env : FileEnv α) (ts : List (Tok α)) (e : EArg) : Bool :=
  match scanInt id ts 0 with
  | none => false
  | some np => match scanInt some np.2.2 none with
    | none => false
    | some ty => match ty.2.1 with
      | none => false
      | some type => match scanProfile env type ty.2.2 e with
        | .ok (some _, _, _) => true
        | _ => false

theorem Left.mono {U V : Prop} (h : U → V) {bs : List (Option (Block α))} (hl : Left U bs) : Left V bs :=
  fun i c hc => ⟨(hl i c hc).1, (hl i c hc).2.1, (hl i c hc).2.2.imp_right h⟩

theorem left_of {U : Prop} (ex : List (Option (Block α))) (h : ∀ c ∈ ex, c = none ∨ U ∧ c = some (.raw 0)) :
    Left U ([none, none, none, some (.raw 0), none, none, none] ++ ex) := by
  intro i c hc
  by_cases hi : i < 7
  · rw [List.getElem?_append_left (by simpa using hi)] at hc
    interval_cases i <;> simp at hc <;> simp [← hc]
  · rw [List.getElem?_append_right (by simpa using hi)] at hc
    have := List.mem_of_getElem? hc
    rcases h _ this with h | ⟨hu, h⟩
    · cases h
    · simp only [Option.some.injEq] at h
      exact ⟨h, by omega, Or.inr hu⟩

/-- `polycap_source_free` while the profile is missing -/
theorem free_7 (S : Src α) (n : Nat) (f : Option (Block α)) (is : List Int) (ws es : List α)
    (m : Nat → Option (Block α)) (b : Nat) (o : Nat → Bool) (ex : List (Option (Block α)))
    (s0 : α) (n0 : Int) (o0 : α) (ne0 : Nat) (r0 : α) :
    (sourceFree (some (b + 1))).run (hp m b (blocks7 (.descr s0 n0 o0 ne0 (some (b + 4)) (some (b + 5)) r0 none)
      (srcBlock (some b) (some (b + 2)) S n (some (b + 6))) f is ws es ++ ex) o) =
    some ((), hp m b ([none, none, none, f, none, none, none] ++ ex) o) := by
  simp [srcBlock, blocks7, sourceFree, descriptionFree, profileFree, rngFree, loadProfile, run_bind, load_hp, load_hp0, free_hp, free_hp0]

theorem left_none (U : Prop) (n : Nat) : Left (α := α) U (List.replicate n none) := by
  intro i c hc
  have := List.mem_of_getElem? hc
  have := List.eq_of_mem_replicate this
  cases this

theorem lift_ok {A C : Type} (a : A) (f : A → CM (Block α) C) (h : Heap (Block α)) : (lift (.ok a) >>= f).run h = (f a).run h := rfl
theorem lift_ub {A C : Type} (f : A → CM (Block α) C) (h : Heap (Block α)) : (lift (.ub) >>= f).run h = none := rfl
theorem lift_fuel {A C : Type} (f : A → CM (Block α) C) (h : Heap (Block α)) : (lift (.fuel) >>= f).run h = none := rfl
theorem ub_bind {A C : Type} (f : A → Out C) : ((.ub : Out A) >>= f) = .ub := rfl
theorem fuel_bind {A C : Type} (f : A → Out C) : ((.fuel : Out A) >>= f) = .fuel := rfl

theorem end_hp (env : FileEnvM α) (pv : List (Tok α) → EArg → Option (Profile α) × EArg) (ok : FilesOk env pv)
    (S : Src α) (sig : α) (rho : α) (is : List Int) (ws es : List α) (hw : ws.length = is.length) (ts : List (Tok α)) (e : EArg)
    (m : Nat → Option (Block α)) (b : Nat) (o : Nat → Bool) (n0 : Int) (o0 : α) :
    Res (Named (typeAt ts)) (profileAt (env.value pv) ts e) e m b o (endV (env.value pv) { S with energies := es } sig is ws rho ts e)
      ((endM env S sig is.length rho es.length (some b) (some (b + 1)) (some (b + 3)) (some (b + 4)) (some (b + 5)) (some (b + 6)) ts e).run
        (hp m b (blocks7 (.descr sig n0 o0 is.length (some (b + 4)) (some (b + 5)) rho none)
          (srcBlock (some b) (some (b + 2)) S es.length (some (b + 6))) (some (.raw 0)) is ws es) o)) := by
  have fin : ∀ (S : Src α) (D : Descr α) (e e' : EArg), fileFinish S D e = (none, e') → e' ≠ some none := by
    intro S D e e' h
    simp only [fileFinish] at h
    split at h
    · simp only [Prod.mk.injEq, true_and] at h
      rw [← h]
      generalize (checkWeight D.wi e).2 = x
      match hx : x with
      | none => simp
      | some none => simp
      | some (some c) => simp
    · split at h
      · simp only [Prod.mk.injEq, true_and] at h
        rw [← h]
        cases hx : (validateE (some D.prof) D.n_cap (checkWeight D.wi e).2).2 with
        | none => simp [EArg.clear]
        | some c => simp [EArg.clear]
      · simp at h
  cases h1 : scanInt (α := α) id ts 0 with
  | none => left; simp only [endV, endM, h1, outside, lift_fuel, fuel_bind]
  | some np =>
  cases h2 : scanInt (α := α) some np.2.2 none with
  | none => left; simp only [endV, endM, h1, h2, outside, lift_fuel, fuel_bind, Out.bind_ok, lift_ok]
  | some ty =>
  cases h3 : ty.2.1 with
  | none => left; simp only [endV, endM, h1, h2, h3, outside, lift_ub, ub_bind, Out.bind_ok, lift_ok, useVar]
  | some type =>
  have hN : ¬ (type = 0 ∨ type = 1 ∨ type = 2) → Named (typeAt ts) := by
    intro u t ht
    simp only [typeAt, h1, h2, h3, Option.some.injEq] at ht
    subst ht
    exact u
  have hL : ∀ ex : List (Option (Block α)), (∀ c ∈ ex, c = none ∨ ¬ (type = 0 ∨ type = 1 ∨ type = 2) ∧ c = some (.raw 0)) →
      Left (Named (typeAt ts)) ([none, none, none, some (.raw 0), none, none, none] ++ ex) :=
    fun ex h => (left_of ex h).mono hN
  simp only [endV, endM, h1, h2, h3, outside, Out.bind_ok, lift_ok, useVar]
  have hp' := profileM_hp env pv ok type ty.2.2 e (.descr sig n0 o0 is.length (some (b + 4)) (some (b + 5)) rho none)
          (srcBlock (some b) (some (b + 2)) S es.length (some (b + 6))) (some (.raw 0)) is ws es m b o
  rcases hp' with hv | ⟨hn, ex, e', ts', hr, hrep, hex⟩
  · cases hs : scanProfile (env.value pv) type ty.2.2 e with
    | ub => rw [hs] at hv; left; simp only [run_bind_none hv, ub_bind]
    | fuel => rw [hs] at hv; left; simp only [run_bind_none hv, fuel_bind]
    | ok r =>
      obtain ⟨q, e', ts'⟩ := r
      rw [hs] at hv
      cases q with
      | none =>
        obtain ⟨hrep, ex, hr, hex⟩ := hv
        left
        rw [run_bind_some hr]
        simp only [Out.bind_ok, if_true]
        refine ⟨hrep, _, ?_, hL ex hex, fun hc => ?_, fun _ => rfl⟩
        rotate_left
        · simp [profileAt, h1, h2, h3, hs] at hc
        rw [run_bind_some (free_7 S es.length _ is ws es m b o ex sig n0 o0 is.length rho)]
        rfl
      | some p =>
        obtain ⟨k, j, hk, hr⟩ := hv
        rw [run_bind_some hr]
        simp only [Out.bind_ok, reduceCtorEq, if_false]
        have st : (store (some b) (.descr sig 0 (lit 0) is.length (some (b + 4)) (some (b + 5)) rho (some (b + (7 + k))))).run
            (hp m b (objBlocks b (.descr sig n0 o0 is.length (some (b + 4)) (some (b + 5)) rho none)
              (srcBlock (some b) (some (b + 2)) S es.length (some (b + 6))) (some (.raw 0)) is ws es p k j) o) =
            some ((), hp m b (objBlocks b (.descr sig 0 (lit 0) is.length (some (b + 4)) (some (b + 5)) rho (some (b + (7 + k))))
              (srcBlock (some b) (some (b + 2)) S es.length (some (b + 6))) (some (.raw 0)) is ws es p k j) o) := by
          simp [store_hp0, objBlocks]
        rw [run_bind_some st]
        cases h4 : scanInt (α := α) id ts' 0 with
        | none => left; simp only [lift_fuel, fuel_bind]
        | some nc =>
          simp only [Out.bind_ok, lift_ok]
          have fr : (free (some (b + 3))).run (hp m b (objBlocks b (.descr sig 0 (lit 0) is.length (some (b + 4)) (some (b + 5)) rho (some (b + (7 + k))))
              (srcBlock (some b) (some (b + 2)) S es.length (some (b + 6))) (some (.raw 0)) is ws es p k j) o) =
              some ((), hp m b (objBlocks b (.descr sig 0 (lit 0) is.length (some (b + 4)) (some (b + 5)) rho (some (b + (7 + k))))
              (srcBlock (some b) (some (b + 2)) S es.length (some (b + 6))) none is ws es p k j) o) := by
            simp [free_hp, objBlocks]
          rw [run_bind_some fr, finish_hp S sig nc.2.1 rho is ws es _ p e' hw m b o k j hk ⟨_, _, _, _, _, rfl⟩]
          left
          rcases hf : fileFinish { S with energies := es } ⟨sig, nc.2.1, is, ws, rho, p⟩ e' with ⟨v, e''⟩
          cases v with
          | none => 
            simp only
            refine ⟨fun _ => fin _ _ _ _ hf, _, rfl, left_none _ _, fun _ x hx => List.eq_of_mem_replicate hx, fun hc => ?_⟩
            simp [profileAt, h1, h2, h3, hs] at hc
          | some v =>
            have := fileFinish_some hf
            subst this
            exact ⟨by simp [checkWeight_length, hw], k, j, hk, rfl⟩
  · right
    refine ⟨hn, Or.inr ⟨_, e', ?_, hrep, hL ex hex⟩⟩
    rw [run_bind_some hr]
    simp only [if_true]
    rw [run_bind_some (free_7 S es.length _ is ws es m b o ex sig n0 o0 is.length rho)]
    rfl

/-! ## The whole reader -/

/-- the input behind composition, density and energies -/
def behind (nelem : Nat) (ts : List (Tok α)) : Option (List (Tok α)) :=
  match scanElems nelem ts with
  | .ok el => some (scanMany 3 (scanLf id el.2.2 (lit 0)).2.2).2
  | _ => none

/-- the input file can be read up to and including its profile -/
def fileProfile (env : FileEnv α) (ts : List (Tok α)) (e : EArg) : Bool :=
  match headScan ts with
  | .ok (some H) => ((behind H.nelem H.rest).map (profileAt env · e)).getD false
  | _ => false

/-- the profile type as given in the input file, if it gets that far -/
def fileType (ts : List (Tok α)) : Option Int :=
  match headScan ts with
  | .ok (some H) => (behind H.nelem H.rest).bind typeAt
  | _ => none

omit [CNum α] in
theorem scanElems_length [CNum α] : ∀ (n : Nat) (ts : List (Tok α)) (r : List Int × List α × List (Tok α)), scanElems n ts = .ok r →
    r.1.length = n ∧ r.2.1.length = n
  | 0, ts, r, h => by
    simp only [scanElems, Out.ok.injEq] at h
    subst h
    exact ⟨rfl, rfl⟩
  | n + 1, ts, r, h => by
    simp only [scanElems] at h
    cases h1 : scanInt (α := α) some ts none with
    | none => simp only [h1, outside, fuel_bind, reduceCtorEq] at h
    | some a =>
      simp only [h1, outside, Out.bind_ok] at h
      generalize (if a.1 = 1 then scanLf some a.2.2 none else (a.1, none, a.2.2)) = q at h
      cases h2 : q.2.1 with
      | none => simp only [h2, useVar, ub_bind, reduceCtorEq] at h
      | some w =>
        simp only [h2, useVar, Out.bind_ok] at h
        cases h3 : a.2.1 with
        | none => simp only [h3, ub_bind, reduceCtorEq] at h
        | some z =>
          simp only [h3, Out.bind_ok] at h
          cases h4 : scanElems n q.2.2 with
          | ub => simp only [h4, ub_bind, reduceCtorEq] at h
          | fuel => simp only [h4, fuel_bind, reduceCtorEq] at h
          | ok r' =>
            simp only [h4, Out.bind_ok, Out.ok.injEq] at h
            have := scanElems_length n _ _ h4
            subst h
            simp [this.1, this.2]

theorem body_hp (env : FileEnvM α) (pv : List (Tok α) → EArg → Option (Profile α) × EArg) (ok : FilesOk env pv)
    (H : FileHead α) (e : EArg) (m : Nat → Option (Block α)) (b : Nat) (o : Nat → Bool) (S0 : Src α) (n0 : Nat) (s0 : α) (k0 : Int) (o0 : α) (ne0 : Nat) (r0 : α) :
    Res (Named ((behind H.nelem H.rest).bind typeAt)) (((behind H.nelem H.rest).map (profileAt (env.value pv) · e)).getD false) e m b o (fileBody (env.value pv) H.src H.sig_rough H.nelem H.rest e)
      ((bodyM env H (some b) (some (b + 1)) (some (b + 2)) (some (b + 3)) e).run
        (hp m b [some (.descr s0 k0 o0 ne0 none none r0 none), some (srcBlock (some b) (some (b + 2)) S0 n0 none), some .rng, some (.raw 0)] o)) := by
  have fileB : fileBody (env.value pv) H.src H.sig_rough H.nelem H.rest e = (do
      let el ← scanElems H.nelem H.rest
      let rho := scanLf id el.2.2 (lit 0)
      let m := scanMany 3 rho.2.2
      match ← useAll m.1 with
      | [e0, e1, de] =>
        endV (env.value pv) { H.src with energies := (List.range (env.trunc ((e1 -. e0) /. de +. lit 1))).map fun i => e0 +. ofInt (i : Int) *. de }
          H.sig_rough el.1 el.2.1 rho.2.1 m.2 e
      | _ => .ub) := rfl
  rw [fileB]
  have lf : ∀ n, Left (α := α) (Named ((behind H.nelem H.rest).bind typeAt)) ([none, none, none, some (.raw 0)] ++ List.replicate n none) := by
    intro n i c hc
    by_cases hi : i < 4
    · rw [List.getElem?_append_left (by simpa using hi)] at hc
      interval_cases i <;> simp at hc
      simp [← hc]
    · rw [List.getElem?_append_right (by simpa using hi)] at hc
      have := List.eq_of_mem_replicate (List.mem_of_getElem? hc)
      cases this
  cases o4 : o (b + 4) with
  | false =>
    right
    refine ⟨⟨_, o4⟩, Or.inr ⟨[none, none, none, some (.raw 0)] ++ List.replicate 1 none, e.set .memory, ?_, set_reports e _, lf 1⟩⟩
    simp [bodyM, run_bind, store_hp, store_hp0, malloc_hp, o4, srcBlock, sourceFree, load_hp, load_hp0, descriptionFree, profileFree, rngFree, free_hp, free_hp0]
  | true =>
  cases o5 : o (b + 5) with
  | false =>
    right
    refine ⟨⟨_, o5⟩, Or.inr ⟨[none, none, none, some (.raw 0)] ++ List.replicate 2 none, e.set .memory, ?_, set_reports e _, lf 2⟩⟩
    simp [bodyM, run_bind, store_hp, store_hp0, malloc_hp, o4, o5, srcBlock, sourceFree, load_hp, load_hp0, descriptionFree, profileFree, rngFree, free_hp, free_hp0]
  | true =>
  cases hel : scanElems H.nelem H.rest with
  | ub =>
    left
    simp [ub_bind, bodyM, run_bind, store_hp, store_hp0, malloc_hp, o4, o5, hel, lift]
  | fuel =>
    left
    simp [fuel_bind, bodyM, run_bind, store_hp, store_hp0, malloc_hp, o4, o5, hel, lift]
  | ok el =>
  obtain ⟨il, wl⟩ := scanElems_length _ _ _ hel
  have hb : (behind H.nelem H.rest).bind typeAt = typeAt (scanMany 3 (scanLf id el.2.2 (lit 0)).2.2).2 := by
    simp [behind, hel]
  have hb2 : ((behind H.nelem H.rest).map (profileAt (env.value pv) · e)).getD false =
      profileAt (env.value pv) (scanMany 3 (scanLf id el.2.2 (lit 0)).2.2).2 e := by
    simp [behind, hel]
  simp only [Out.bind_ok]
  cases hu : useAll (scanMany 3 (scanLf id el.2.2 (lit 0)).2.2).1 with
  | ub =>
    left
    simp [ub_bind, bodyM, run_bind, store_hp, store_hp0, malloc_hp, o4, o5, hel, lift, storeInts, storeArr, load_hp, il, wl, hu]
  | fuel =>
    left
    simp [fuel_bind, bodyM, run_bind, store_hp, store_hp0, malloc_hp, o4, o5, hel, lift, storeInts, storeArr, load_hp, il, wl, hu]
  | ok l =>
  simp only [Out.bind_ok]
  match l, hu with
  | [e0, e1, de], hu =>
    simp only
    generalize hn : env.trunc ((e1 -. e0) /. de +. lit 1) = n
    cases o6 : o (b + 6) with
    | false =>
      right
      refine ⟨⟨_, o6⟩, Or.inr ⟨[none, none, none, some (.raw 0)] ++ List.replicate 3 none, e.set .memory, ?_, set_reports e _, lf 3⟩⟩
      simp [bodyM, run_bind, store_hp, store_hp0, malloc_hp, o4, o5, o6, hel, lift, storeInts, storeArr, load_hp, il, wl, hu, hn, srcBlock, sourceFree,
        load_hp0, descriptionFree, profileFree, rngFree, free_hp, free_hp0, List.replicate]
    | true =>
      rw [hb, hb2]
      have key := end_hp env pv ok H.src H.sig_rough (scanLf id el.2.2 (lit 0)).2.1 el.1 el.2.1 ((List.range n).map fun i => e0 +. ofInt (i : Int) *. de)
        (by omega) (scanMany 3 (scanLf id el.2.2 (lit 0)).2.2).2 e m b o 0 (lit 0)
      convert key using 1
      simp [bodyM, run_bind, store_hp, store_hp0, malloc_hp, o4, o5, o6, hel, lift, storeInts, storeArr, load_hp, il, wl, hu, hn, srcBlock, blocks7]
  | [], hu | [_], hu | [_, _], hu | _ :: _ :: _ :: _ :: _, hu =>
    left
    simp [bodyM, run_bind, store_hp, store_hp0, malloc_hp, o4, o5, hel, lift, storeInts, storeArr, load_hp, il, wl, hu]

theorem sourceFromTokens_head (env : FileEnv α) (ts : List (Tok α)) (e : EArg) : sourceFromTokens env ts e =
    match headScan ts with
    | .ok none => .ok (none, e.set .io)
    | .ok (some H) => fileBody env H.src H.sig_rough H.nelem H.rest e
    | .ub => .ub
    | .fuel => .fuel := by
  unfold sourceFromTokens headScan
  simp only
  generalize scanLf id ts (lit 0 : α) = a
  by_cases ha : a.1 = 0
  · simp only [ha, if_true]
  simp only [if_neg ha]
  generalize scanLf id a.2.2 (lit 0 : α) = b
  by_cases hb : b.1 = 0
  · simp only [hb, if_true]
  simp only [if_neg hb]
  generalize scanLf2 id b.2.2 (lit 0 : α) (lit 0) = c
  by_cases hc : c.1 = 0
  · simp only [hc, if_true]
  simp only [if_neg hc]
  generalize scanLf2 id c.2.2.2 (lit 0 : α) (lit 0) = d
  by_cases hd : d.1 = 0
  · simp only [hd, if_true]
  simp only [if_neg hd]
  generalize scanLf2 id d.2.2.2 (lit 0 : α) (lit 0) = f
  by_cases hf : f.1 = 0
  · simp only [hf, if_true]
  simp only [if_neg hf]
  generalize scanLf id f.2.2.2 (lit 0 : α) = g
  by_cases hg : g.1 = 0
  · simp only [hg, if_true]
  simp only [if_neg hg]
  cases hn : scanInt (α := α) id g.2.2 0 with
  | none => rfl
  | some n =>
    simp only [outside, Out.bind_ok]
    by_cases h0 : n.1 = 0
    · simp only [h0, if_true]
    · simp only [if_neg h0]

/-- the profile is to be read from files named in the input -/
def NamesProfile (filename : Option String) (fs : String → Option (List (Tok α))) : Prop :=
  ∃ name ts, filename = some name ∧ fs name = some ts ∧ Named (fileType ts)

/-- the input file is closed again (or was never opened) when the call returns -/
def closes (env : FileEnv α) (filename : Option String) (fs : String → Option (List (Tok α))) (e : EArg) : Bool :=
  match filename.bind fs with
  | none => true
  | some ts => fileProfile env ts e

theorem file_hp (env : FileEnvM α) (pv : List (Tok α) → EArg → Option (Profile α) × EArg) (ok : FilesOk env pv)
    (filename : Option String) (fs : String → Option (List (Tok α))) (e : EArg) (m : Nat → Option (Block α)) (b : Nat) (o : Nat → Bool) :
    Res (NamesProfile filename fs) (closes (env.value pv) filename fs e) e m b o (sourceFromFile (env.value pv) filename fs e)
      ((sourceFromFileM env filename fs e).run (hp m b [] o)) := by
  have nn : ∀ n : Nat, ∀ x ∈ (List.replicate n none : List (Option (Block α))), x = none := fun n x hx => List.eq_of_mem_replicate hx
  cases filename with
  | none =>
    left
    exact ⟨set_reports e _, [], rfl, left_none _ 0, fun _ => nn 0, fun h => by simp [closes] at h⟩
  | some name =>
  cases o0 : o b with
  | false =>
    right
    refine ⟨⟨_, o0⟩, Or.inr ⟨List.replicate 1 none, e.set .memory, ?_, set_reports e _, left_none _ 1⟩⟩
    simp [sourceFromFileM, run_bind, malloc_hp, o0]
  | true =>
  cases o1 : o (b + 1) with
  | false =>
    right
    refine ⟨⟨_, o1⟩, Or.inr ⟨List.replicate 2 none, e.set .memory, ?_, set_reports e _, left_none _ 2⟩⟩
    simp [sourceFromFileM, run_bind, malloc_hp, o0, o1, descriptionFree, load_hp0, profileFree, free_hp0]
  | true =>
  cases o2 : o (b + 2) with
  | false =>
    right
    refine ⟨⟨_, o2⟩, Or.inl ?_⟩
    simp [sourceFromFileM, run_bind, malloc_hp, o0, o1, o2]
  | true =>
  cases hfs : fs name with
  | none =>
    left
    simp only [sourceFromFile, hfs]
    refine ⟨set_reports e _, List.replicate 3 none, ?_, left_none _ 3, fun _ => nn 3, fun h => by simp [closes, hfs] at h⟩
    simp [sourceFromFileM, run_bind, malloc_hp, o0, o1, o2, hfs, srcBlock, store_hp, sourceFree, load_hp, load_hp0, descriptionFree, profileFree, rngFree, free_hp, free_hp0, List.replicate]
  | some ts =>
  cases o3 : o (b + 3) with
  | false =>
    right
    refine ⟨⟨_, o3⟩, Or.inr ⟨List.replicate 4 none, e.set .io, ?_, set_reports e _, left_none _ 4⟩⟩
    simp [sourceFromFileM, run_bind, malloc_hp, o0, o1, o2, o3, hfs, srcBlock, store_hp, sourceFree, load_hp, load_hp0, descriptionFree, profileFree, rngFree, free_hp, free_hp0, List.replicate]
  | true =>
  have hc : closes (env.value pv) (some name) fs e = fileProfile (env.value pv) ts e := by simp [closes, hfs]
  rw [hc]
  simp only [sourceFromFile, hfs, sourceFromTokens_head]
  cases hh : headScan ts with
  | ub =>
    left
    simp [sourceFromFileM, run_bind, malloc_hp, o0, o1, o2, o3, hfs, srcBlock, store_hp, hh, lift]
  | fuel =>
    left
    simp [sourceFromFileM, run_bind, malloc_hp, o0, o1, o2, o3, hfs, srcBlock, store_hp, hh, lift]
  | ok r =>
  cases r with
  | none =>
    left
    refine ⟨set_reports e _, [none, none, none, some (.raw 0)], ?_, ?_, fun h => by simp [fileProfile, hh] at h, fun _ => rfl⟩
    · simp [sourceFromFileM, run_bind, malloc_hp, o0, o1, o2, o3, hfs, srcBlock, store_hp, hh, lift, sourceFree, load_hp, load_hp0, descriptionFree, profileFree, rngFree, free_hp, free_hp0]
    · intro i c hc
      have hi : i < 4 := by
        by_contra hi
        rw [List.getElem?_eq_none (by simpa using hi)] at hc
        cases hc
      interval_cases i <;> simp at hc
      simp [← hc]
  | some H =>
    have key := body_hp env pv ok H e m b o ⟨lit 0, lit 0, lit 0, lit 0, lit 0, lit 0, lit 0, lit 0, []⟩ 0 (lit 0) 0 (lit 0) 0 (lit 0)
    have hU : Named ((behind H.nelem H.rest).bind typeAt) → NamesProfile (some name) fs := by
      intro h
      exact ⟨name, ts, rfl, hfs, by simp only [fileType, hh]; exact h⟩
    have hC : fileProfile (env.value pv) ts e = ((behind H.nelem H.rest).map (profileAt (env.value pv) · e)).getD false := by
      simp only [fileProfile, hh]
    rw [hC]
    have hr : (sourceFromFileM env (some name) fs e).run (hp m b [] o) = (bodyM env H (some b) (some (b + 1)) (some (b + 2)) (some (b + 3)) e).run
        (hp m b [some (.descr (lit 0) 0 (lit 0) 0 none none (lit 0) none), some (srcBlock (some b) (some (b + 2)) ⟨lit 0, lit 0, lit 0, lit 0, lit 0, lit 0, lit 0, lit 0, []⟩ 0 none), some .rng, some (.raw 0)] o) := by
      simp [sourceFromFileM, run_bind, malloc_hp, o0, o1, o2, o3, hfs, srcBlock, store_hp, hh, lift]
    rw [hr]
    show Res _ _ e m b o (fileBody (env.value pv) H.src H.sig_rough H.nelem H.rest e) _
    rcases key with k | ⟨hn, k⟩
    · left
      revert k
      cases fileBody (env.value pv) H.src H.sig_rough H.nelem H.rest e with
      | ub => exact id
      | fuel => exact id
      | ok q =>
        obtain ⟨v, e'⟩ := q
        cases v with
        | none =>
          rintro ⟨h1, bs, h2, h3, h4⟩
          exact ⟨h1, bs, h2, h3.mono hU, h4⟩
        | some v => exact id
    · right
      refine ⟨hn, ?_⟩
      rcases k with k | ⟨bs, e', h1, h2, h3⟩
      · exact Or.inl k
      · exact Or.inr ⟨bs, e', h1, h2, h3.mono hU⟩

theorem read_obj (v : Src α × Descr α × α) (m : Nat → Option (Block α)) (b : Nat) (o : Nat → Bool) (k j : Nat) (hk : k = 0 ∧ j = 0 ∨ k = 4 ∧ j = 2) :
    readSource (hp m b (objBlocks b
        (.descr v.2.1.sig_rough v.2.1.n_cap v.2.2 v.2.1.iz.length (some (b + 4)) (some (b + 5)) v.2.1.density (some (b + (7 + k))))
        (srcBlock (some b) (some (b + 2)) v.1 v.1.energies.length (some (b + 6))) none v.2.1.iz v.2.1.wi v.1.energies v.2.1.prof k j) o) (some (b + 1)) =
    some (viewOf v) := by
  rcases hk with ⟨rfl, rfl⟩ | ⟨rfl, rfl⟩ <;>
  simp [readSource, hp, lay_at, lay_at0, objBlocks, srcBlock, readDescr, readProfile, viewOf, List.replicate]

theorem lay_none (h : Heap (Block α)) (wf : h.WF) (bs : List (Option (Block α))) (hn : ∀ x ∈ bs, x = none) : lay h.mem h.next bs = h.mem := by
  funext x
  simp only [lay]
  split
  · rfl
  · rw [wf x (by omega)]
    cases hx : bs[x - h.next]? with
    | none => rfl
    | some c => rw [hn c (List.mem_of_getElem? hx)]; rfl

/-! ## Theorems -/

/-- **C96 (what the call gives).**  With all memory available, reading a source from file does on memory what it does on values: the
same refusals and errors, the same undefined behaviour, and an accepted file gives a source that reads back as exactly the values; the memory
there was before is untouched, and releasing the source restores it exactly (so nothing else was left behind). -/
theorem source_file_result (env : FileEnvM α) (pv : List (Tok α) → EArg → Option (Profile α) × EArg) (ok : FilesOk env pv)
    (filename : Option String) (fs : String → Option (List (Tok α))) (e : EArg) (h : Heap (Block α)) (wf : h.WF) (al : AllocOk h) :
    match sourceFromFile (env.value pv) filename fs e with
    | .ok (some v, e') => ∃ s h', (sourceFromFileM env filename fs e).run h = some ((some s, e'), h') ∧
        readSource h' (some s) = some (viewOf v) ∧ (∀ x, h.mem x ≠ none → h'.mem x = h.mem x) ∧
        ∃ h'', (sourceFree (some s)).run h' = some ((), h'') ∧ h''.mem = h.mem
    | .ok (none, e') => ∃ h', (sourceFromFileM env filename fs e).run h = some ((none, e'), h')
    | _ => (sourceFromFileM env filename fs e).run h = none := by
  have key := file_hp env pv ok filename fs e h.mem h.next h.orc
  rw [← hp_nil h wf] at key
  rcases key with key | ⟨⟨n, hn⟩, -⟩
  swap
  · rw [al n] at hn; cases hn
  cases hV : sourceFromFile (env.value pv) filename fs e with
  | ub => rw [hV] at key; exact key
  | fuel => rw [hV] at key; exact key
  | ok q =>
    obtain ⟨v, e'⟩ := q
    rw [hV] at key
    cases v with
    | none =>
      obtain ⟨-, bs, h2, -⟩ := key
      exact ⟨_, h2⟩
    | some v =>
      obtain ⟨-, k, j, hk, hr⟩ := key
      refine ⟨_, _, hr, read_obj v _ _ _ k j hk, ?_, _, free_obj v.1 _ none _ _ _ _ _ _ _ k j hk _ _ _ _ _, ?_⟩
      · intro x hx
        have : x < h.next := by
          by_contra hc
          exact hx (wf x (by omega))
        exact lay_old _ _ _ this
      · refine lay_none h wf _ ?_
        intro x hx
        simp only [List.cons_append, List.nil_append, List.mem_cons, List.mem_replicate] at hx
        tauto

/-- **C96 (accepted).**  Whatever allocations fail: if the call returns a source, it is the source described by the file, no other block
is left over (releasing the source restores the memory there was before). -/
theorem source_file_accepted (env : FileEnvM α) (pv : List (Tok α) → EArg → Option (Profile α) × EArg) (ok : FilesOk env pv)
    (filename : Option String) (fs : String → Option (List (Tok α))) (e e' : EArg) (h h' : Heap (Block α)) (wf : h.WF) (s : Nat)
    (r : (sourceFromFileM env filename fs e).run h = some ((some s, e'), h')) :
    ∃ v, sourceFromFile (env.value pv) filename fs e = .ok (some v, e') ∧ readSource h' (some s) = some (viewOf v) ∧
      (∀ x, h.mem x ≠ none → h'.mem x = h.mem x) ∧ ∃ h'', (sourceFree (some s)).run h' = some ((), h'') ∧ h''.mem = h.mem := by
  have key := file_hp env pv ok filename fs e h.mem h.next h.orc
  rw [← hp_nil h wf, r] at key
  rcases key with key | ⟨-, key⟩
  swap
  · rcases key with key | ⟨_, _, key, _⟩ <;> simp at key
  cases hV : sourceFromFile (env.value pv) filename fs e with
  | ub => rw [hV] at key; simp at key
  | fuel => rw [hV] at key; simp at key
  | ok q =>
    obtain ⟨v, e''⟩ := q
    rw [hV] at key
    cases v with
    | none =>
      obtain ⟨-, bs, h2, -⟩ := key
      simp at h2
    | some v =>
      obtain ⟨-, k, j, hk, hr⟩ := key
      simp only [Option.some.injEq, Prod.mk.injEq] at hr
      obtain ⟨⟨rfl, rfl⟩, rfl⟩ := hr
      refine ⟨v, rfl, read_obj v _ _ _ k j hk, ?_, _, free_obj v.1 _ none _ _ _ _ _ _ _ k j hk _ _ _ _ _, ?_⟩
      · intro x hx
        have : x < h.next := by
          by_contra hc
          exact hx (wf x (by omega))
        exact lay_old _ _ _ this
      · refine lay_none h wf _ ?_
        intro x hx
        simp only [List.cons_append, List.nil_append, List.mem_cons, List.mem_replicate] at hx
        tauto

/-- **C96 (refused; partial: the property asks for memory as it was).**  Whatever allocations fail: if the call returns NULL, an error is
reported, the memory there was before is untouched, and nothing but `FILE` objects and names of files is left behind: for the built-in
shapes nothing or one `FILE` object. -/
theorem source_file_refused_partial (env : FileEnvM α) (pv : List (Tok α) → EArg → Option (Profile α) × EArg) (ok : FilesOk env pv)
    (filename : Option String) (fs : String → Option (List (Tok α))) (e e' : EArg) (h h' : Heap (Block α)) (wf : h.WF)
    (r : (sourceFromFileM env filename fs e).run h = some ((none, e'), h')) :
    (e = some none → e' ≠ some none) ∧
    (∀ x, h'.mem x = h.mem x ∨ h.mem x = none ∧ h'.mem x = some (.raw 0)) ∧
    (¬ NamesProfile filename fs → h'.mem = h.mem ∨ ∃ f, h.mem f = none ∧ h'.mem = upd h.mem f (some (.raw 0))) := by
  have key := file_hp env pv ok filename fs e h.mem h.next h.orc
  rw [← hp_nil h wf, r] at key
  have fin : ∀ bs, Left (NamesProfile filename fs) bs → h' = hp h.mem h.next bs h.orc →
      (∀ x, h'.mem x = h.mem x ∨ h.mem x = none ∧ h'.mem x = some (.raw 0)) ∧
      (¬ NamesProfile filename fs → h'.mem = h.mem ∨ ∃ f, h.mem f = none ∧ h'.mem = upd h.mem f (some (.raw 0))) := by
    rintro bs hl rfl
    have at' : ∀ x, h.next ≤ x → (hp h.mem h.next bs h.orc).mem x = none ∨ (hp h.mem h.next bs h.orc).mem x = some (.raw 0) ∧
        (x = h.next + 3 ∨ NamesProfile filename fs) := by
      intro x hx
      simp only [hp, lay]
      rw [if_neg (by omega)]
      cases hb : bs[x - h.next]? with
      | none => exact Or.inl rfl
      | some c =>
        cases c with
        | none => exact Or.inl rfl
        | some c =>
          obtain ⟨rfl, h3, hu⟩ := hl _ _ hb
          exact Or.inr ⟨rfl, hu.imp_left (by omega)⟩
    have old : ∀ x, x < h.next → (hp h.mem h.next bs h.orc).mem x = h.mem x := fun x hx => lay_old _ _ _ hx
    refine ⟨fun x => ?_, fun hN => ?_⟩
    · by_cases hx : x < h.next
      · exact Or.inl (old x hx)
      · rcases at' x (by omega) with a | ⟨a, -⟩
        · left; rw [a, wf x (by omega)]
        · exact Or.inr ⟨wf x (by omega), a⟩
    · rcases at' (h.next + 3) (by omega) with a | ⟨a, -⟩
      · left
        funext x
        by_cases hx : x < h.next
        · exact old x hx
        · rw [wf x (by omega)]
          rcases at' x (by omega) with a' | ⟨a', hu⟩
          · exact a'
          · rcases hu with rfl | hu
            · rw [a] at a'; cases a'
            · exact absurd hu hN
      · right
        refine ⟨h.next + 3, wf _ (by omega), ?_⟩
        funext x
        simp only [upd]
        by_cases h3 : x = h.next + 3
        · subst h3; rw [a, if_pos rfl]
        · rw [if_neg h3]
          by_cases hx : x < h.next
          · exact old x hx
          · rw [wf x (by omega)]
            rcases at' x (by omega) with a' | ⟨-, hu⟩
            · exact a'
            · rcases hu with hu | hu
              · exact absurd hu h3
              · exact absurd hu hN
  rcases key with key | ⟨-, key⟩
  · cases hV : sourceFromFile (env.value pv) filename fs e with
    | ub => rw [hV] at key; simp at key
    | fuel => rw [hV] at key; simp at key
    | ok q =>
      obtain ⟨v, e''⟩ := q
      rw [hV] at key
      cases v with
      | none =>
        obtain ⟨h1, bs, h2, h3, -⟩ := key
        simp only [Option.some.injEq, Prod.mk.injEq, true_and] at h2
        obtain ⟨rfl, h2⟩ := h2
        exact ⟨h1, fin bs h3 h2⟩
      | some v =>
        obtain ⟨-, k, j, hk, hr⟩ := key
        simp at hr
  · rcases key with key | ⟨bs, e'', h2, h1, h3⟩
    · simp at key
    · simp only [Option.some.injEq, Prod.mk.injEq, true_and] at h2
      obtain ⟨rfl, h2⟩ := h2
      exact ⟨h1, fin bs h3 h2⟩

/-- **C96 (when the input file stays open).**  With all memory available, a refusal leaves memory as it was exactly if the file could not be
opened or was read up to and including a usable profile; in every other case the `FILE` object is still there (finding). -/
theorem source_file_left_open (env : FileEnvM α) (pv : List (Tok α) → EArg → Option (Profile α) × EArg) (ok : FilesOk env pv)
    (filename : Option String) (fs : String → Option (List (Tok α))) (e e' : EArg) (h h' : Heap (Block α)) (wf : h.WF) (al : AllocOk h)
    (r : (sourceFromFileM env filename fs e).run h = some ((none, e'), h')) :
    (h'.mem = h.mem ↔ ∀ ts, filename.bind fs = some ts → fileProfile (env.value pv) ts e = true) ∧
    (h'.mem ≠ h.mem → ∃ f, h.mem f = none ∧ h'.mem f = some (.raw 0)) := by
  have key := file_hp env pv ok filename fs e h.mem h.next h.orc
  rw [← hp_nil h wf, r] at key
  rcases key with key | ⟨⟨n, hn⟩, -⟩
  swap
  · rw [al n] at hn; cases hn
  cases hV : sourceFromFile (env.value pv) filename fs e with
  | ub => rw [hV] at key; simp at key
  | fuel => rw [hV] at key; simp at key
  | ok q =>
    obtain ⟨v, e''⟩ := q
    rw [hV] at key
    cases v with
    | some v =>
      obtain ⟨-, k, j, hk, hr⟩ := key
      simp at hr
    | none =>
      obtain ⟨h1, bs, h2, h3, hT, hF⟩ := key
      simp only [Option.some.injEq, Prod.mk.injEq, true_and] at h2
      obtain ⟨rfl, rfl⟩ := h2
      have hcl : closes (env.value pv) filename fs e = true ↔ ∀ ts, filename.bind fs = some ts → fileProfile (env.value pv) ts e = true := by
        unfold closes
        cases filename.bind fs <;> simp
      have at3 : closes (env.value pv) filename fs e = false → (hp h.mem h.next bs h.orc).mem (h.next + 3) = some (.raw 0) := by
        intro hc
        simp only [hp, lay_at, hF hc]
        rfl
      have w3 := wf (h.next + 3) (by omega)
      cases hc : closes (env.value pv) filename fs e with
      | true =>
        have := lay_none h wf bs (hT hc)
        exact ⟨⟨fun _ => hcl.mp hc, fun _ => this⟩, fun hne => absurd this hne⟩
      | false =>
        refine ⟨⟨fun hm => ?_, fun ha => ?_⟩, fun _ => ⟨_, w3, at3 hc⟩⟩
        · have := at3 hc
          rw [hm, w3] at this
          cases this
        · rw [hcl.mpr ha] at hc; cases hc
end FMem
end Polycap
