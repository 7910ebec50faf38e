import Verif.MainProg
import Verif.Props.SourceFileProps
import Verif.Props.Hdf5File

/-!
# The command line program and the string helpers
-/
namespace Polycap

namespace Str

/-- `buf` holds the string `s` (no zero byte in it), terminated -/
def HoldsStr (buf s : List UInt8) : Prop := (0 : UInt8) ∉ s ∧ ∃ r, buf = s ++ 0 :: r

theorem strlen_spec {buf s : List UInt8} (h : HoldsStr buf s) : strlen buf = some s.length := by
  obtain ⟨h0, r, rfl⟩ := h
  induction s with
  | nil => simp [strlen]
  | cons b s ih =>
    have hb : b ≠ 0 := fun h => h0 (by simp [h])
    have := ih (fun h => h0 (by simp [h]))
    simp [strlen, hb, this]

/-- **`polycap_strdup`** returns a fresh terminated copy of the string (NULL when memory is short), reading nothing behind the
terminator and writing nothing outside the new block of `length+1` bytes. -/
theorem strdup_correct {buf s : List UInt8} (h : HoldsStr buf s) (ok : Bool) :
    strdup ok buf = some (if ok then some (s ++ [0]) else none) := by
  have hl := strlen_spec h
  obtain ⟨h0, r, rfl⟩ := h
  cases ok with
  | false => simp [strdup, hl]
  | true =>
    simp [strdup, strcpy, hl, List.take_append]

/-- **`polycap_strndup`** returns a block of `len+1` bytes that holds the first `len` characters of the string (all of it when it is
shorter). -/
theorem strndup_correct {buf s : List UInt8} (h : HoldsStr buf s) (len : Nat) :
    ∃ bs, strndup true buf len = some (some bs) ∧ bs.length = len + 1 ∧ HoldsStr bs (s.take len) := by
  have key : ∀ (len : Nat) (s buf : List UInt8), HoldsStr buf s →
      strncpy len buf = some (s.take len ++ List.replicate (len - s.length) 0) := by
    intro len
    induction len with
    | zero => intro s buf _; simp [strncpy]
    | succ n ih =>
      rintro s buf ⟨h0, r, rfl⟩
      cases s with
      | nil => simp [strncpy]
      | cons b s =>
        have hb : b ≠ 0 := fun h => h0 (by simp [h])
        simp [strncpy, hb, ih s (s ++ 0 :: r) ⟨fun h => h0 (by simp [h]), r, rfl⟩]
  refine ⟨_, by simp only [strndup, if_true, key len s buf h, Option.map_some]; rfl, ?_, ?_⟩
  · simp only [List.length_append, List.length_take, List.length_replicate, List.length_singleton]; omega
  · refine ⟨fun hm => h.1 (List.mem_of_mem_take hm), ?_⟩
    by_cases hs : len ≤ s.length
    · exact ⟨[], by simp [Nat.sub_eq_zero_of_le hs]⟩
    · obtain ⟨k, hk⟩ : ∃ k, len - s.length = k + 1 := ⟨len - s.length - 1, by omega⟩
      exact ⟨List.replicate k 0 ++ [0], by simp [hk, List.replicate_succ]⟩

/-- a terminated buffer with something behind the terminator -/
example : HoldsStr [104, 105, 0, 77] [104, 105] := ⟨by decide, [77], rfl⟩
end Str

namespace Prog
variable {S R : Type}

/-- The library calls report every failure in an error variable (shown for the model of the library in `file_null_reports`,
`sim_null_reports` and `hdf5_false_reports`). -/
structure Contract (api : Api S R) : Prop where
  open_fails : ∀ f e, api.newFromFile f (some none) = (none, e) → ∃ c, e = some (some c)
  sim_fails : ∀ s t n l e₀ e, api.simulate s t n l (some e₀) = (none, e) → ∃ c, e = some (some c)
  write_fails : ∀ r f e₀ e, api.writeHdf5 r f (some e₀) = (false, e) → ∃ c, e = some (some c)
  open_keeps : ∀ f s e, api.newFromFile f (some none) = (some s, e) → e ≠ none
  sim_keeps : ∀ s t n l e₀ r e, api.simulate s t n l (some e₀) = (some r, e) → e ≠ none

/-- **The program never dereferences a NULL error**, and ends with status 0 exactly when it was called without arguments or all three
steps succeeded; otherwise the status is 1 and the message of an error was printed last. -/
theorem main_exit (api : Api S R) (hc : Contract api) (atoi : String → Int) (maxThreads : Int) (ok : Bool) (args : List String) :
    ∃ st evs, main api atoi maxThreads ok args = some (st, evs) ∧
      (st = 0 ∨ st = 1 ∧ ∃ c pre, evs = pre ++ [.message c]) ∧
      (st = 0 ↔ args = [] ∨ ∃ file rest s r e e' e'', args = file :: rest ∧ api.newFromFile file (some none) = (some s, e) ∧
        api.simulate s (nthreads atoi maxThreads args) 30000 (leakCalc atoi args) e = (some r, e') ∧
        api.writeHdf5 r (outName ok args) e' = (true, e'')) := by
  match args with
  | [] => exact ⟨0, [.usage], rfl, Or.inl rfl, by simp⟩
  | file :: rest =>
    unfold main
    simp only
    rcases h1 : api.newFromFile file (some none) with ⟨_ | s, e⟩
    · obtain ⟨c, rfl⟩ := hc.open_fails _ _ h1
      refine ⟨1, _, rfl, Or.inr ⟨rfl, c, _, rfl⟩, ?_⟩
      simp only [one_ne_zero, reduceCtorEq, false_or, false_iff]
      rintro ⟨f, r, s, _, _, _, _, hh, h2, -⟩
      cases hh
      rw [h1] at h2
      cases h2
    · have he := hc.open_keeps _ _ _ h1
      obtain ⟨e, rfl⟩ := Option.ne_none_iff_exists'.1 he
      simp only
      rcases h2 : api.simulate s (nthreads atoi maxThreads (file :: rest)) 30000 (leakCalc atoi (file :: rest)) (some e) with ⟨_ | r, e'⟩
      · obtain ⟨c, rfl⟩ := hc.sim_fails _ _ _ _ _ _ h2
        refine ⟨1, _, rfl, Or.inr ⟨rfl, c, _, rfl⟩, ?_⟩
        simp only [one_ne_zero, reduceCtorEq, false_or, false_iff]
        rintro ⟨f, r, s', _, _, _, _, hh, h3, h4, -⟩
        cases hh
        rw [h1] at h3
        cases h3
        rw [h2] at h4
        cases h4
      · have he' := hc.sim_keeps _ _ _ _ _ _ _ h2
        obtain ⟨e', rfl⟩ := Option.ne_none_iff_exists'.1 he'
        simp only
        rcases h3 : api.writeHdf5 r (outName ok (file :: rest)) (some e') with ⟨_ | _, e''⟩
        · obtain ⟨c, rfl⟩ := hc.write_fails _ _ _ _ h3
          refine ⟨1, _, rfl, Or.inr ⟨rfl, c, _, rfl⟩, ?_⟩
          simp only [one_ne_zero, reduceCtorEq, false_or, false_iff]
          rintro ⟨f, r', s', _, _, _, _, hh, h4, h5, h6⟩
          cases hh
          rw [h1] at h4
          cases h4
          rw [h2] at h5
          cases h5
          rw [h3] at h6
          cases h6
        · refine ⟨0, _, rfl, Or.inl rfl, ?_⟩
          simp only [reduceCtorEq, false_or, true_iff]
          exact ⟨file, rest, s, r, _, _, _, rfl, h1, h2, h3⟩

/-- **What a successful run does**: one simulation of 30000 photons of the source in the file, results written to the second argument or
`polycap_out.h5`, and everything is freed once. -/
theorem main_success (api : Api S R) (atoi : String → Int) (maxThreads : Int) (file : String) (rest : List String)
    {evs : List (Ev S R)} (h : main api atoi maxThreads true (file :: rest) = some (0, evs)) :
    ∃ s r, evs = [.newFromFile file, .simulate s (nthreads atoi maxThreads (file :: rest)) 30000 (leakCalc atoi (file :: rest)),
      .write r (some (rest.headD "polycap_out.h5")), .freeName, .freeResult r, .freeSource s] := by
  have hname : outName true (file :: rest) = some (rest.headD "polycap_out.h5") := by
    cases rest <;> rfl
  unfold main at h
  simp only [failWith, hname] at h
  split at h
  · split at h <;> simp at h
  · split at h
    · split at h <;> simp at h
    · split at h
      · split at h <;> simp at h
      · simp only [Option.some.injEq, Prod.mk.injEq, true_and] at h
        exact ⟨_, _, h.symm⟩

/-- **Threads and leak switch**: the thread count passed on is -1 (let the library choose) without a third argument, the number given if it
lies in the range of OpenMP, and OpenMP's maximum otherwise; the leak calculation is on exactly when the fourth argument is 1. -/
theorem main_options (atoi : String → Int) (maxThreads : Int) (args : List String) :
    (args.length < 3 → nthreads atoi maxThreads args = -1) ∧
    (∀ t, args[2]? = some t → (1 ≤ atoi t ∧ atoi t ≤ maxThreads → nthreads atoi maxThreads args = atoi t) ∧
      (¬ (1 ≤ atoi t ∧ atoi t ≤ maxThreads) → nthreads atoi maxThreads args = maxThreads)) ∧
    (leakCalc atoi args = true ↔ ∃ l, args[3]? = some l ∧ atoi l = 1) := by
  match args with
  | [] => simp [nthreads, leakCalc]
  | [_] => simp [nthreads, leakCalc]
  | [_, _] => simp [nthreads, leakCalc]
  | [_, _, t] =>
    refine ⟨by simp, ?_, by simp [leakCalc]⟩
    rintro t' ht
    simp only [List.getElem?_cons_succ, List.getElem?_cons_zero, Option.some.injEq] at ht
    subst ht
    refine ⟨fun h => ?_, fun h => ?_⟩
    · rw [nthreads, if_neg (by omega)]
    · rw [nthreads, if_pos (by omega)]
  | _ :: _ :: t :: l :: _ =>
    refine ⟨by simp, ?_, by simp [leakCalc]⟩
    rintro t' ht
    simp only [List.getElem?_cons_succ, List.getElem?_cons_zero, Option.some.injEq] at ht
    subst ht
    refine ⟨fun h => ?_, fun h => ?_⟩
    · rw [nthreads, if_neg (by omega)]
    · rw [nthreads, if_pos (by omega)]

/-- a library meeting the contract, with all outcomes -/
def exampleApi : Api Nat Nat where
  newFromFile f e := if f = "missing" then (none, e.set .io) else (some 1, e)
  simulate s _ n _ e := if n < 1 then (none, e.set .invalidArgument) else (some (s + 1), e)
  writeHdf5 _ f e := if f = some "full" then (false, e.set .io) else (true, e)

example : Contract exampleApi where
  open_fails f e h := by
    simp only [exampleApi] at h
    split at h <;> simp at h
    exact ⟨.io, h.symm⟩
  sim_fails s t n l e₀ e h := by
    simp only [exampleApi] at h
    split at h <;> simp at h
    subst h
    cases e₀ <;> simp [EArg.set]
  write_fails r f e₀ e h := by
    simp only [exampleApi] at h
    split at h <;> simp at h
    subst h
    cases e₀ <;> simp [EArg.set]
  open_keeps f s e h := by
    simp only [exampleApi] at h
    split at h <;> simp at h
    rw [← h.2]; simp
  sim_keeps s t n l e₀ r e h := by
    simp only [exampleApi] at h
    split at h <;> simp at h
    rw [← h.2]; simp

/-! ### The library as modelled meets the contract -/
variable {α : Type} [CNum α]

/-- an error variable (not NULL), holding an error if `b` -/
def Told (b : Prop) (e : EArg) : Prop := (b → ∃ c, e = some (some c)) ∧ e ≠ none

theorem told_set (e : Option Code) (c : Code) (b : Prop) : Told b (EArg.set (some e) c) := by
  cases e <;> simp [Told, EArg.set]

theorem checkWeight_some (wi : List α) (e : Option Code) : ∃ e', (checkWeight wi (some e)).2 = some e' := by
  unfold checkWeight
  simp only
  repeat' split
  all_goals cases e <;> simp [EArg.set]

theorem fileFinish_reports (S : Src α) (D : Descr α) (e : Option Code) :
    Told ((fileFinish S D (some e)).1 = none) (fileFinish S D (some e)).2 := by
  obtain ⟨e1, h1⟩ := checkWeight_some D.wi e
  simp only [fileFinish, h1]
  split
  · exact told_set _ _ _
  · have hv : ∃ e2, (validateE (some D.prof) D.n_cap (some e1)).2 = some e2 := by
      simp only [validateE]
      split
      · cases e1 <;> simp [EArg.set]
      · simp
    obtain ⟨e2, h2⟩ := hv
    split
    · simp only [h2, EArg.clear]
      exact told_set _ _ _
    · simp only [h2]
      simp [Told]

/-- **A source read from a file is NULL only with an error reported** (given the same of the profile reader, see
`profile_file_null_iff_error`). -/
theorem file_null_reports (env : FileEnv α)
    (hp : ∀ ts e, Told ((env.profFiles ts (some e)).1 = none) (env.profFiles ts (some e)).2.1)
    (fs : String → Option (List (Tok α))) (file : Option String) {r : Option (Src α × Descr α × α)} {e' : EArg}
    (h : sourceFromFile env file fs (some none) = .ok (r, e')) : (r = none → ∃ c, e' = some (some c)) ∧ e' ≠ none := by
  have bad : ∀ {c : Code} {r : Option (Src α × Descr α × α)} {e' : EArg},
      Out.ok ((none : Option (Src α × Descr α × α)), EArg.set (some none) c) = .ok (r, e') → Told (r = none) e' := by
    intro c r e' h
    injection h with h
    injection h with h1 h2
    rw [← h2]
    exact told_set _ _ _
  change Told (r = none) e'
  unfold sourceFromFile at h
  split at h
  · exact bad h
  split at h
  · exact bad h
  rename_i ts _
  simp only [sourceFromTokens] at h
  split_ifs at h <;> try exact bad h
  rw [Out.bind_eq_ok] at h
  obtain ⟨n, _, h⟩ := h
  split_ifs at h <;> try exact bad h
  simp only [fileBody] at h
  rw [Out.bind_eq_ok] at h
  obtain ⟨el, _, h⟩ := h
  rw [Out.bind_eq_ok] at h
  obtain ⟨vs, _, h⟩ := h
  split at h
  · rw [Out.bind_eq_ok] at h
    obtain ⟨np, _, h⟩ := h
    rw [Out.bind_eq_ok] at h
    obtain ⟨ty, _, h⟩ := h
    rw [Out.bind_eq_ok] at h
    obtain ⟨type, _, h⟩ := h
    rw [Out.bind_eq_ok] at h
    obtain ⟨pr, hpr, h⟩ := h
    have hpt : Told (pr.1 = none) pr.2.1 := by
      unfold scanProfile at hpr
      split at hpr
      · rw [Out.bind_eq_ok] at hpr
        obtain ⟨ws, _, hpr⟩ := hpr
        split at hpr
        · injection hpr with hpr
          rw [← hpr]
          simp only
          split
          · exact told_set _ _ _
          · rename_i hns
            refine ⟨fun hn => ?_, by simp⟩
            rw [hn] at hns
            simp at hns
        · cases hpr
      · injection hpr with hpr
        rw [← hpr]
        exact hp _ _
    split at h
    · rename_i hn
      injection h with h
      injection h with h1 h2
      rw [← h1, ← h2]
      exact ⟨fun _ => hpt.1 hn, hpt.2⟩
    · rw [Out.bind_eq_ok] at h
      obtain ⟨nc, _, h⟩ := h
      injection h with h
      obtain ⟨e2, he2⟩ := Option.ne_none_iff_exists'.1 hpt.2
      rw [he2] at h
      have key : ∀ (S : Src α) (D : Descr α), fileFinish S D (some e2) = (r, e') → Told (r = none) e' := by
        intro S D hf
        have := fileFinish_reports S D e2
        rw [hf] at this
        exact this
      exact key _ _ h
  · cases h

/-- **A simulation returns NULL only with an error reported.** -/
theorem sim_null_reports (lib : Xray α) (a : SimArgs α) (omp : Int) (e : Option Code) {r : Option (TE α)} {e' : EArg}
    (h : SimOutcome lib a omp (some e) r e') : (r = none → ∃ c, e' = some (some c)) ∧ e' ≠ none := by
  obtain ⟨h1, h2⟩ := simulation_arguments lib a omp _ r e' h
  by_cases hb : SimArgsBad a
  · obtain ⟨rfl, rfl⟩ := h1 hb
    exact told_set _ _ _
  · obtain ⟨hs, rfl⟩ := h2 hb
    refine ⟨fun hn => ?_, by simp⟩
    rw [hn] at hs
    simp at hs

/-- **The HDF5 writer returns false only with an error reported** (also for a NULL file name, when `polycap_strdup` failed). -/
theorem hdf5_false_reports {env : H5.Env} (hs : env.Stacks) (hu : ∀ n, env.ok .mallocU n = true) {te : TE α} {ev : H5.Events α}
    (H : H5.Holds te ev) {inp : H5.Inp α} (hz : inp.descr.iz.length = inp.descr.wi.length) (hasName : Bool) (e : Option Code) :
    ∃ b w, H5.writeHdf5 env hasName (some te) (some inp) (some e) = .ok (b, w) ∧ (b = false → ∃ c, w.err = some (some c)) := by
  cases hasName with
  | false =>
    obtain ⟨w, hw, he, -⟩ := H5.hdf5_null env false (some te) (some inp) (some e) (Or.inl rfl)
    refine ⟨false, w, hw, fun _ => ?_⟩
    rw [he]
    exact (told_set e .invalidArgument True).1 trivial
  | true =>
    obtain ⟨b, w, hw, h1, -, -, -, h5⟩ := H5.hdf5_write hs hu H hz (some e)
    refine ⟨b, w, hw, ?_⟩
    rintro rfl
    have : ∃ x ∈ w.log, x.2 = false := by
      by_contra hc
      push Not at hc
      have := h1.2 (fun x hx hf => absurd hf (hc x hx))
      cases this
    obtain ⟨c, hc⟩ := h5 this
    rw [hc]
    exact (told_set e c True).1 trivial
end Prog
end Polycap
