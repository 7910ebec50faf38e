import Verif.Props.PySession
import Verif.Props.LaunchFindings

/-!
# C68 (findings), C69: what `Photon.launch` returns
-/
namespace Polycap.Py
open CNum CM Mem Sess
set_option linter.unusedSectionVars false
variable {α : Type} [CNum α]
section
variable (fit : Fit α) (lib : Xray α) (sim : Nat → SimArgs α → Option (TE α))

/-! ## Programs that keep the discipline -/

/-- objects are collected only when everything else is done -/
theorem disciplined_collect_last (body : List (Stmt α)) (is : List Nat) (h : ∀ i, .collect i ∉ body) : Disciplined (body ++ is.map .collect) := by
  intro pre st post e i c j h1 _ _ hm
  rw [List.append_eq_append_iff] at e
  rcases e with ⟨a, rfl, e⟩ | ⟨a, rfl, e⟩
  · -- the statement is one of the collects
    have : st ∈ is.map (Stmt.collect (α := α)) := by rw [e]; simp
    obtain ⟨k, _, rfl⟩ := List.mem_map.1 this
    cases h1
  · exact h j (by simp [hm])

/-- nothing is ever collected: e.g. an interactive session that keeps all its variables -/
theorem disciplined_keep_all (prog : List (Stmt α)) (h : ∀ i, .collect i ∉ prog) : Disciplined prog := by
  simpa using disciplined_collect_last prog [] h

/-! ## Findings -/

/-- an end of a program that has crashed -/
def Crashes (r : List (Seen α) × PEnd (Sess.St α)) : Prop := r.2 = .crash

/-- FINDING (C68): the photon does not keep its `Description` alive: `del description; photon.launch(...)` reads freed memory. -/
theorem launch_after_collect_crashes (x : Xrl α) (s : PSt (Sess.St α)) (t : PSt (ASt α)) (h : PRel Reached s t) (i j v w : Nat) (P : Photon α)
    (D : DescView α) (hi : s.objs[i]? = some (.live .photon v)) (hj : s.objs[j]? = some (.live .description w))
    (hv : t.c.vars[v]? = some (.photon (.ofDescr w) P)) (hw : t.c.vars[w]? = some (.descr D)) (e : NdArr α) (g : GoodArr e)
    (he : (e.values.isEmpty || e.values.any energyBad) = false) (leak : Bool) (fuel k : Nat) (late : Option Code) :
    Crashes (pyRun x (step fit lib sim) [.collect j, .launch i e leak fuel k late] s) := by
  have r := photon_outlives_description fit lib sim s.c t.c h.1 v w P D hv hw e.values leak fuel k he
  simp only [runAll] at r
  have hne : j ≠ i := by rintro rfl; rw [hi] at hj; cases hj
  cases h1 : step fit lib sim (.free w) s.c with
  | stale => rw [h1] at r; simp at r
  | inner => rw [h1] at r; simp at r
  | next c o =>
    rw [h1] at r
    simp only at r
    cases h2 : step fit lib sim (.launch v e.values leak fuel k) c with
    | next c' o' => rw [h2] at r; simp at r
    | inner => rw [h2] at r; simp at r
    | stale =>
      simp only [Crashes, pyRun, pyStep, hj, call, h1]
      simp only [expect, List.getElem?_set_ne hne, hi, if_true, (good_tail g).1, h2]

/-- FINDING (C68): the same for a photon of a `Source` -/
theorem launch_after_source_crashes (x : Xrl α) (s : PSt (Sess.St α)) (t : PSt (ASt α)) (h : PRel Reached s t) (i j v w : Nat) (P : Photon α)
    (S : SrcView α) (hi : s.objs[i]? = some (.live .photon v)) (hj : s.objs[j]? = some (.live .source w))
    (hv : t.c.vars[v]? = some (.photon (.ofSrc w) P)) (hw : t.c.vars[w]? = some (.src S)) (e : NdArr α) (g : GoodArr e)
    (he : (e.values.isEmpty || e.values.any energyBad) = false) (leak : Bool) (fuel k : Nat) (late : Option Code) :
    Crashes (pyRun x (step fit lib sim) [.collect j, .launch i e leak fuel k late] s) := by
  have r := photon_outlives_source fit lib sim s.c t.c h.1 v w P S hv hw e.values leak fuel k he
  simp only [runAll] at r
  have hne : j ≠ i := by rintro rfl; rw [hi] at hj; cases hj
  cases h1 : step fit lib sim (.free w) s.c with
  | stale => rw [h1] at r; simp at r
  | inner => rw [h1] at r; simp at r
  | next c o =>
    rw [h1] at r
    simp only at r
    cases h2 : step fit lib sim (.launch v e.values leak fuel k) c with
    | next c' o' => rw [h2] at r; simp at r
    | inner => rw [h2] at r; simp at r
    | stale =>
      simp only [Crashes, pyRun, pyStep, hj, call, h1]
      simp only [expect, List.getElem?_set_ne hne, hi, if_true, (good_tail g).1, h2]

/-- FINDING (C68): a result does not keep its `Source` alive: `Source(...).get_transmission_efficiencies(...).write_hdf5(...)`, in which the
source is a temporary, reads freed memory. -/
theorem write_after_collect_crashes (x : Xrl α) (s : PSt (Sess.St α)) (t : PSt (ASt α)) (h : PRel Reached s t) (i j v w : Nat) (te : TE α)
    (S : SrcView α) (hi : s.objs[i]? = some (.live .result v)) (hj : s.objs[j]? = some (.live .source w))
    (hv : t.c.vars[v]? = some (.result w te)) (hw : t.c.vars[w]? = some (.src S)) :
    Crashes (pyRun x (step fit lib sim) [.collect j, .write i] s) := by
  have r := result_outlives_source fit lib sim s.c t.c h.1 v w te S hv hw
  simp only [runAll] at r
  have hne : j ≠ i := by rintro rfl; rw [hi] at hj; cases hj
  cases h1 : step fit lib sim (.free w) s.c with
  | stale => rw [h1] at r; simp at r
  | inner => rw [h1] at r; simp at r
  | next c o =>
    rw [h1] at r
    simp only at r
    cases h2 : step fit lib sim (.write v) c with
    | next c' o' => rw [h2] at r; simp at r
    | inner => rw [h2] at r; simp at r
    | stale =>
      simp only [Crashes, pyRun, pyStep, hj, call, h1]
      simp only [expect, List.getElem?_set_ne hne, hi, if_true, h2]

/-- FINDING (C67): reading a `Profile` made with `ignore=True` crashes, in every state -/
theorem ignored_profile_crashes (x : Xrl α) (s : PSt (Sess.St α)) (fld : ProfField) :
    Crashes (pyRun x (step fit lib sim) [.profileIgnore, .getProfile s.objs.length fld] s) := by
  simp [Crashes, pyRun, pyStep, PSt.push]

end

/-! ## Complete programs -/

def lst (xs : List ℝ) : NdArr ℝ := ⟨xs, 0, 1, xs.length⟩

theorem lst_good (xs : List ℝ) : GoodArr (lst xs) := by
  refine ⟨fun i hi => ?_, .inl rfl⟩
  have hi : i < xs.length := hi
  have h0 : ((lst xs).first : Int) + i * (lst xs).step = i := by simp [lst]
  rw [NdArr.elem, h0, if_pos (by positivity), Int.toNat_natCast]
  show (xs[i]?).isSome = true
  simp [hi]

theorem lst_values (xs : List ℝ) : (lst xs).values = xs := by
  obtain ⟨h1, h2⟩ := contiguous_array_partial (lst xs) (lst_good xs).1 (lst_good xs).2
  have h3 : (lst xs).raw (lst xs).size = some xs := by simp [NdArr.raw, NdArr.tail, lst]
  rw [h3] at h1
  exact (Option.some.inj h1).symm

/-- profile, description, photon -/
noncomputable def exPy : List (Stmt ℝ) :=
  [.profileFromArrays (lst [1, 0.9, 0.8]) (lst [0.1, 0.1, 0.1]) (lst [0, 1, 2]), .description 0 5 2 (.dict [(.number 8, 0.53), (.number 14, 0.47)]) 2.23,
   .photon 1 (lst [0, 0, 0]) (lst [0, 0, 1]) (lst [1, 0, 0])]

theorem exPy_run (x : Xrl ℝ) (fit : Fit ℝ) (lib : Xray ℝ) (sim : Nat → SimArgs ℝ → Option (TE ℝ)) :
    ∃ oa P, photonNew (α := ℝ) ⟨0, 0, 0⟩ ⟨0, 0, 1⟩ ⟨1, 0, 0⟩ = some P ∧ pyRun x (astep fit lib sim) exPy (pyStart astart) = ([.val .obj, .val .obj, .val .obj],
      .fine ⟨⟨[.prof (2, [0, 1, 2], [0.1, 0.1, 0.1], [1, 0.9, 0.8]), .descr (exDescr oa), .photon (.ofDescr 1) P], 0, 0⟩,
        [.live .profile 0, .live .description 1, .live .photon 2], 3, 0⟩) := by
  obtain ⟨oa, a2⟩ := exStep2 fit lib sim
  obtain ⟨P, hP⟩ : ∃ P, photonNew (α := ℝ) ⟨0, 0, 0⟩ ⟨0, 0, 1⟩ ⟨1, 0, 0⟩ = some P := by
    simp [photonNew]
  refine ⟨oa, P, hP, ?_⟩
  have a1 := exStep1 fit lib sim
  have c1 : composition x (.dict [(.number 8, (0.53:ℝ)), (.number 14, 0.47)]) = .ok [(8, 0.53), (14, 0.47)] := by
    simp [composition, compItems, ensureInt]
  have v1 : vec3 (lst [0, 0, 0]) = some ⟨0, 0, 0⟩ := vector_any_stride _ _ _ _ (lst_values _)
  have v2 : vec3 (lst [0, 0, 1]) = some ⟨0, 0, 1⟩ := vector_any_stride _ _ _ _ (lst_values _)
  have v3 : vec3 (lst [1, 0, 0]) = some ⟨1, 0, 0⟩ := vector_any_stride _ _ _ _ (lst_values _)
  have s1 : pyStep x (astep fit lib sim) (.profileFromArrays (lst [1, 0.9, 0.8]) (lst [0.1, 0.1, 0.1]) (lst [0, 1, 2])) (pyStart astart) =
      .ok ⟨⟨[.prof (2, [0, 1, 2], [0.1, 0.1, 0.1], [1, 0.9, 0.8])], 0, 0⟩, [.live .profile 0], 1, 0⟩ .obj := by
    have hc : ¬ ((lst [1, 0.9, 0.8]).size ≠ (lst [0, 1, 2]).size ∨ (lst [1, 0.9, 0.8]).size ≠ (lst [0.1, 0.1, 0.1]).size) := by simp [lst]
    simp only [pyStep]
    rw [if_neg hc]
    show construct (astep fit lib sim) (.newProfileFromArrays 2 [1, 0.9, 0.8] [0.1, 0.1, 0.1] [0, 1, 2]) .profile false (pyStart astart) = _
    simp only [construct, call, pyStart]
    rw [a1]
    rfl
  have s2 : pyStep x (astep fit lib sim) (.description 0 5 2 (.dict [(.number 8, 0.53), (.number 14, 0.47)]) 2.23)
      ⟨⟨[.prof (2, [0, 1, 2], [0.1, 0.1, 0.1], [1, 0.9, 0.8])], 0, 0⟩, [.live .profile 0], 1, 0⟩ =
      .ok ⟨⟨[.prof (2, [0, 1, 2], [0.1, 0.1, 0.1], [1, 0.9, 0.8]), .descr (exDescr oa)], 0, 0⟩, [.live .profile 0, .live .description 1], 2, 0⟩ .obj := by
    simp only [pyStep, List.getElem?_cons_zero, expectNew, if_true, c1, construct, call, a2]
    rfl
  simp only [exPy, pyRun, s1, s2]
  simp [pyStep, expectNew, v1, v2, v3, construct, call, astep, hP, ASt.push, PSt.push]

/-- the hypotheses of `python_program_correct` and `python_program_memory` are met: make three objects, launch, collect all -/
example : (∀ st ∈ exPy ++ [.launch 2 (lst [10]) false 0 1 none] ++ [0, 1, 2].map .collect, GoodStmt st) ∧
    Disciplined (exPy ++ [.launch 2 (lst [10]) false 0 1 none] ++ [0, 1, 2].map .collect) := by
  refine ⟨?_, disciplined_collect_last _ _ ?_⟩
  · intro st hst
    simp only [exPy, List.cons_append, List.nil_append, List.map, List.mem_cons, List.not_mem_nil, or_false] at hst
    rcases hst with rfl | rfl | rfl | rfl | rfl | rfl | rfl <;> simp [GoodStmt, lst_good]
  · intro i h
    simp [exPy] at h

/-- FINDING (C68) on a complete program: `p = Profile.new_from_arrays(...); d = Description(p, ...); photon = Photon(d, ...); del d; photon.launch(10.)` crashes. -/
theorem del_description_crashes (x : Xrl ℝ) (fit : Fit ℝ) (lib : Xray ℝ) (sim : Nat → SimArgs ℝ → Option (TE ℝ)) (fuel k : Nat) :
    Crashes (pyRun x (step fit lib sim) (exPy ++ [.collect 1, .launch 2 (lst [10]) false fuel k none]) (pyStart start)) := by
  obtain ⟨oa, P, -, hr⟩ := exPy_run x fit lib sim
  have app : ∀ (xs ys : List (Stmt ℝ)) (s s' : PSt (Sess.St ℝ)), (pyRun x (step fit lib sim) xs s).2 = .fine s' →
      (pyRun x (step fit lib sim) (xs ++ ys) s).2 = (pyRun x (step fit lib sim) ys s').2 := by
    intro xs
    induction xs with
    | nil => intro ys s s' h; simp only [pyRun, PEnd.fine.injEq] at h; subst h; rfl
    | cons st xs ih =>
      intro ys s s' h
      simp only [pyRun, List.cons_append] at h ⊢
      cases hs : pyStep x (step fit lib sim) st s with
      | ok s1 v => rw [hs] at h; exact ih ys s1 s' h
      | raised s1 v => rw [hs] at h; exact ih ys s1 s' h
      | crash => rw [hs] at h; cases h
      | inner => rw [hs] at h; cases h
  obtain ⟨-, e2⟩ := pyRun_follows x (lib_follows fit lib sim) exPy (pyStart start) (pyStart astart) ⟨reached_start, rfl, rfl, rfl⟩ (by rw [hr]; simp)
  rw [hr] at e2
  obtain ⟨s, e, h⟩ := e2
  unfold Crashes
  rw [app _ _ _ _ e]
  exact launch_after_collect_crashes fit lib sim x s _ h 2 1 2 1 P (exDescr oa) (by rw [h.2.1]; rfl) (by rw [h.2.1]; rfl) rfl rfl (lst [10]) (lst_good _)
    (by rw [lst_values]; norm_num [energyBad, gt]) false fuel k none

/-! ## C69 -/

theorem energies_fine {D : Descr ℝ} {es : List ℝ} (hs : scatfRejects D es = false) :
    es ≠ [] ∧ (∀ e ∈ es, 1 ≤ e ∧ e ≤ 100) ∧ (es.isEmpty || es.any energyBad) = false := by
  obtain ⟨-, -, hes, hb, -⟩ := (scatf_accepts_iff D es).mp hs
  refine ⟨hes, hb, ?_⟩
  have hgood : ∀ y ∈ es, energyBad y = false := by
    intro y hy
    obtain ⟨b1, b2⟩ := hb y hy
    simp only [energyBad, gt, real_lt, real_lit, Bool.or_eq_false_iff, decide_eq_false_iff_not, not_lt]
    push_cast
    exact ⟨b1, b2⟩
  simp only [Bool.or_eq_false_iff, List.isEmpty_eq_false_iff, ne_eq, hes, not_false_eq_true, true_and]
  rw [List.any_eq_false]
  intro y hy; rw [hgood y hy]; simp

/-- **C69 (partial).**  A photon of a valid optic, launched without leak calculation from within the optic with valid energies (and no error from the tracing code):
either Python gets one weight per energy, each in [0, 1], and all memory is accounted for, or it gets `None`, and then the photon started in glass.
Missing: with leak calculation the array can be uninitialised (`python_launch_junk`); when `None` is returned the weights array is lost
(second conjunct). -/
theorem python_launch_partial (x : Xrl ℝ) (fit : Fit ℝ) (lib : Xray ℝ) (sim : Nat → SimArgs ℝ → Option (TE ℝ)) (t : PSt (ASt ℝ)) (i v : Nat) (o : Owner)
    (P : Photon ℝ) (D : Descr ℝ) (hi : t.objs[i]? = some (.live .photon v)) (hv : t.c.vars[v]? = some (.photon o P)) (hD : t.c.optic o = some D)
    (e : NdArr ℝ) (g : GoodArr e) (fuel k : Nat)
    (hcs : ∀ z e, 0 ≤ lib.csTotal z e) (hs : scatfRejects D e.values = false) (gr : Grid D.prof) (hn : 1 ≤ D.n_cap)
    (h0 : 0 ≤ P.startC.z) (h1 : P.startC.z ≤ D.prof.z D.prof.nmax) (R rad : ℝ) (hR : ValueAt D.prof D.prof.ext P.startC.z R)
    (hrad : ValueAt D.prof D.prof.cap P.startC.z rad) (hpos : 0 < R) (hin : ¬ Outside D.n_cap R P.startC) :
    match pyStep x (astep fit lib sim) (.launch i e false fuel k none) t with
    | .ok t' val => (InGlass D.n_cap R rad P.startC → val = .none ∧ t'.lost = t.lost + 1) ∧
        (¬ InGlass D.n_cap R rad P.startC → t'.lost = t.lost ∧ ∃ ws, val = .weights ws ∧ ws.length = e.size ∧ ∀ w ∈ ws, 0 ≤ w ∧ w ≤ 1)
    | .raised _ _ => False
    | .crash => False
    | .inner => True := by
  obtain ⟨hes, hb, hbad⟩ := energies_fine hs
  have hsz := (contiguous_array_partial e g.1 g.2).2
  simp only [pyStep, expect, hi, if_true, (good_tail g).1, call, astep, hv, hbad, Bool.false_eq_true, if_false, hD]
  cases hl : launch lib (some D) false fuel k (some P) (some e.values) true with
  | ok r =>
    obtain ⟨rv, w, P'⟩ := r
    cases P' with
    | none => trivial
    | some P' =>
      dsimp only
      have gl := launch_glass lib D false fuel k P e.values hes hb gr hn h0 h1 R rad hR hrad hpos hin rv w (some P') hl
      by_cases hG : InGlass D.n_cap R rad P.startC
      · have hrv := gl.2.1 hG (.inl rfl)
        subst hrv
        have hw : w ≠ .untouched := by
          rintro rfl
          obtain ⟨Q, -, he⟩ := launch_ended hes hb hl
          cases he with
          | within qr h hw' hl' hz hz' w hx c o P' hy => exact absurd (launchWall_codes _ _ _ _ _ _ _ _ _ hy).2 (by simp)
          | inside qr h hw' c o P' hx =>
            obtain ⟨_, _, _, _, _, _, _, _, h6, _⟩ := launchInside_inv _ _ _ _ _ _ _ _ _ hx
            cases h6
        cases w with
        | untouched => exact absurd rfl hw
        | uninit => simp [afterLaunch, hG]
        | filled ws => simp [afterLaunch, hG]
      · obtain ⟨hrv, ws, rfl⟩ := gl.2.2.2 hG
        obtain ⟨l1, l2⟩ := launch_weights lib D false fuel k P e.values hcs hs rv ws (some P') hl
        simp only [afterLaunch]
        rw [if_neg (by omega), if_neg (by omega)]
        refine ⟨fun h => absurd h hG, fun _ => ⟨rfl, ws, rfl, by rw [l1, hsz], l2⟩⟩
  | _ => trivial

/-- FINDING (C69): with leak calculation, every photon that starts in the glass downstream of the entrance gives Python an array of numbers
nobody wrote. -/
theorem python_launch_junk (x : Xrl ℝ) (fit : Fit ℝ) (lib : Xray ℝ) (sim : Nat → SimArgs ℝ → Option (TE ℝ)) (t : PSt (ASt ℝ)) (i v : Nat) (o : Owner)
    (P : Photon ℝ) (D : Descr ℝ) (hi : t.objs[i]? = some (.live .photon v)) (hv : t.c.vars[v]? = some (.photon o P)) (hD : t.c.optic o = some D)
    (e : NdArr ℝ) (g : GoodArr e) (fuel k : Nat) (hs : scatfRejects D e.values = false) (gr : Grid D.prof) (hn : 1 ≤ D.n_cap)
    (h0 : 0 < P.startC.z) (h1 : P.startC.z ≤ D.prof.z D.prof.nmax) (R rad : ℝ) (hR : ValueAt D.prof D.prof.ext P.startC.z R)
    (hrad : ValueAt D.prof D.prof.cap P.startC.z rad) (hpos : 0 < R) (hin : ¬ Outside D.n_cap R P.startC) (hG : InGlass D.n_cap R rad P.startC) :
    match pyStep x (astep fit lib sim) (.launch i e true fuel k none) t with
    | .ok _ val => val = .junk e.size
    | .raised _ _ => False
    | .crash => False
    | .inner => True := by
  obtain ⟨hes, hb, hbad⟩ := energies_fine hs
  simp only [pyStep, expect, hi, if_true, (good_tail g).1, call, astep, hv, hbad, Bool.false_eq_true, if_false, hD]
  cases hl : launch lib (some D) true fuel k (some P) (some e.values) true with
  | ok r =>
    obtain ⟨rv, w, P'⟩ := r
    cases P' with
    | none => trivial
    | some P' =>
      dsimp only
      obtain ⟨hrv, rfl⟩ := (launch_glass lib D true fuel k P e.values hes hb gr hn h0.le h1 R rad hR hrad hpos hin rv w (some P') hl).2.2.1 hG rfl h0
      simp only [afterLaunch]
      rw [if_neg (by omega), if_neg (by omega)]
  | _ => trivial

/-- the hypotheses of the two theorems are met: a photon in the glass half way down a tapering tube of length 1 -/
noncomputable def tube : DescView ℝ := ⟨0, 1, 0, 1, [14], [1], 223/100, (1, [0, 1], [1, 1/2], [2, 2])⟩

example (c : ℝ) (hc : c = 3/2 ∨ c = 0) : scatfRejects tube.optic (lst [10]).values = false ∧ Grid tube.optic.prof ∧ (1:ℤ) ≤ tube.optic.n_cap ∧
    ValueAt tube.optic.prof tube.optic.prof.ext (1/2) 2 ∧ ValueAt tube.optic.prof tube.optic.prof.cap (1/2) (3/4) ∧
    ¬ Outside tube.optic.n_cap 2 ⟨c, 0, 1/2⟩ ∧ (InGlass tube.optic.n_cap 2 (3/4) ⟨c, 0, 1/2⟩ ↔ c = 3/2) := by
  have hs : Real.sqrt (c ^ 2 + 0 ^ 2) = c := by
    rw [show c ^ 2 + 0 ^ 2 = c ^ 2 by ring]
    exact Real.sqrt_sq (by rcases hc with h | h <;> rw [h] <;> norm_num)
  refine ⟨?_, ⟨?_, ?_, ?_⟩, ?_, ⟨0, ?_⟩, ⟨0, ?_⟩, ?_, ?_⟩
  · rw [lst_values, scatf_accepts_iff]
    simp [tube, DescView.optic]
    norm_num
  · simp [tube, DescView.optic, listProfile]
  · simp [tube, DescView.optic, listProfile]
  · intro i hi
    have : i = 0 := by simp [tube, DescView.optic, listProfile] at hi; omega
    subst this
    simp [tube, DescView.optic, listProfile]
  · simp [tube, DescView.optic]
  · simp [tube, DescView.optic, listProfile, linAt]; norm_num
  · simp [tube, DescView.optic, listProfile, linAt]; norm_num
  · simp only [Outside, tube, DescView.optic, show ((1:ℤ) ≤ 3) from by norm_num, if_true, not_lt, hs]
    rcases hc with h | h <;> rw [h] <;> norm_num
  · simp only [InGlass, tube, DescView.optic, show ((1:ℤ) ≤ 3) from by norm_num, if_true, hs]
    rcases hc with h | h <;> rw [h] <;> norm_num

end Polycap.Py
