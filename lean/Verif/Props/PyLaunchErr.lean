import Verif.Props.PyLaunch
import Verif.Props.LaunchReports
import Verif.Props.ClearThrough

/-!
# C69: `Photon.launch` with the errors the tracing code really leaves behind

`Props.PyLaunch` leaves the error of the tracing code open (`late`).  Here it is the one of `polycap_photon_launch`.
-/
namespace Polycap.Py
open CNum CM Mem Sess

/-- the error found by polycap.pyx:936 (`polycap_set_exception(error)`) after a launch with an empty error variable -/
noncomputable def lateOf (lib : Xray ℝ) (D : Descr ℝ) (leak : Bool) (fuel k : Nat) (P : Photon ℝ) (es : List ℝ) : Option Code :=
  match launchE lib (some D) leak fuel k (some P) (some es) true (some none) with
  | .ok (_, some (some c)) => some c
  | _ => none

/-- **C69 (partial), no assumption on errors.**  A photon of a valid optic with positive radii, launched without leak calculation from within the
optic with valid energies: Python gets one weight per energy, each in [0, 1], or `None` and then the photon started in glass; or an exception
is raised, the weights are lost, and then the photon did not start in glass and either its launch failed (-1) or it was turned back upstream.
Missing: in exact arithmetic a photon turned upstream may count as transmitted and still raise. -/
theorem python_launch_reported_partial (x : Xrl ℝ) (fit : Fit ℝ) (lib : Xray ℝ) (sim : Nat → SimArgs ℝ → Option (TE ℝ)) (t : PSt (ASt ℝ)) (i v : Nat)
    (o : Owner) (P : Photon ℝ) (D : Descr ℝ) (hi : t.objs[i]? = some (.live .photon v)) (hv : t.c.vars[v]? = some (.photon o P))
    (hD : t.c.optic o = some D) (e : NdArr ℝ) (g : GoodArr e) (fuel k : Nat)
    (hcs : ∀ z e, 0 ≤ lib.csTotal z e) (hs : scatfRejects D e.values = false) (gr : Grid D.prof) (hr : Radii D.prof) (hn : 1 ≤ D.n_cap)
    (h0 : 0 ≤ P.startC.z) (h1 : P.startC.z ≤ D.prof.z D.prof.nmax) (hdir : dot P.startD P.startD ≠ 0) (R rad : ℝ)
    (hR : ValueAt D.prof D.prof.ext P.startC.z R) (hrad : ValueAt D.prof D.prof.cap P.startC.z rad) (hpos : 0 < R)
    (hin : ¬ Outside D.n_cap R P.startC) :
    match pyStep x (astep fit lib sim) (.launch i e false fuel (k + 1) (lateOf lib D false fuel (k + 1) P e.values)) t with
    | .ok t' val => (InGlass D.n_cap R rad P.startC → val = .none ∧ t'.lost = t.lost + 1) ∧
        (¬ InGlass D.n_cap R rad P.startC → t'.lost = t.lost ∧ ∃ ws, val = .weights ws ∧ ws.length = e.size ∧ ∀ w ∈ ws, 0 ≤ w ∧ w ≤ 1)
    | .raised t' _ => ¬ InGlass D.n_cap R rad P.startC ∧ t'.lost = t.lost + 1 ∧
        ∃ rv w P', launch lib (some D) false fuel (k + 1) (some P) (some e.values) true = .ok (rv, w, some P') ∧
          (rv = -1 ∨ rv = 1 ∧ P'.exitD.z < 0)
    | .crash => False
    | .inner => True := by
  have base := python_launch_partial x fit lib sim t i v o P D hi hv hD e g fuel (k + 1) hcs hs gr hn h0 h1 R rad hR hrad hpos hin
  cases hlate : lateOf lib D false fuel (k + 1) P e.values with
  | none =>
    revert base
    cases pyStep x (astep fit lib sim) (.launch i e false fuel (k + 1) none) t with
    | ok t' val => exact id
    | raised t' exc => exact False.elim
    | crash => exact id
    | inner => exact id
  | some c =>
    obtain ⟨hes, hb, hbad⟩ := energies_fine hs
    clear base
    unfold lateOf at hlate
    have hval := launchE_value lib (some D) false fuel (k + 1) (some P) (some e.values) true (some none)
    cases hE : launchE lib (some D) false fuel (k + 1) (some P) (some e.values) true (some none) with
    | ok r =>
      obtain ⟨⟨rv, w, P'⟩, s⟩ := r
      rw [hE] at hlate hval
      have hs' : s = some (some c) := by
        revert hlate
        rcases s with _ | _ | c' <;> simp
      subst hs'
      have hl : launch lib (some D) false fuel (k + 1) (some P) (some e.values) true = .ok (rv, w, P') := hval.symm
      simp only [pyStep, expect, hi, if_true, (good_tail g).1, call, astep, hv, hbad, Bool.false_eq_true, if_false, hD, hl]
      cases P' with
      | none => trivial
      | some P' =>
        dsimp only
        obtain ⟨r1, r2, r3, r4⟩ := launch_reports_partial lib D hn gr hr fuel k P h0 h1 hdir e.values hs rv w P' _ hE
        have gl := launch_glass lib D false fuel (k + 1) P e.values hes hb gr hn h0 h1 R rad hR hrad hpos hin rv w (some P') hl
        have hG : ¬ InGlass D.n_cap R rad P.startC := fun hG => by
          have := r1 (.inr (gl.2.1 hG (.inl rfl)))
          simp at this
        obtain ⟨hrv, ws, rfl⟩ := gl.2.2.2 hG
        refine ⟨hG, rfl, rv, _, P', rfl, ?_⟩
        by_cases hm : rv = -1
        · exact .inl hm
        · have h01 : rv ≠ 0 := fun h => by have := r1 (.inl h); simp at this
          have hrv1 : rv = 1 := by
            rcases hrv with h | h | h <;> first | exact h | exact absurd h hm | exact absurd h h01
          refine .inr ⟨hrv1, ?_⟩
          rcases r2 hrv1 with h | h
          · simp at h
          · exact h
    | _ => rw [hE] at hlate; simp at hlate

/-- the further hypotheses are met by the tapering tube of `Props.PyLaunch` -/
theorem tube_radii : Grid tube.optic.prof ∧ Radii tube.optic.prof := by
  refine ⟨⟨?_, ?_, ?_⟩, ⟨?_, ?_⟩⟩
  · simp [tube, DescView.optic, listProfile]
  · simp [tube, DescView.optic, listProfile]
  · intro i hi
    have : i = 0 := by simp [tube, DescView.optic, listProfile] at hi; omega
    subst this
    simp [tube, DescView.optic, listProfile]
  · intro i hi
    have : i = 0 ∨ i = 1 := by simp [tube, DescView.optic, listProfile] at hi; omega
    rcases this with rfl | rfl <;> simp [tube, DescView.optic, listProfile]
  · intro i hi
    have : i = 0 ∨ i = 1 := by simp [tube, DescView.optic, listProfile] at hi; omega
    rcases this with rfl | rfl <;> simp [tube, DescView.optic, listProfile]

example : dot (⟨0, 0, 1⟩ : V3 ℝ) ⟨0, 0, 1⟩ ≠ 0 := by simp [dot]

/-- the same tube, of glass described by the weight fractions 2 and -1 (which `Description` accepts, C12) -/
noncomputable def oddTube : DescView ℝ := ⟨0, 1, 0, 2, [14, 8], [2, -1], 223/100, (1, [0, 1], [1, 1/2], [2, 2])⟩

/-- FINDING (C69, C79): a photon flying down the axis of such a tube is transmitted, and yet `Photon.launch` raises `ValueError` and loses its
weights. -/
theorem python_launch_odd_glass (x : Xrl ℝ) (fit : Fit ℝ) (lib : Xray ℝ) (sim : Nat → SimArgs ℝ → Option (TE ℝ)) (t : PSt (ASt ℝ)) (i v : Nat)
    (o : Owner) (hi : t.objs[i]? = some (.live .photon v)) (hv : t.c.vars[v]? = some (.photon o (exP ⟨0, 0, 0⟩ ⟨0, 0, 1⟩ 0)))
    (hD : t.c.optic o = some oddTube.optic) :
    (∃ t', pyStep x (astep fit lib sim) (.launch i (lst [10]) false 0 1 (lateOf lib oddTube.optic false 0 1 (exP ⟨0, 0, 0⟩ ⟨0, 0, 1⟩ 0) [10])) t =
      .raised t' .valueError ∧ t'.lost = t.lost + 1) ∧
    ∃ P', launch lib (some oddTube.optic) false 0 1 (some (exP ⟨0, 0, 0⟩ ⟨0, 0, 1⟩ 0)) (some [10]) true = .ok (1, .filled [1], some P') := by
  have gr : Grid oddTube.optic.prof := tube_radii.1
  have hr : Radii oddTube.optic.prof := tube_radii.2
  have hn1 : oddTube.optic.prof.nmax = 1 := rfl
  have hval : ∀ z r, ValueAt oddTube.optic.prof oddTube.optic.prof.cap z r → r ≠ 0 := by
    rintro z r ⟨i, hi, z0, z1, rfl⟩
    have : i = 0 := by omega
    subst this
    exact (linAt_pos (by simp [oddTube, DescView.optic, listProfile]) (by simp [oddTube, DescView.optic, listProfile]) (gr.inc 0 hi) z0 z1).ne'
  obtain ⟨P', h, -⟩ := mono_clear_transmitted_partial lib oddTube.optic (by simp [oddTube, DescView.optic]) (by simp [oddTube, DescView.optic]) gr
    hr false 0 1 (exP ⟨0, 0, 0⟩ ⟨0, 0, 1⟩ 0) [10] (by simp)
    (by intro e he; simp at he; subst he; norm_num) (le_refl _) (by simp [oddTube, DescView.optic, listProfile, exP]) (by simp [exP]) 2 1
    (by have := valueAt_grid gr oddTube.optic.prof.ext (i := 0) (by omega); rw [gr.start] at this; exact this)
    (by have := valueAt_grid gr oddTube.optic.prof.cap (i := 0) (by omega); rw [gr.start] at this; exact this)
    (by simp [exP]) (by norm_num)
    (by intro i hi
        have hi : i = 0 := by omega
        subst hi
        simp [exP, oddTube, DescView.optic, listProfile]; norm_num)
    (by intro z r _ hv h
        have := hval z r hv
        simp only [exP, lineAt, mul_zero, add_zero] at h
        apply this
        nlinarith)
    (by intro i hi _
        have hi : i = 0 := by omega
        subst hi
        simp only [exP, lineAt, mul_zero, add_zero]
        exact ((boundary_one_iff _ _ _).mp (boundary_axis (r := 2) (by norm_num))).2) (some none)
  have hrej : scatfRejects oddTube.optic [10] = true := by
    rw [← Bool.not_eq_false, scatf_accepts_iff]
    intro hh
    have := hh.2.2.2.2
    revert this
    simp [oddTube, DescView.optic]
    try norm_num
  have hl := launchE_value lib (some oddTube.optic) false 0 1 (some (exP ⟨0, 0, 0⟩ ⟨0, 0, 1⟩ 0)) (some [10]) true (some none)
  rw [h] at hl
  have hlate : lateOf lib oddTube.optic false 0 1 (exP ⟨0, 0, 0⟩ ⟨0, 0, 1⟩ 0) [10] = some .invalidArgument := by
    unfold lateOf
    rw [h, hrej]
    rfl
  refine ⟨?_, P', hl.symm⟩
  have hbad : (((lst [10]).values).isEmpty || ((lst [10]).values).any energyBad) = false := by rw [lst_values]; norm_num [energyBad, gt]
  rw [hlate]
  have hl' : launch lib (some oddTube.optic) false 0 1 (some (exP ⟨0, 0, 0⟩ ⟨0, 0, 1⟩ 0)) (some (lst [10]).values) true = .ok (1, .filled [1], some P') := by
    rw [lst_values]; exact hl.symm
  simp only [pyStep, expect, hi, if_true, (good_tail (lst_good [10])).1, call, astep, hv, hbad, Bool.false_eq_true, if_false, hD, hl']
  exact ⟨_, rfl, rfl⟩

end Polycap.Py
