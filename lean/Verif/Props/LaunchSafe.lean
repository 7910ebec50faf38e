import Verif.Props.LeakShape
import Verif.Props.LaunchFindings
import Verif.Props.SourcePhoton

/-!
# C53: without leak calculation a launch always comes back, and never with undefined behaviour

Exact reals.  `launch … = .ok …` says three things at once: no undefined behaviour, no endless loop, a result.
-/
namespace Polycap
open CNum

/-- A reflection without leak calculation always comes back. -/
theorem reflect_noleak (D : Descr ℝ) (fuel k : Nat) (n : V3 ℝ) (P : Photon ℝ) (hc : P.coef = true) :
    ∃ c P', reflect D false fuel (k + 1) n P = .ok (c, P') ∧ P'.coef = true ∧ P'.exitC = P.exitC := by
  suffices h : ∃ c P', reflect D false fuel (k + 1) n P = .ok (c, P') by
    obtain ⟨c, P', h⟩ := h
    have hk := reflect_shape (N := P.chans.length) D false fuel (k + 1) n P c P' h
    refine ⟨c, P', h, ?_, (reflect_frame _ _ _ _ _ _ _ _ h).1.exitC⟩
    -- the coefficients do not depend on the shape
    unfold reflect reflectBody at h
    simp only at h
    split at h
    · injection h with h; injection h with h1 h2; subst h2; exact hc
    rw [Out.bind_eq_ok] at h
    obtain ⟨w, hw, h⟩ := h
    unfold reflectRest at h
    simp only at h
    split at h
    · injection h with h; injection h with h1 h2; subst h2; exact hc
    split at h
    · simp at h
    split at h
    · injection h with h; injection h with h1 h2; subst h2; exact hc
    split at h
    · exact (reflectLeak_frame _ _ _ _ _ _ _ _ h).2.2.2.2.1.trans hc
    · injection h with h; injection h with h1 h2; subst h2; exact hc
  unfold reflect reflectBody
  simp only
  split
  · exact ⟨_, _, rfl⟩
  · simp only [wallOf, Bool.false_eq_true, if_false, Out.bind_ok]
    unfold reflectRest
    simp only
    have hf := (reflEnergies_shape D (vnorm n) (renorm false { P with exitD := vnorm P.exitD }).exitD
      (scalar (vnorm P.exitD) (vnorm n)) false (lit 0 : ℝ) P.chans P.exitE P.exitE).2.2 rfl
    rw [if_neg (by simp)]
    rw [if_neg (by simp [renorm, hc])]
    split
    · exact ⟨_, _, rfl⟩
    · rw [if_neg]
      · exact ⟨_, _, rfl⟩
      · rw [Bool.not_eq_true]
        exact hf

/-- A step of the tracing without leak calculation always comes back. -/
theorem trace_noleak (D : Descr ℝ) (g : Grid D.prof) (fuel k : Nat) (capx capy : Nat → ℝ) (ix : Nat) (P : Photon ℝ)
    (h0 : 0 ≤ P.exitC.z) (hc : P.coef = true) :
    ∃ c ix' P', trace D false fuel (k + 1) capx capy ix P = .ok (c, ix', P') ∧ 0 ≤ P'.exitC.z ∧ P'.coef = true := by
  unfold trace capilTrace
  simp only
  split
  · exact ⟨_, _, _, rfl, h0, hc⟩
  · exact ⟨_, _, _, rfl, h0, hc⟩
  · next i v n ca hs =>
    obtain ⟨h1, h2, h3, h4, cur, nrm, h5, h6⟩ := traceSearch_hit D capx capy _ _ _ _ _ _ _ _ _ (le_refl _) hs
    have hv : 0 ≤ v.z := by
      have := (segment_success h6).2.2.2.2.1
      have h5 : P.exitC.z ≤ cur.z := h5
      have : (0:ℝ) < 1 / 10 ^ 5 := by norm_num
      linarith
    unfold traceHit
    simp only
    split
    · exact ⟨_, _, _, rfl, hv, hc⟩
    have hix : segIdFrom D.prof.z (i + 1) v.z D.prof.nmax < D.prof.nmax := by
      rcases segId_spec D.prof.z (i + 1) v.z D.prof.nmax with ⟨a, -, -⟩ | ⟨-, b⟩
      · exact a
      · have := b 0 (by have := g.two; omega)
        simp only [real_le, decide_eq_false_iff_not, not_le, g.start] at this
        linarith
    rw [if_neg (by omega)]
    split
    · exact ⟨_, _, _, rfl, hv, hc⟩
    split
    · exact ⟨_, _, _, rfl, hv, hc⟩
    obtain ⟨rc, R, hR, r1, r2⟩ := reflect_noleak D fuel k n
      { P with exitD := vnorm P.exitD, startD := vnorm P.startD, d_travel := P.d_travel +. dist3 v P.exitC, exitC := v } hc
    have hz : 0 ≤ R.exitC.z := by rw [r2]; exact hv
    rw [hR, Out.bind_ok]
    unfold afterReflect
    simp only
    split
    · exact ⟨_, _, _, rfl, hz, r1⟩
    split
    · exact ⟨_, _, _, rfl, hz, r1⟩
    · exact ⟨_, _, _, rfl, hz, r1⟩

theorem traceLoop_noleak (D : Descr ℝ) (g : Grid D.prof) (fuel kk : Nat) (capx capy : Nat → ℝ) : ∀ (k : Nat) (iesc : Int) (ix : Nat) (P : Photon ℝ),
    0 ≤ P.exitC.z → P.coef = true → ∃ x, traceLoop (trace D false fuel (kk + 1) capx capy) k iesc ix P = .ok x := by
  intro k
  induction k with
  | zero => intro iesc ix P _ _; exact ⟨_, rfl⟩
  | succ k ih =>
    intro iesc ix P h0 hc
    obtain ⟨c, ix', P', h, h1, h2⟩ := trace_noleak D g fuel kk capx capy ix P h0 hc
    unfold traceLoop
    rw [h, Out.bind_ok]
    split
    · exact ⟨_, rfl⟩
    · exact ih _ _ _ h1 h2

/-- **C53**: without leak calculation, `polycap_photon_launch` on a photon of `polycap_photon_new` and a composition
`polycap_photon_scatf` accepts always comes back with a result – whatever direction, energies and profile. -/
theorem launch_noleak_returns (lib : Xray ℝ) (D : Descr ℝ) (g : Grid D.prof) (fuel k : Nat) (P : Photon ℝ) (h0 : 0 ≤ P.startC.z)
    (es : List ℝ) (hs : scatfRejects D es = false) :
    ∃ c o P', launch lib (some D) false fuel (k + 1) (some P) (some es) true = .ok (c, o, some P') := by
  obtain ⟨-, -, hes, hb, -⟩ := (scatf_accepts_iff D es).mp hs
  obtain ⟨D', P'', es', e1, e2, e3, -, -, -, h'⟩ := launch_valid lib (some D) false fuel (k + 1) (some P) (some es) true (not_argsBad hes hb)
  injection e1 with e1; injection e2 with e2; injection e3 with e3; subst e1 e2 e3
  rw [h']
  have hcoef : (launchInit lib D es P).coef = true := by simp [launchInit, hs]
  have hz : 0 ≤ (launchInit lib D es P).exitC.z := h0
  have : ∃ x, launchBody lib D false fuel (k + 1) P es = .ok x := by
    unfold launchBody
    simp only
    split
    · exact ⟨_, rfl⟩
    · next qr hq =>
      split
      · simp only [Bool.false_and, Bool.false_eq_true, if_false]
        exact ⟨_, rfl⟩
      · unfold launchInside
        simp only
        obtain ⟨x, hx⟩ := traceLoop_noleak D g fuel k (axX D qr) (axY D qr) (D.prof.nmax + 1) 0
          (segIdFrom D.prof.z 0 (launchInit lib D es P).startC.z (D.prof.nmax + 1)) _ hz hcoef
        rw [hx, Out.bind_ok]
        exact ⟨_, rfl⟩
  obtain ⟨x, hx⟩ := this
  rw [hx]
  exact ⟨_, _, _, rfl⟩

end Polycap
