import Verif.Props.TotalRefl
import Verif.Props.SimProps

/-!
# C104: the angular momentum of a photon about the axis of its capillary

A capillary whose axis is a line along z is a surface of revolution: its normal lies in the plane through the axis.  So neither a flight nor a reflection changes the
angular momentum of the photon about the axis: a photon in a plane through the axis stays in it, a skew one stays as skew, and cannot get through an opening that is
narrower than its angular momentum.
-/
namespace Polycap
open CNum

namespace Skew
open EInd

/-- angular momentum about the line x = a, y = b, of a photon at `c` that flies in direction `d` -/
def spin (a b : ℝ) (c d : V3 ℝ) : ℝ := (c.x - a) * d.y - (c.y - b) * d.x

/-- The normal that the segment search returns for a piece of wall whose axis is along z lies in the plane through the axis. -/
theorem normal_radial {c0 c1 : V3 ℝ} {r0 r1 : ℝ} {p0 p1 d cur nrm v n : V3 ℝ} (hx : c1.x = c0.x) (hy : c1.y = c0.y)
    (h : segment c0 c1 r0 r1 p0 p1 d cur nrm = (1, v, n)) : ∃ s : ℝ, n.x = s * (v.x - c0.x) ∧ n.y = s * (v.y - c0.y) := by
  obtain ⟨-, -, -, -, -, -, -, -, hn⟩ := segment_success h
  rw [hn]
  unfold segNormal
  simp only [real_add, real_mul, real_div, real_sub, vsub, hx, hy, sub_self, mul_zero, zero_div, add_zero]
  rw [vnorm_real]
  generalize Real.sqrt (dot _ _) = m
  generalize (cos _ : ℝ) = C
  generalize (sqrt _ : ℝ) = i
  exact ⟨C / i / m, by ring, by ring⟩

/-- a quantity that neither flights nor reflections change, at walls whose normals (at `v`) are described by `N v` -/
structure Kept (N I : V3 ℝ → V3 ℝ → Prop) : Prop where
  fly : ∀ c d z, I c d → I (lineAt c d z) d
  mirror : ∀ v d n : V3 ℝ, ∀ k : ℝ, N v n → 0 ≤ k → I v d → I v ⟨d.x - k * n.x, d.y - k * n.y, d.z - k * n.z⟩

/-- what the segment searches along these axes return are normals of this kind -/
def Normals (D : Descr ℝ) (capx capy : Nat → ℝ) (N : V3 ℝ → V3 ℝ → Prop) : Prop :=
  ∀ i < D.prof.nmax, ∀ p0 p1 d cur nrm v n : V3 ℝ, 0 < d.z →
    segment (axisPt D capx capy i) (axisPt D capx capy (i + 1)) (D.prof.cap i) (D.prof.cap (i + 1)) p0 p1 d cur nrm = (1, v, n) → N v n

/-- the normal lies in the plane through the line x = a, y = b -/
def Radial (a b : ℝ) (v n : V3 ℝ) : Prop := ∃ s : ℝ, n.x = s * (v.x - a) ∧ n.y = s * (v.y - b)

theorem normals_radial (D : Descr ℝ) {capx capy : Nat → ℝ} {a b : ℝ} (hx : ∀ i ≤ D.prof.nmax, capx i = a) (hy : ∀ i ≤ D.prof.nmax, capy i = b) :
    Normals D capx capy (Radial a b) := by
  intro i hi p0 p1 d cur nrm v n _ hs
  have e0 : (axisPt D capx capy i).x = a := hx i (by omega)
  have e1 : (axisPt D capx capy (i + 1)).x = a := hx (i + 1) (by omega)
  have f0 : (axisPt D capx capy i).y = b := hy i (by omega)
  have f1 : (axisPt D capx capy (i + 1)).y = b := hy (i + 1) (by omega)
  obtain ⟨s, n1, n2⟩ := normal_radial (by rw [e0, e1]) (by rw [f0, f1]) hs
  rw [e0] at n1
  rw [f0] at n2
  exact ⟨s, n1, n2⟩

theorem traceLoop_kept (D : Descr ℝ) (leak : Bool) (fuel kk : Nat) (capx capy : Nat → ℝ)
    {N I : V3 ℝ → V3 ℝ → Prop} (hN : Normals D capx capy N) (hI : Kept N I) :
    ∀ (k : Nat) (iesc : Int) (ix : Nat) (P : Photon ℝ) (c : Int) (ix' : Nat) (P' : Photon ℝ),
      dot P.exitD P.exitD = 1 → I P.exitC P.exitD → traceLoop (trace D leak fuel kk capx capy) k iesc ix P = .ok (c, ix', P') → I P'.exitC P'.exitD := by
  intro k
  induction k with
  | zero =>
    intro iesc ix P c ix' P' hu h0 h
    simp only [traceLoop] at h
    injection h with h; injection h with h1 h; injection h with h2 h3; subst h3
    exact h0
  | succ k ih =>
    intro iesc ix P c ix' P' hu h0 h
    unfold traceLoop at h
    rw [Out.bind_eq_ok] at h
    obtain ⟨⟨c1, ix1, P1⟩, h1, h⟩ := h
    simp only at h
    have hv : vnorm P.exitD = P.exitD := vnorm_unit _ hu
    have hm := trace_moved D leak fuel kk capx capy ix P (by rw [hu]; norm_num) c1 ix1 P1 h1
    have step : I P1.exitC P1.exitD ∧ (c1 = 1 → dot P1.exitD P1.exitD = 1) := by
      cases hm with
      | stay hc hC hd ht hr =>
        rw [hC, hd, hv]
        exact ⟨h0, fun _ => hu⟩
      | hit i n hi hdz hn hnd hseg hline hz hadv ht hD hr =>
        rw [hv] at hdz hnd hline hD hseg
        obtain ⟨cur, nrm, -, hs⟩ := hseg
        have hf : I P1.exitC P.exitD := by rw [hline]; exact hI.fly _ _ _ h0
        have hn1 := hN i hi.2 _ _ _ _ _ _ _ hdz hs
        obtain ⟨m0, m1, m2⟩ := reflectDir_mirror P.exitD n hu hn
        rw [hD]
        by_cases hc : c1 = 1
        · rw [if_pos hc]
          refine ⟨?_, fun _ => m1⟩
          rw [m0]
          exact hI.mirror _ _ _ _ hn1 (by linarith) hf
        · rw [if_neg hc]
          exact ⟨hf, fun e => absurd e hc⟩
    by_cases hc : c1 = 1
    · rw [if_neg (by simp [hc])] at h
      exact ih _ _ _ _ _ _ (step.2 hc) step.1 h
    · rw [if_pos hc] at h
      injection h with h; injection h with h1 h; injection h with h2 h3; subst h3
      exact step.1

theorem launch_kept (lib : Xray ℝ) (D : Descr ℝ) (leak : Bool) (fuel k : Nat) (P : Photon ℝ) (es : List ℝ)
    (hes : es ≠ []) (hb : ∀ e ∈ es, 1 ≤ e ∧ e ≤ 100) (hd : dot P.startD P.startD ≠ 0) (h1 : 1 ≤ D.n_cap)
    (hax : D.n_cap ≤ 3 ∨ ∀ i < D.prof.nmax, D.prof.ext (i + 1) = D.prof.ext i) (c : Int) (ws : List ℝ) (P' : Photon ℝ)
    (h : launch lib (some D) leak fuel k (some P) (some es) true = .ok (c, .filled ws, some P')) :
    ∃ qr, launchCap D P.startC = some qr ∧ (D.n_cap ≤ 3 → axX D qr 0 = 0 ∧ axY D qr 0 = 0) ∧
      (∀ i ≤ D.prof.nmax, axX D qr i = axX D qr 0 ∧ axY D qr i = axY D qr 0) ∧
      ∀ N I, Normals D (axX D qr) (axY D qr) N → Kept N I → I P.startC (vnorm P.startD) → I P'.exitC P'.exitD := by
  obtain ⟨Q, hQ, he⟩ := launch_ended hes hb h
  injection hQ with hQ; subst hQ
  cases he with
  | within qr hc hw hl hz hz' w hx c o P' hy =>
    have hcc := launchWall_codes _ _ _ _ _ _ _ _ _ hy
    simp at hcc
  | inside qr hc hw c o P' hy =>
    obtain ⟨iesc, ix, Q', ht, -, -, -, -, -, rfl⟩ := launchInside_inv _ _ _ _ _ _ _ _ _ hy
    have hu := vnorm_dot _ hd
    have hdir : (launchInit lib D es P).exitD = vnorm P.startD := by
      show vnorm (vnorm P.startD) = _
      exact vnorm_unit _ hu
    have h0 : D.n_cap ≤ 3 → ∀ i, axX D qr i = 0 ∧ axY D qr i = 0 := by
      intro h3 i
      have hns := (nShells_zero_iff D.n_cap h1).2 h3
      have hq : qr = (0, 0) := by
        unfold launchCap at hc
        simp only [hns, if_true] at hc
        split at hc
        · simp at hc
        · injection hc with hc; exact hc.symm
      subst hq
      exact ⟨by rw [axX_eq D h1]; simp [centreX], by rw [axY_eq D h1]; simp [centreY]⟩
    have hconst : ∀ i ≤ D.prof.nmax, axX D qr i = axX D qr 0 ∧ axY D qr i = axY D qr 0 := by
      rcases hax with h3 | hext
      · intro i _
        rw [(h0 h3 i).1, (h0 h3 i).2, (h0 h3 0).1, (h0 h3 0).2]; exact ⟨rfl, rfl⟩
      · intro i
        induction i with
        | zero => intro _; exact ⟨rfl, rfl⟩
        | succ i ih =>
          intro hi
          obtain ⟨u, w⟩ := ih (by omega)
          rw [← u, ← w]
          simp only [axX, axY, hext i (by omega)]
          exact ⟨trivial, trivial⟩
    refine ⟨qr, hc, fun h3 => h0 h3 0, hconst, fun N I hN hI hs => ?_⟩
    have := traceLoop_kept D leak fuel k _ _ hN hI _ _ _ _ _ _ _ (by rw [hdir]; exact hu) (by rw [hdir]; exact hs) ht
    exact this

theorem spin_kept (a b L : ℝ) : Kept (Radial a b) fun c d => spin a b c d = L := by
  refine ⟨?_, ?_⟩
  · intro c d z h
    rw [← h]
    simp only [spin, lineAt]
    ring
  · rintro v d n k ⟨s, h1, h2⟩ - h
    rw [← h]
    simp only [spin, h1, h2]
    ring

/-- a plane through the axis with (horizontal) normal `(m, l)` -/
theorem plane_kept (a b m l : ℝ) : Kept (Radial a b) fun c d => m * (c.x - a) + l * (c.y - b) = 0 ∧ m * d.x + l * d.y = 0 := by
  refine ⟨?_, ?_⟩
  · rintro c d z ⟨h, h'⟩
    refine ⟨?_, h'⟩
    simp only [lineAt]
    linear_combination h + (z - c.z) / d.z * h'
  · rintro v d n k ⟨s, h1, h2⟩ - ⟨h, h'⟩
    refine ⟨h, ?_⟩
    simp only [h1, h2]
    linear_combination h' - k * s * h

/-- what an angular momentum means: the distance from the axis and the lateral speed cannot both be small -/
theorem spin_sq (a b : ℝ) (c d : V3 ℝ) : spin a b c d ^ 2 ≤ ((c.x - a) ^ 2 + (c.y - b) ^ 2) * (d.x ^ 2 + d.y ^ 2) := by
  unfold spin
  nlinarith [sq_nonneg ((c.x - a) * d.x + (c.y - b) * d.y)]

end Skew

open Skew in
/-- **C104.**  A photon launched in the bore of a capillary whose axis is along z - the capillary of a single-capillary optic of any shape, or any capillary of an optic
with constant outer radius: however the launch ends (transmitted, absorbed or given up, with or without leak calculation, whatever its energies), the photon has the
angular momentum about the axis of the capillary that it started with. -/
theorem angular_momentum (lib : Xray ℝ) (D : Descr ℝ) (leak : Bool) (fuel k : Nat) (P : Photon ℝ) (es : List ℝ)
    (hes : es ≠ []) (hb : ∀ e ∈ es, 1 ≤ e ∧ e ≤ 100) (hd : dot P.startD P.startD ≠ 0) (h1 : 1 ≤ D.n_cap)
    (hax : D.n_cap ≤ 3 ∨ ∀ i < D.prof.nmax, D.prof.ext (i + 1) = D.prof.ext i) (c : Int) (ws : List ℝ) (P' : Photon ℝ)
    (h : launch lib (some D) leak fuel k (some P) (some es) true = .ok (c, .filled ws, some P')) :
    ∃ qr, launchCap D P.startC = some qr ∧ (D.n_cap ≤ 3 → axX D qr 0 = 0 ∧ axY D qr 0 = 0) ∧
      (P'.exitC.x - axX D qr 0) * P'.exitD.y - (P'.exitC.y - axY D qr 0) * P'.exitD.x =
        (P.startC.x - axX D qr 0) * (vnorm P.startD).y - (P.startC.y - axY D qr 0) * (vnorm P.startD).x := by
  obtain ⟨qr, hc, h3, hq, hk⟩ := launch_kept lib D leak fuel k P es hes hb hd h1 hax c ws P' h
  exact ⟨qr, hc, h3, hk _ _ (normals_radial D (fun i hi => (hq i hi).1) (fun i hi => (hq i hi).2)) (spin_kept _ _ _) rfl⟩

open Skew in
/-- **C104**, planes: a photon that starts in a plane through the axis of its capillary, and flies in it, ends in this plane and flies in it. -/
theorem meridional_stays (lib : Xray ℝ) (D : Descr ℝ) (leak : Bool) (fuel k : Nat) (P : Photon ℝ) (es : List ℝ)
    (hes : es ≠ []) (hb : ∀ e ∈ es, 1 ≤ e ∧ e ≤ 100) (hd : dot P.startD P.startD ≠ 0) (h1 : 1 ≤ D.n_cap)
    (hax : D.n_cap ≤ 3 ∨ ∀ i < D.prof.nmax, D.prof.ext (i + 1) = D.prof.ext i) (c : Int) (ws : List ℝ) (P' : Photon ℝ)
    (h : launch lib (some D) leak fuel k (some P) (some es) true = .ok (c, .filled ws, some P')) :
    ∃ qr, launchCap D P.startC = some qr ∧ (D.n_cap ≤ 3 → axX D qr 0 = 0 ∧ axY D qr 0 = 0) ∧
      ∀ m l : ℝ, m * (P.startC.x - axX D qr 0) + l * (P.startC.y - axY D qr 0) = 0 → m * (vnorm P.startD).x + l * (vnorm P.startD).y = 0 →
        m * (P'.exitC.x - axX D qr 0) + l * (P'.exitC.y - axY D qr 0) = 0 ∧ m * P'.exitD.x + l * P'.exitD.y = 0 := by
  obtain ⟨qr, hc, h3, hq, hk⟩ := launch_kept lib D leak fuel k P es hes hb hd h1 hax c ws P' h
  exact ⟨qr, hc, h3, fun m l a b => hk _ _ (normals_radial D (fun i hi => (hq i hi).1) (fun i hi => (hq i hi).2)) (plane_kept _ _ m l) ⟨a, b⟩⟩

open Skew in
/-- **C104**, openings: a photon that the simulation counts as having left a single-capillary optic through the exit window of radius `ext nmax` flies at a sine to the
axis of at least its initial angular momentum over this radius; photons with more angular momentum than the radius never get out. -/
theorem skew_through_window (lib : Xray ℝ) (D : Descr ℝ) (leak : Bool) (fuel k : Nat) (P : Photon ℝ) (es : List ℝ)
    (hes : es ≠ []) (hb : ∀ e ∈ es, 1 ≤ e ∧ e ≤ 100) (hd : dot P.startD P.startD ≠ 0) (h1 : 1 ≤ D.n_cap) (h3 : D.n_cap ≤ 3)
    (A : Attempt ℝ) (ws : List ℝ) (hA : launch lib (some D) leak fuel k (some P) (some es) true = .ok (A.code, .filled ws, some A.ph)) (hin : simCode D A = 1)
    (hR : 0 ≤ D.prof.ext D.prof.nmax) :
    |P.startC.x * (vnorm P.startD).y - P.startC.y * (vnorm P.startD).x| ≤ D.prof.ext D.prof.nmax * Real.sqrt (A.ph.exitD.x ^ 2 + A.ph.exitD.y ^ 2) ∧
    |P.startC.x * (vnorm P.startD).y - P.startC.y * (vnorm P.startD).x| ≤ D.prof.ext D.prof.nmax := by
  obtain ⟨qr, hc, h0, e⟩ := angular_momentum lib D leak fuel k P es hes hb hd h1 (Or.inl h3) _ _ _ hA
  obtain ⟨-, -, -, -, -, -, -, -, hu⟩ := launch_path lib D leak fuel k P es hes hb hd _ _ _ hA
  rw [(h0 h3).1, (h0 h3).2] at e
  simp only [sub_zero] at e
  have hns := (nShells_zero_iff D.n_cap h1).2 h3
  unfold simCode at hin
  simp only [hns, if_true] at hin
  split at hin
  · rename_i hcode
    split at hin
    · simp at hin
    rename_i hlt
    simp only [gt, real_lt, real_sqrt, real_add, real_mul, decide_eq_true_eq, not_lt] at hlt
    have hv : (exitAt D.prof A.ph).x * A.ph.exitD.y - (exitAt D.prof A.ph).y * A.ph.exitD.x = P.startC.x * (vnorm P.startD).y - P.startC.y * (vnorm P.startD).x := by
      rw [← e]
      simp only [exitAt, real_add, real_mul, real_div, real_sub]
      ring
    have key : |P.startC.x * (vnorm P.startD).y - P.startC.y * (vnorm P.startD).x| ≤ D.prof.ext D.prof.nmax * Real.sqrt (A.ph.exitD.x ^ 2 + A.ph.exitD.y ^ 2) := by
      rw [← hv]
      have hs := spin_sq 0 0 (exitAt D.prof A.ph) A.ph.exitD
      simp only [spin, sub_zero] at hs
      refine (Real.abs_le_sqrt hs).trans ?_
      rw [Real.sqrt_mul (by positivity)]
      refine mul_le_mul_of_nonneg_right ?_ (Real.sqrt_nonneg _)
      refine le_trans (le_of_eq ?_) hlt
      congr 1; ring
    refine ⟨key, key.trans ?_⟩
    have : Real.sqrt (A.ph.exitD.x ^ 2 + A.ph.exitD.y ^ 2) ≤ 1 := by
      rw [Real.sqrt_le_one]
      unfold dot at hu
      nlinarith [sq_nonneg A.ph.exitD.z]
    nlinarith
  · rename_i hcode
    exact absurd hin hcode

/-! ## A skew photon -/

namespace Skew
open EInd Bore Polycap.Tube RoughTube Total

/-- bore of 5/4 tan and start at 3/4 tan from the axis: the chord in the direction y is 2 tan, so the photon is reflected at z = 1 and z = 3 -/
noncomputable def sR : ℝ := 5 / 4 * (zs / zc)
noncomputable def sX : ℝ := 3 / 4 * (zs / zc)

/-- a photon beside the axis of a straight tube that flies at right angles to its distance from the axis -/
noncomputable def sPh (E : V3 ℝ) : Photon ℝ := { exP ⟨sX, 0, 0⟩ ⟨0, zs, zc⟩ 0 with exitE := E }

theorem s_launch (E : V3 ℝ) (hE : dot E E ≠ 0) :
    ∃ P', launch zLib (some (tD sR 4 1)) false 0 1 (some (sPh E)) (some [10]) true = .ok (1, .filled [1], some P') ∧ P'.i_refl = 2 := by
  have hc : 0 < zc := by norm_num [zc]
  have hs : 0 < zs := by norm_num [zs]
  have hr : 0 < sR := by unfold sR; positivity
  have hu : dot (⟨0, zs, zc⟩ : V3 ℝ) ⟨0, zs, zc⟩ = 1 := by have := zUnit; unfold dot; nlinarith
  have hv : vnorm (⟨0, zs, zc⟩ : V3 ℝ) = ⟨0, zs, zc⟩ := vnorm_unit _ hu
  have hl : lateral ⟨0, zs, zc⟩ = zs ^ 2 := by simp [lateral]
  have hch : chord sR 0 0 ⟨sX, 0, 0⟩ ⟨0, zs, zc⟩ = zs * (zs / zc) := by
    unfold chord
    rw [hl]
    simp only [drift, off]
    rw [show ((sX - 0) * 0 + (0 - 0) * zs) ^ 2 + zs ^ 2 * (sR ^ 2 - ((sX - 0) ^ 2 + (0 - 0) ^ 2)) = (zs * (zs / zc)) ^ 2 by unfold sR sX; ring, Real.sqrt_sq (by positivity)]
  have hh : hitZ sR 0 0 ⟨sX, 0, 0⟩ ⟨0, zs, zc⟩ = fun k : Nat => 2 * (k : ℝ) + 1 := by
    funext k
    unfold hitZ
    rw [hch, hl]
    simp only [drift]
    field_simp
    ring
  have hq : chord sR 0 0 ⟨sX, 0, 0⟩ ⟨0, zs, zc⟩ / sR = 4 / 5 * zs := by rw [hch]; unfold sR; field_simp
  have hgl : ∀ e, scatfOf zLib (tD sR 4 1) e = 1/2 ∧ amuOf zLib (tD sR 4 1) e = 0 := by
    intro e
    simp [amuOf, scatfOf, tD, zLib]
    norm_num
  have gg := r_glass (cs := [rCh 10 1]) (by intro c hc; simp at hc; subst hc; simp [rCh]; norm_num)
  have h := straight_total zLib (tD sR 4 1) 0 0 (sPh E) [10] (by simp) (by simp; norm_num)
    ⟨by norm_num [tD], fun e _ => by rw [(hgl e).1]; norm_num, fun e _ => by rw [(hgl e).2], fun e he => by
      rw [(hgl e).1]; simp at he; subst he; exact (gg.chan (rCh 10 1) (by simp)).2.2.2.2⟩
    (t_scatf _ _ _) (by simp [tD]) (by simp [tD]) (tGrid (by norm_num)) (r := sR) (X := 1) (Δ := 4) hr (fun _ _ => rfl) (fun _ _ => rfl)
    (by intro i hi; simp [tD] at hi ⊢; linarith) (by norm_num) (by
      show sR + 4 * Real.sqrt (lateral (vnorm ⟨0, zs, zc⟩)) / (vnorm ⟨0, zs, zc⟩).z ≤ _
      rw [hv, hl, Real.sqrt_sq hs.le]
      have h3 : (1:ℝ) ≤ Real.sqrt 3 := by rw [show (1:ℝ) = Real.sqrt 1 by simp]; exact Real.sqrt_le_sqrt (by norm_num)
      have : sR + 4 * zs / zc ≤ 1 / 2 := by norm_num [sR, zs, zc]
      linarith) (by norm_num [sR, zs, zc]) (by
        show sX ^ 2 + 0 ^ 2 ≤ sR ^ 2
        norm_num [sX, sR, zs, zc]) (by simp [sPh, exP]) (by simp [sPh, exP, tD]) (by simpa [sPh, exP] using hc) (by
      show 0 < lateral ⟨0, zs, zc⟩
      rw [hl]; positivity) hE (N := 2) (by
      show Bore.Hits _ _ 0 0 ⟨sX, 0, 0⟩ (vnorm ⟨0, zs, zc⟩) 2
      rw [hv]
      refine ⟨?_, ?_, ?_, ?_, ?_, ?_⟩
      · intro _; rw [hh]; norm_num
      · intro _; rw [hch, hl]; norm_num [zs, zc]
      · intro _; rw [hq]; norm_num [zs]
      · intro k hk i hi
        rw [hh]
        simp only [tD] at hi ⊢
        interval_cases k <;> interval_cases i <;> norm_num
      · intro k hk
        rw [hh]
        simp only [tD]
        interval_cases k <;> norm_num
      · rw [hh]; simp only [tD]; norm_num) (by simp [tD]) rfl (fun e _ => (hgl e).2) (by
      intro e he
      simp only [List.mem_singleton] at he
      subst he
      show chord sR 0 0 ⟨sX, 0, 0⟩ (vnorm ⟨0, zs, zc⟩) / sR ≤ _
      rw [hv, hq, (hgl 10).1]
      refine le_trans ?_ ex_critical
      linarith)
  exact h

/-- the hypotheses of `angular_momentum` met by a skew photon that is reflected twice -/
example (E : V3 ℝ) (hE : dot E E ≠ 0) :
    ∃ P', launch zLib (some (tD sR 4 1)) false 0 1 (some (sPh E)) (some [10]) true = .ok (1, .filled [1], some P') ∧ P'.i_refl = 2 ∧
      P'.exitC.x * P'.exitD.y - P'.exitC.y * P'.exitD.x = sX * zs ∧ 0 < sX * zs := by
  have hs : 0 < zs := by norm_num [zs]
  have hc : 0 < zc := by norm_num [zc]
  have hu : dot (⟨0, zs, zc⟩ : V3 ℝ) ⟨0, zs, zc⟩ = 1 := by have := zUnit; unfold dot; nlinarith
  obtain ⟨P', h, hi⟩ := s_launch E hE
  refine ⟨P', h, hi, ?_, by unfold sX; positivity⟩
  obtain ⟨qr, -, h0, e⟩ := angular_momentum zLib (tD sR 4 1) false 0 1 (sPh E) [10] (by simp) (by simp; norm_num) (by
    show dot (⟨0, zs, zc⟩ : V3 ℝ) ⟨0, zs, zc⟩ ≠ 0
    rw [hu]; norm_num) (by simp [tD]) (Or.inl (by simp [tD])) _ _ _ h
  obtain ⟨a, b⟩ := h0 (by simp [tD])
  rw [a, b, show (sPh E).startD = ⟨0, zs, zc⟩ from rfl, vnorm_unit _ hu] at e
  simpa [sPh, exP] using e

end Skew
end Polycap
