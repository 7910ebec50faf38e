import Verif.Props.Skew
import Verif.Props.Route
import Verif.Props.LaunchReports

/-!
# C105: what a taper does to the light in it

A wall that closes in downstream sends a photon back at a larger angle to the axis, a wall that opens at a smaller one.  In a cone the way of a photon is what one gets
by unfolding the cone: seen from the apex, the photon moves as if on its first straight line.
-/
namespace Polycap
open CNum

namespace Taper
open Skew EInd

/-- The normal of a piece of wall whose axis is along z, up to a positive factor (or zero): away from the axis with the cosine of the taper, along it with its sine. -/
theorem normal_tilt {c0 c1 : V3 ℝ} {r0 r1 : ℝ} {p0 p1 d cur nrm v n : V3 ℝ} (hx : c1.x = c0.x) (hy : c1.y = c0.y) (hz : c0.z < c1.z) (hd : 0 < d.z)
    (h : segment c0 c1 r0 r1 p0 p1 d cur nrm = (1, v, n)) : ∃ m : ℝ, 0 ≤ m ∧ n.z = m * Real.sin (Real.arctan ((r0 - r1) / (c1.z - c0.z))) := by
  obtain ⟨-, -, -, -, -, -, -, -, hn⟩ := segment_success h
  obtain ⟨s, hs, e, -⟩ := vnorm_scale d hd
  have hpz : 0 < (vnorm d).z := by rw [e]; exact mul_pos hs hd
  have hZ : 0 < c1.z - c0.z := by linarith
  rw [hn]
  unfold segNormal
  simp only [real_add, real_mul, real_div, real_sub, vsub, hx, hy, sub_self, scalar_real, dot, mul_zero, add_zero, zero_add, real_sqrt, real_atan, real_sin, real_cos,
    Real.sqrt_mul_self hZ.le]
  have hf : v.z - (c0.z + ((v.z - p0.z) / (vnorm d).z + (p0.z - c0.z) * (c1.z - c0.z) / ((vnorm d).z * (c1.z - c0.z))) /
      ((c1.z - c0.z) * (c1.z - c0.z) / ((vnorm d).z * (c1.z - c0.z))) * (c1.z - c0.z)) = 0 := by
    field_simp
    ring
  rw [hf, vnorm_real]
  simp only [mul_zero, zero_div, zero_add]
  generalize hm : Real.sqrt (dot _ _) = m
  refine ⟨1 / m, by rw [← hm]; positivity, ?_⟩
  rw [mul_div_assoc, div_self hZ.ne', mul_one]
  ring

theorem sin_arctan_sign (x : ℝ) : (0 ≤ x → 0 ≤ Real.sin (Real.arctan x)) ∧ (x ≤ 0 → Real.sin (Real.arctan x) ≤ 0) := by
  have hs : 0 < Real.sqrt (1 + x ^ 2) := by positivity
  rw [Real.sin_arctan]
  exact ⟨fun h => div_nonneg h hs.le, fun h => div_nonpos_of_nonpos_of_nonneg h hs.le⟩

theorem steeper (L : ℝ) : Kept (fun _ n => 0 ≤ n.z) (fun _ d => d.z ≤ L) := by
  refine ⟨fun _ _ _ h => h, ?_⟩
  intro v d n k hn hk h
  have := mul_nonneg hk hn
  show d.z - k * n.z ≤ L
  linarith

theorem flatter (L : ℝ) : Kept (fun _ n => n.z ≤ 0) (fun _ d => L ≤ d.z) := by
  refine ⟨fun _ _ _ h => h, ?_⟩
  intro v d n k hn hk h
  have := mul_nonpos_of_nonneg_of_nonpos hk hn
  show L ≤ d.z - k * n.z
  linarith

end Taper

open Skew Taper in
/-- **C105**, steepness: in a capillary with its axis along z whose radius never grows downstream the photon ends at an angle to the axis that is at least that of its
start; if the radius never shrinks, at most; if it is constant, the same.  However many reflections there were and however the launch ended. -/
theorem taper_steepness (lib : Xray ℝ) (D : Descr ℝ) (leak : Bool) (fuel k : Nat) (P : Photon ℝ) (es : List ℝ)
    (hes : es ≠ []) (hb : ∀ e ∈ es, 1 ≤ e ∧ e ≤ 100) (hd : dot P.startD P.startD ≠ 0) (h1 : 1 ≤ D.n_cap) (g : Grid D.prof)
    (hax : D.n_cap ≤ 3 ∨ ∀ i < D.prof.nmax, D.prof.ext (i + 1) = D.prof.ext i) (c : Int) (ws : List ℝ) (P' : Photon ℝ)
    (h : launch lib (some D) leak fuel k (some P) (some es) true = .ok (c, .filled ws, some P')) :
    ((∀ i < D.prof.nmax, D.prof.cap (i + 1) ≤ D.prof.cap i) → P'.exitD.z ≤ (vnorm P.startD).z) ∧
    ((∀ i < D.prof.nmax, D.prof.cap i ≤ D.prof.cap (i + 1)) → (vnorm P.startD).z ≤ P'.exitD.z) := by
  obtain ⟨qr, hc, h3, hq, hk⟩ := launch_kept lib D leak fuel k P es hes hb hd h1 hax c ws P' h
  have tilt : ∀ i < D.prof.nmax, ∀ p0 p1 d cur nrm v n : V3 ℝ, 0 < d.z →
      segment (axisPt D (axX D qr) (axY D qr) i) (axisPt D (axX D qr) (axY D qr) (i + 1)) (D.prof.cap i) (D.prof.cap (i + 1)) p0 p1 d cur nrm = (1, v, n) →
      ∃ m : ℝ, 0 ≤ m ∧ n.z = m * Real.sin (Real.arctan ((D.prof.cap i - D.prof.cap (i + 1)) / (D.prof.z (i + 1) - D.prof.z i))) := by
    intro i hi p0 p1 d cur nrm v n hdz hs
    have a1 := hq i (by omega)
    have a2 := hq (i + 1) (by omega)
    have ex : (axisPt D (axX D qr) (axY D qr) (i + 1)).x = (axisPt D (axX D qr) (axY D qr) i).x := a2.1.trans a1.1.symm
    have ey : (axisPt D (axX D qr) (axY D qr) (i + 1)).y = (axisPt D (axX D qr) (axY D qr) i).y := a2.2.trans a1.2.symm
    have ez : (axisPt D (axX D qr) (axY D qr) i).z < (axisPt D (axX D qr) (axY D qr) (i + 1)).z := g.inc i hi
    obtain ⟨m, m0, e⟩ := normal_tilt ex ey ez hdz hs
    exact ⟨m, m0, e⟩
  constructor
  · intro hm
    refine hk _ _ ?_ (steeper (vnorm P.startD).z) (le_refl (vnorm P.startD).z)
    intro i hi p0 p1 d cur nrm v n hdz hs
    obtain ⟨m, m0, e⟩ := tilt i hi _ _ _ _ _ _ _ hdz hs
    rw [e]
    refine mul_nonneg m0 ((sin_arctan_sign _).1 (div_nonneg ?_ ?_))
    · linarith [hm i hi]
    · linarith [g.inc i hi]
  · intro hm
    refine hk _ _ ?_ (flatter (vnorm P.startD).z) (le_refl (vnorm P.startD).z)
    intro i hi p0 p1 d cur nrm v n hdz hs
    obtain ⟨m, m0, e⟩ := tilt i hi _ _ _ _ _ _ _ hdz hs
    rw [e]
    refine mul_nonpos_of_nonneg_of_nonpos m0 ((sin_arctan_sign _).2 (div_nonpos_of_nonpos_of_nonneg ?_ ?_))
    · linarith [hm i hi]
    · linarith [g.inc i hi]

/-- **C79, C105.**  In a capillary with its axis along z whose radius never shrinks downstream, a photon launched downstream without leak calculation is never turned
back; so a launch that returns 1 leaves the error empty (the exception in `launch_reports_partial` does not arise). -/
theorem widening_silent (lib : Xray ℝ) (D : Descr ℝ) (hn : 1 ≤ D.n_cap) (g : Grid D.prof) (hr : Radii D.prof) (fuel k : Nat)
    (hax : D.n_cap ≤ 3 ∨ ∀ i < D.prof.nmax, D.prof.ext (i + 1) = D.prof.ext i) (hw : ∀ i < D.prof.nmax, D.prof.cap i ≤ D.prof.cap (i + 1))
    (P : Photon ℝ) (h0 : 0 ≤ P.startC.z) (h1 : P.startC.z ≤ D.prof.z D.prof.nmax) (hdir : 0 < P.startD.z)
    (es : List ℝ) (hs : scatfRejects D es = false) (o : WOut ℝ) (P' : Photon ℝ) (s : EArg)
    (h : launchE lib (some D) false fuel (k + 1) (some P) (some es) true (some none) = .ok ((1, o, some P'), s)) :
    s = some none ∧ 0 < P'.exitD.z := by
  obtain ⟨-, -, hes, hb, -⟩ := (scatf_accepts_iff D es).mp hs
  have hd : dot P.startD P.startD ≠ 0 := by
    unfold dot
    nlinarith [mul_self_nonneg P.startD.x, mul_self_nonneg P.startD.y, mul_pos hdir hdir]
  have hv : launch lib (some D) false fuel (k + 1) (some P) (some es) true = .ok (1, o, some P') := by
    rw [← launchE_value lib (some D) false fuel (k + 1) (some P) (some es) true (some none), h]; rfl
  have hz : 0 < P'.exitD.z := by
    have ho : ∃ ws, o = .filled ws := by
      obtain ⟨Q, hQ, he⟩ := launch_ended hes hb hv
      generalize hc : (1 : Int) = c at he
      cases he with
      | inside qr _ _ c o P' hy =>
        obtain ⟨iesc, ix, Q', -, -, -, -, -, e, -⟩ := launchInside_inv _ _ _ _ _ _ _ _ _ hy
        exact ⟨_, e⟩
      | _ => simp_all
    obtain ⟨ws, rfl⟩ := ho
    have := (taper_steepness lib D false fuel (k + 1) P es hes hb hd hn g hax 1 ws P' hv).2 hw
    obtain ⟨s, hs, e, -⟩ := vnorm_scale P.startD hdir
    have hp : 0 < (vnorm P.startD).z := by rw [e]; exact mul_pos hs hdir
    linarith
  refine ⟨?_, hz⟩
  rcases (launch_reports_partial lib D hn g hr fuel k P h0 h1 hd es hs 1 o P' s h).2.1 rfl with e | e
  · exact e
  · linarith

namespace Taper
open Skew EInd

/-- the way that is left to the point nearest to `A`, on the line through `c` with direction `d` (negative if the photon comes nearer) -/
def toward (A c d : V3 ℝ) : ℝ := (c.x - A.x) * d.x + (c.y - A.y) * d.y + (c.z - A.z) * d.z

/-- square of the distance -/
def away (A c : V3 ℝ) : ℝ := (c.x - A.x) ^ 2 + (c.y - A.y) ^ 2 + (c.z - A.z) ^ 2

/-- a flight of length `s` -/
theorem flight_law (A : V3 ℝ) {D : Descr ℝ} {capx capy : Nat → ℝ} {c d v n : V3 ℝ} {i : Nat} (f : Flight D capx capy c d v n i) (hu : dot d d = 1) :
    toward A v d = toward A c d + gap v c ∧ away A v = away A c + 2 * gap v c * toward A c d + gap v c ^ 2 := by
  have hz := f.fwd
  have hadv := f.adv
  have ht : 0 < (v.z - c.z) / d.z := div_pos (by linarith [show (0:ℝ) < 1 / 10 ^ 5 by norm_num]) hz
  generalize hT : (v.z - c.z) / d.z = t at ht
  have ez : v.z = c.z + t * d.z := by rw [← hT]; field_simp; ring
  have ex : v.x = c.x + t * d.x := by rw [f.line]; simp only [lineAt]; rw [hT]
  have ey : v.y = c.y + t * d.y := by rw [f.line]; simp only [lineAt]; rw [hT]
  have hg : gap v c = t := by
    unfold gap
    rw [ex, ey, ez]
    rw [show (c.x + t * d.x - c.x) ^ 2 + (c.y + t * d.y - c.y) ^ 2 + (c.z + t * d.z - c.z) ^ 2 = t ^ 2 * dot d d by unfold dot; ring, hu, mul_one, Real.sqrt_sq ht.le]
  unfold dot at hu
  rw [hg]
  unfold toward away
  rw [ex, ey, ez]
  exact ⟨by linear_combination t * hu, by linear_combination t ^ 2 * hu⟩

/-- Unfolding: a way along which no flight is parallel to a generator of the cone. -/
theorem Path.cone {D : Descr ℝ} (g : Grid D.prof) {capx capy : Nat → ℝ} {A : V3 ℝ} {κ : ℝ} (hx : ∀ i ≤ D.prof.nmax, capx i = A.x) (hy : ∀ i ≤ D.prof.nmax, capy i = A.y)
    (hκ : κ ≠ 0) (hcone : ∀ i ≤ D.prof.nmax, D.prof.cap i = κ * (D.prof.z i - A.z)) (hpos : ∀ i ≤ D.prof.nmax, 0 < D.prof.cap i)
    {c d c' d' : V3 ℝ} {m : Nat} {len : ℝ} (h : Path D capx capy c d m len c' d') (hu : dot d d = 1) :
    (∃ m1 len1 c1 u, Path D capx capy c d m1 len1 c1 u ∧ 0 < u.z ∧ u.x ^ 2 + u.y ^ 2 = κ ^ 2 * u.z ^ 2) ∨
    (toward A c' d' = toward A c d + len ∧ away A c' = away A c + 2 * len * toward A c d + len ^ 2) := by
  induction h with
  | stop c d => right; simp
  | last f => right; exact flight_law A f hu
  | @bounce c d v n d' c' d'' i m len f unit mir rest ih =>
    by_cases hp : d.x ^ 2 + d.y ^ 2 = κ ^ 2 * d.z ^ 2
    · exact Or.inl ⟨0, 0, c, d, .stop _ _, f.fwd, hp⟩
    · have i0 : i ≤ D.prof.nmax := by have := f.inOptic; omega
      have i1 : i + 1 ≤ D.prof.nmax := f.inOptic
      have hZ : 0 < D.prof.z (i + 1) - D.prof.z i := by linarith [g.inc i f.inOptic]
      have hr : (D.prof.cap (i + 1) - D.prof.cap i) = κ * (D.prof.z (i + 1) - D.prof.z i) := by rw [hcone _ i0, hcone _ i1]; ring
      have hgc : genCoeff (axisPt D capx capy i) (axisPt D capx capy (i + 1)) (D.prof.cap i) (D.prof.cap (i + 1)) d ≠ 0 := by
        unfold genCoeff
        simp only [axisPt, hx i i0, hx _ i1, hy i i0, hy _ i1, sub_self, zero_div, sub_zero, hr]
        rw [mul_div_assoc, div_self hZ.ne', mul_one]
        intro hh
        apply hp
        have hz := f.fwd.ne'
        field_simp at hh
        linarith
      obtain ⟨-, n2, -⟩ := f.normal hgc (hpos i i0) (hpos _ i1) (by rw [hx _ i1, hx i i0]) (by rw [hy _ i1, hy i i0])
      have hlin : linAt (D.prof.z i) (D.prof.z (i + 1)) (D.prof.cap i) (D.prof.cap (i + 1)) v.z = κ * (v.z - A.z) := by
        unfold linAt
        rw [hcone _ i0, hcone _ i1]
        field_simp
        ring
      rw [hlin, hr, hx i i0, hy i i0] at n2
      have hperp : dot ⟨v.x - A.x, v.y - A.y, v.z - A.z⟩ n = 0 := by
        have : κ * (D.prof.z (i + 1) - D.prof.z i) * dot ⟨v.x - A.x, v.y - A.y, v.z - A.z⟩ n = 0 := by
          rw [← n2]; unfold dot; ring
        exact (mul_eq_zero.1 this).resolve_left (mul_ne_zero hκ hZ.ne')
      have hw : toward A v d' = toward A v d := by
        have := mir.2 _ hperp
        unfold dot at this
        unfold toward
        linarith
      obtain ⟨e1, e2⟩ := flight_law A f hu
      rcases ih unit with ⟨m1, len1, c1, u, p, q⟩ | ⟨q1, q2⟩
      · exact Or.inl ⟨m1 + 1, _, c1, u, .bounce f unit mir p, q⟩
      · right
        rw [q1, q2, hw, e1, e2]
        exact ⟨by ring, by ring⟩

/-- in a cylinder -/
theorem away_sq (A c d : V3 ℝ) (hu : dot d d = 1) : toward A c d ^ 2 ≤ away A c := by
  unfold dot at hu
  unfold toward away
  have hlag : ((c.x - A.x) ^ 2 + (c.y - A.y) ^ 2 + (c.z - A.z) ^ 2) * (d.x * d.x + d.y * d.y + d.z * d.z) -
      ((c.x - A.x) * d.x + (c.y - A.y) * d.y + (c.z - A.z) * d.z) ^ 2 =
      ((c.x - A.x) * d.y - (c.y - A.y) * d.x) ^ 2 + ((c.y - A.y) * d.z - (c.z - A.z) * d.y) ^ 2 + ((c.z - A.z) * d.x - (c.x - A.x) * d.z) ^ 2 := by ring
  rw [hu, mul_one] at hlag
  nlinarith [sq_nonneg ((c.x - A.x) * d.y - (c.y - A.y) * d.x), sq_nonneg ((c.y - A.y) * d.z - (c.z - A.z) * d.y), sq_nonneg ((c.z - A.z) * d.x - (c.x - A.x) * d.z)]

end Taper

open Skew Taper in
/-- **C105**, cones: a photon launched in a conical capillary with its axis along z and the apex of the cone at height `za` on it.  Unless it at some stage of its way
flies parallel to a generator of the cone (where the code divides by zero, C19), it is at the end, seen from the apex, where it would be had it flown the length of
its way straight on: same distance from the apex, same component of the motion towards it. -/
theorem cone_unfolds (lib : Xray ℝ) (D : Descr ℝ) (leak : Bool) (fuel k : Nat) (P : Photon ℝ) (es : List ℝ)
    (hes : es ≠ []) (hb : ∀ e ∈ es, 1 ≤ e ∧ e ≤ 100) (hd : dot P.startD P.startD ≠ 0) (h1 : 1 ≤ D.n_cap) (g : Grid D.prof)
    (hax : D.n_cap ≤ 3 ∨ ∀ i < D.prof.nmax, D.prof.ext (i + 1) = D.prof.ext i)
    {κ za : ℝ} (hκ : κ ≠ 0) (hcone : ∀ i ≤ D.prof.nmax, D.prof.cap i = κ * (D.prof.z i - za)) (hpos : ∀ i ≤ D.prof.nmax, 0 < D.prof.cap i)
    (c : Int) (ws : List ℝ) (P' : Photon ℝ)
    (h : launch lib (some D) leak fuel k (some P) (some es) true = .ok (c, .filled ws, some P')) :
    ∃ qr, launchCap D P.startC = some qr ∧ (D.n_cap ≤ 3 → axX D qr 0 = 0 ∧ axY D qr 0 = 0) ∧
      ((∃ m1 len1 c1 u, Path D (axX D qr) (axY D qr) P.startC (vnorm P.startD) m1 len1 c1 u ∧ 0 < u.z ∧ u.x ^ 2 + u.y ^ 2 = κ ^ 2 * u.z ^ 2) ∨
       let A : V3 ℝ := ⟨axX D qr 0, axY D qr 0, za⟩
       let straight : V3 ℝ := ⟨P.startC.x + (P'.d_travel - P.d_travel) * (vnorm P.startD).x, P.startC.y + (P'.d_travel - P.d_travel) * (vnorm P.startD).y,
          P.startC.z + (P'.d_travel - P.d_travel) * (vnorm P.startD).z⟩
       gap P'.exitC A = gap straight A ∧ toward A P'.exitC P'.exitD = toward A straight (vnorm P.startD)) := by
  obtain ⟨qr, hc, h3, hq, -⟩ := launch_kept lib D leak fuel k P es hes hb hd h1 hax c ws P' h
  obtain ⟨qr', m, len, hc', p, -, -, e3, -⟩ := launch_path lib D leak fuel k P es hes hb hd c ws P' h
  rw [hc] at hc'
  injection hc' with hc'
  subst hc'
  refine ⟨qr, hc, h3, ?_⟩
  have hu := vnorm_dot _ hd
  rcases Path.cone (A := ⟨axX D qr 0, axY D qr 0, za⟩) g (fun i hi => (hq i hi).1) (fun i hi => (hq i hi).2) hκ hcone hpos p hu with a | ⟨a, b⟩
  · exact Or.inl a
  · right
    have hl : P'.d_travel - P.d_travel = len := by linarith
    simp only [hl]
    unfold dot at hu
    constructor
    · unfold gap
      congr 1
      unfold away toward at b
      linear_combination b - len ^ 2 * hu
    · rw [a]
      unfold toward
      simp only
      linear_combination -len * hu

open Skew Taper in
/-- **C105**, what a cone lets through: a photon whose last flight leads through a point of height `ze` at most `R` from the axis (the opening of the cone, say), without
having flown parallel to a generator: the straight line of its start passes the apex at most as far away as the rim of that opening is. -/
theorem cone_acceptance (lib : Xray ℝ) (D : Descr ℝ) (leak : Bool) (fuel k : Nat) (P : Photon ℝ) (es : List ℝ)
    (hes : es ≠ []) (hb : ∀ e ∈ es, 1 ≤ e ∧ e ≤ 100) (hd : dot P.startD P.startD ≠ 0) (h1 : 1 ≤ D.n_cap) (h3 : D.n_cap ≤ 3) (g : Grid D.prof)
    {κ za : ℝ} (hκ : κ ≠ 0) (hcone : ∀ i ≤ D.prof.nmax, D.prof.cap i = κ * (D.prof.z i - za)) (hpos : ∀ i ≤ D.prof.nmax, 0 < D.prof.cap i)
    (c : Int) (ws : List ℝ) (P' : Photon ℝ)
    (h : launch lib (some D) leak fuel k (some P) (some es) true = .ok (c, .filled ws, some P'))
    {R s : ℝ} (hR : (P'.exitC.x + s * P'.exitD.x) ^ 2 + (P'.exitC.y + s * P'.exitD.y) ^ 2 ≤ R ^ 2) :
    (∃ qr m1 len1 c1 u, launchCap D P.startC = some qr ∧ Path D (axX D qr) (axY D qr) P.startC (vnorm P.startD) m1 len1 c1 u ∧ 0 < u.z ∧ u.x ^ 2 + u.y ^ 2 = κ ^ 2 * u.z ^ 2) ∨
    ∃ t : ℝ, (P.startC.x + t * (vnorm P.startD).x) ^ 2 + (P.startC.y + t * (vnorm P.startD).y) ^ 2 + (P.startC.z + t * (vnorm P.startD).z - za) ^ 2 ≤
      R ^ 2 + (P'.exitC.z + s * P'.exitD.z - za) ^ 2 := by
  obtain ⟨qr, hc, h0, hq⟩ := cone_unfolds lib D leak fuel k P es hes hb hd h1 g (Or.inl h3) hκ hcone hpos c ws P' h
  obtain ⟨-, -, -, -, -, -, -, -, hu'⟩ := launch_path lib D leak fuel k P es hes hb hd c ws P' h
  have hu := vnorm_dot _ hd
  obtain ⟨ax, ay⟩ := h0 h3
  rcases hq with ⟨m1, len1, c1, u, p, q⟩ | ⟨a, b⟩
  · exact Or.inl ⟨qr, m1, len1, c1, u, hc, p, q⟩
  · right
    rw [ax, ay] at a b
    have a2 := congrArg (fun r : ℝ => r ^ 2) a
    simp only [gap] at a2
    rw [Real.sq_sqrt (by positivity), Real.sq_sqrt (by positivity)] at a2
    refine ⟨P'.d_travel - P.d_travel + s, ?_⟩
    unfold toward at b
    unfold dot at hu hu'
    simp only [sub_zero] at a2 b
    have key : (P.startC.x + (P'.d_travel - P.d_travel + s) * (vnorm P.startD).x) ^ 2 + (P.startC.y + (P'.d_travel - P.d_travel + s) * (vnorm P.startD).y) ^ 2 +
        (P.startC.z + (P'.d_travel - P.d_travel + s) * (vnorm P.startD).z - za) ^ 2 =
        (P'.exitC.x + s * P'.exitD.x) ^ 2 + (P'.exitC.y + s * P'.exitD.y) ^ 2 + (P'.exitC.z + s * P'.exitD.z - za) ^ 2 := by
      linear_combination -a2 - 2 * s * b + s ^ 2 * (hu - hu')
    rw [key]
    linarith

/-! ## A photon that is reflected in a cone -/

namespace Taper
open Route EInd RoughTube Total Polar

/-- sine and cosine of the half opening angle of the example -/
noncomputable def kS : ℝ := 20000 / 100000001
noncomputable def kC : ℝ := 99999999 / 100000001

/-- its wall: met by a photon from the centre of the entrance at twice the opening angle at height 1 -/
noncomputable def kR (z : ℝ) : ℝ := 2 * kS * kC / (kC ^ 2 - kS ^ 2) + kS / kC - kS / kC * z

/-- a narrowing cone of length 3/2 -/
noncomputable def kD : Descr ℝ := ⟨0, 1, [14], [1], 223/100, ⟨1, fun i => 3/2 * i, fun i => kR (3/2 * i), fun _ => 1⟩⟩

/-- the direction of the photon, the normal of the wall where it meets it, and its direction thereafter -/
noncomputable def kd : V3 ℝ := ⟨2 * kS * kC, 0, kC ^ 2 - kS ^ 2⟩
noncomputable def kn : V3 ℝ := ⟨kC, 0, kS⟩
noncomputable def ke : V3 ℝ := ⟨-(2 * (2 * kS * kC) * (kC ^ 2 - kS ^ 2)), 0, (kC ^ 2 - kS ^ 2) ^ 2 - (2 * kS * kC) ^ 2⟩
noncomputable def kv : V3 ℝ := ⟨2 * kS * kC / (kC ^ 2 - kS ^ 2), 0, 1⟩

theorem kUnit : kS ^ 2 + kC ^ 2 = 1 := by norm_num [kS, kC]
theorem kGrid : Grid kD.prof := ⟨le_refl _, by simp [kD], by intro i hi; simp only [kD]; push_cast; linarith⟩
theorem kX : axX kD (0, 0) = fun _ => 0 := by funext i; rw [axX_eq kD (by simp [kD])]; simp [centreX]
theorem kY : axY kD (0, 0) = fun _ => 0 := by funext i; rw [axY_eq kD (by simp [kD])]; simp [centreY]

theorem kCap (i : Nat) (hi : i ≤ kD.prof.nmax) : 0 < kD.prof.cap i ∧ kD.prof.cap i < 1 / 100 := by
  have : i ≤ 1 := hi
  interval_cases i <;> norm_num [kD, kR, kS, kC]

theorem kLin (z : ℝ) : linAt (kD.prof.z 0) (kD.prof.z (0 + 1)) (kD.prof.cap 0) (kD.prof.cap (0 + 1)) z = kR z := by
  simp only [linAt, kD, kR]
  push_cast
  ring

theorem kNormal : wallNormal kD (fun _ => 0) (fun _ => 0) 0 kv = kn := by
  have hs : 0 < kS := by norm_num [kS]
  have hc : 0 < kC := by norm_num [kC]
  have ht : 0 < kC ^ 2 - kS ^ 2 := by norm_num [kC, kS]
  have hq : Real.sqrt (1 + (kS / kC) ^ 2) = 1 / kC := by
    rw [show 1 + (kS / kC) ^ 2 = (1 / kC) ^ 2 by field_simp; linarith [kUnit], Real.sqrt_sq (by positivity)]
  have e1 : (kR (3/2 * ((0:ℕ):ℝ)) - kR (3/2 * ((0 + 1 : ℕ):ℝ))) / (3/2) = kS / kC := by unfold kR; push_cast; ring
  have h94 : Real.sqrt (3/2 * (3/2)) = 3/2 := Real.sqrt_mul_self (by norm_num)
  unfold wallNormal coneNormal
  simp only [axisPt, kD, kv, dot]
  push_cast
  simp only [sub_zero, mul_zero, zero_add, mul_one, add_zero, zero_div]
  rw [h94]
  have e2 : (kR 0 - kR (3/2)) / (3/2) = kS / kC := by unfold kR; ring
  rw [e2, Real.cos_arctan, Real.sin_arctan, hq]
  have e3 : (1:ℝ) - 1 * (3/2) / (3/2 * (3/2)) * (3/2) = 0 := by norm_num
  rw [e3]
  simp only [mul_zero, add_zero, zero_div, zero_add]
  rw [Real.sqrt_mul_self (by positivity)]
  have e4 : 1 / (1 / kC) * (2 * kS * kC / (kC ^ 2 - kS ^ 2)) / (2 * kS * kC / (kC ^ 2 - kS ^ 2)) = kC := by field_simp
  have e5 : kS / kC / (1 / kC) * (3/2) / (3/2) = kS := by field_simp
  rw [e4, e5, show kC * kC + kS * kS = 1 by linarith [kUnit], Real.sqrt_one]
  simp [kn]

theorem kMirror : mirror kd kn = ke := by
  simp only [mirror, kd, kn, ke, dot, V3.mk.injEq]
  norm_num [kS, kC]

theorem kLine : lineAt ⟨0, 0, 0⟩ kd 1 = kv := by
  simp only [lineAt, kd, kv, V3.mk.injEq, and_true]
  norm_num [kS, kC]

theorem kSound : Sound kD (fun _ => 0) (fun _ => 0) := by
  refine ⟨by simp [kD], kGrid, fun i hi => (kCap i hi).1, fun i hi => by simp [kD], fun i hi => ?_⟩
  exact ((boundary_one_iff 1 0 0).mp (boundary_contains_disc 1 0 0 one_pos (by norm_num))).2

theorem kInHex {x y : ℝ} (h : x ^ 2 + y ^ 2 ≤ 1 / 4) : InHex 1 x y := by
  refine ((boundary_one_iff 1 x y).mp (boundary_contains_disc 1 x y one_pos ?_)).2
  linarith

theorem kOblique : Oblique kD (fun _ => 0) (fun _ => 0) kd ∧ Oblique kD (fun _ => 0) (fun _ => 0) ke := by
  have g : ∀ d : V3 ℝ, d.y = 0 → d.z ≠ 0 → (d.x / d.z) ^ 2 ≠ (kS / kC) ^ 2 → ∀ i < kD.prof.nmax,
      genCoeff (axisPt kD (fun _ => 0) (fun _ => 0) i) (axisPt kD (fun _ => 0) (fun _ => 0) (i + 1)) (kD.prof.cap i) (kD.prof.cap (i + 1)) d ≠ 0 := by
    intro d hy hz hne i hi
    have : i = 0 := by have : i < 1 := hi; omega
    subst this
    intro hh
    apply hne
    simp only [genCoeff, axisPt, kD, kR, hy] at hh
    push_cast at hh
    have e : (2 * kS * kC / (kC ^ 2 - kS ^ 2) + kS / kC - kS / kC * (3/2 * 1) - (2 * kS * kC / (kC ^ 2 - kS ^ 2) + kS / kC - kS / kC * (3/2 * 0))) / (3/2 * 1 - 3/2 * 0) = -(kS / kC) := by ring
    rw [e] at hh
    simp only [sub_self, zero_div, sub_zero, neg_sq] at hh
    linarith
  refine ⟨⟨?_, ?_, g kd rfl ?_ ?_, ?_⟩, ⟨?_, ?_, g ke rfl ?_ ?_, ?_⟩⟩
  all_goals first
    | (intro i hi
       have : i = 0 := by have : i < 1 := hi; omega
       subst this
       norm_num [kD, kd, ke, kS, kC])
    | norm_num [dot, kd, ke, kS, kC]

theorem kCross (c d : V3 ℝ) (hc : c.y = 0) (hd : d.y = 0) (z : ℝ) : Crossing kD (fun _ => 0) (fun _ => 0) c d 0 z ↔
    0 ≤ z ∧ z ≤ 3/2 ∧ (c.x + (z - c.z) / d.z * d.x) ^ 2 = kR z ^ 2 := by
  unfold Crossing OnWall
  have e := kLin z
  simp only [axisPt, lineAt, hc, hd]
  rw [e]
  simp only [linAt, kD, sub_self, mul_zero, add_zero, sub_zero, zero_mul]
  push_cast
  constructor
  · rintro ⟨a, b, c⟩; exact ⟨by linarith, by linarith, by linarith⟩
  · rintro ⟨a, b, c⟩; exact ⟨by linarith, by linarith, by linarith⟩

theorem kHeld (c d : V3 ℝ) (zend : ℝ) (h : (c.x + (0 - c.z) / d.z * d.x) ^ 2 + (c.y + (0 - c.z) / d.z * d.y) ^ 2 ≤ 1 / 4) : Held kD c d zend := by
  intro i hi _ _
  have : i = 0 := by have : i < 1 := hi; omega
  subst this
  show InHex 1 _ _
  apply kInHex
  simpa [lineAt, kD] using h

theorem kLeg : Leg kD (fun _ => 0) (fun _ => 0) ⟨0, 0, 0⟩ kd 0 1 := by
  have ht : 0 < kC ^ 2 - kS ^ 2 := by norm_num [kC, kS]
  refine ⟨by simp [kD], ?_, ?_, by norm_num, by norm_num [kD], by norm_num [kD], ?_, ?_, ?_, ?_⟩
  · rw [kCross _ _ rfl rfl]
    refine ⟨by norm_num, by norm_num, ?_⟩
    simp only [kd, kR]
    ring
  · intro i z' hi hcr h0
    have : i = 0 := by have : i < 1 := hi; omega
    subst this
    rw [kCross _ _ rfl rfl] at hcr
    obtain ⟨a, b, e⟩ := hcr
    by_contra hlt
    push Not at hlt
    simp only [kd, kR] at e
    norm_num [kS, kC] at e
    nlinarith
  · rw [kLine, kNormal]; norm_num [dot, kn, kd, kS, kC]
  · rw [kLine, kNormal]; norm_num [dot, kn, kd, kS, kC]
  · exact kHeld _ _ _ (by norm_num)
  · rw [kLine]
    refine ⟨1, ⟨0, by simp [kD], by norm_num [kD, kv], by norm_num [kD, kv], by simp [kD, linAt]⟩, one_pos, ?_⟩
    rw [if_pos (by simp [kD])]
    norm_num [kv, kS, kC]

theorem kClear : Clear kD (fun _ => 0) (fun _ => 0) kv ke := by
  refine ⟨?_, kHeld _ _ _ (by norm_num [kv, ke, kS, kC])⟩
  intro i z' hi hcr
  have : i = 0 := by have : i < 1 := hi; omega
  subst this
  rw [kCross _ _ rfl rfl] at hcr
  obtain ⟨a, b, e⟩ := hcr
  by_contra hlt
  push Not at hlt
  simp only [kv, ke, kR] at e hlt
  norm_num [kS, kC] at e hlt
  nlinarith

theorem kCapillary : launchCap kD ⟨0, 0, 0⟩ = some (0, 0) := by
  have hv : launchExt kD.prof 0 = 1 :=
    (launchExt_value (p := kD.prof) kGrid (le_refl _) (by norm_num [kD])).unique (p := kD.prof) kGrid
      ⟨0, by simp [kD], by simp [kD], by norm_num [kD], by simp [kD, linAt]⟩
  have hN : ¬ launchCap kD ⟨0, 0, 0⟩ = none := by
    rw [launchCap_none (by simp [kD]) (by rw [hv]; norm_num), hv]
    simp only [Outside, kD, show ((1:ℤ) ≤ 3) from by norm_num, if_true, not_lt]
    norm_num
  obtain ⟨qr, hq⟩ := Option.ne_none_iff_exists'.mp hN
  rcases launchCap_some hq with ⟨-, h⟩ | ⟨h, -⟩
  · rw [hq, h]
  · exact absurd nShells_one h

theorem kOpen : startsInWall kD (0, 0) ⟨0, 0, 0⟩ = false := by
  rw [← Bool.not_eq_true, startsInWall_iff (D := kD) kGrid (by simp [kD]) (c := ⟨0, 0, 0⟩) (le_refl _) (by norm_num [kD]) (R := 1) (rad := kR 0)
    ⟨0, by simp [kD], by simp [kD], by norm_num [kD], by simp [kD, linAt]⟩
    ⟨0, by simp [kD], by simp [kD], by norm_num [kD], by simp [kD, linAt]⟩ kCapillary]
  simp only [InGlass, kD, show ((1:ℤ) ≤ 3) from by norm_num, if_true, not_lt]
  norm_num [kR, kS, kC]

/-- A photon that is reflected in the cone, and comes out. -/
theorem k_launch (E : V3 ℝ) (hE : dot E E ≠ 0) :
    ∃ P', launch zLib (some kD) false 0 1 (some { exP ⟨0, 0, 0⟩ kd 0 with exitE := E }) (some [10]) true = .ok (1, .filled [1], some P') ∧
      P'.i_refl = 1 ∧ P'.exitC = kv ∧ P'.exitD = ke := by
  have hu : dot kd kd = 1 := kOblique.1.unit
  have hgl : ∀ e, scatfOf zLib kD e = 1/2 ∧ amuOf zLib kD e = 0 := by
    intro e
    simp [amuOf, scatfOf, kD, zLib]
    norm_num
  have gg := r_glass (cs := [rCh 10 1]) (by intro c hc; simp at hc; subst hc; simp [rCh]; norm_num)
  have hfr : freshChans zLib kD [10] = [rCh 10 1] := by
    simp only [freshChans, List.map_cons, List.map_nil, (hgl 10).1, (hgl 10).2, rCh]
  have hone : ([rCh 10 1].map (weaker kD kn kd E)) = [rCh 10 1] := by
    have ho := once (D := kD) (e := 10) (scatf := 1 / 2) (mu := 0) (q := dot kn kd) rfl (by norm_num) (by norm_num [kD]) (by norm_num) rfl (gg.chan (rCh 10 1) (by simp)).2.2.2.2
      (by norm_num [dot, kn, kd, kS, kC]) (le_trans (by norm_num [dot, kn, kd, kS, kC, zs]) ex_critical) (dot (vnorm E) (sDir kn kd) ^ 2)
    simp only [weaker, rCh, List.map_cons, List.map_nil, one_mul]
    rw [ho]
  have hw : Way kD (fun _ => 0) (fun _ => 0) ⟨0, 0, 0⟩ kd E [rCh 10 1] .out (0 + 1) (gap (lineAt ⟨0, 0, 0⟩ kd 1) ⟨0, 0, 0⟩ + 0) kv ke (absV (vnorm E)) [rCh 10 1] := by
    have hl : wallNormal kD (fun _ => 0) (fun _ => 0) 0 (lineAt ⟨0, 0, 0⟩ kd 1) = kn := by rw [kLine, kNormal]
    refine .bounce kOblique.1 kLeg ?_ ?_
    · rw [hl, hone]
      exact ⟨rCh 10 1, by simp, by norm_num [rCh]⟩
    · rw [hl, hone, kMirror, kLine]
      exact .out kOblique.2 kClear
  have hsc : scatfRejects kD [10] = false := by
    rw [scatf_accepts_iff]
    simp [kD]
    norm_num
  obtain ⟨P', h, a, b, -, c, -⟩ := launch_goes_way zLib kD 0 0 { exP ⟨0, 0, 0⟩ kd 0 with exitE := E } [10] (by simp) (by simp; norm_num)
    ⟨by norm_num [kD], fun e _ => by rw [(hgl e).1]; norm_num, fun e _ => by rw [(hgl e).2], fun e he => by
      rw [(hgl e).1]; simp at he; subst he; exact (gg.chan (rCh 10 1) (by simp)).2.2.2.2⟩ hsc (qr := (0, 0)) (by rw [kX, kY]; exact kSound) kCapillary kOpen (le_refl _) hE (by
      show dot kd kd ≠ 0
      rw [hu]; norm_num) (f := .out) (m := 0 + 1) (len := gap (lineAt ⟨0, 0, 0⟩ kd 1) ⟨0, 0, 0⟩ + 0) (c' := kv) (d' := ke) (E' := absV (vnorm E)) (cs' := [rCh 10 1]) (by
      show Way kD (axX kD (0, 0)) (axY kD (0, 0)) ⟨0, 0, 0⟩ (vnorm kd) E (freshChans zLib kD [10]) _ _ _ _ _ _ _
      rw [kX, kY, vnorm_unit _ hu, hfr]
      exact hw) (by simp [kD]) (by simp)
  refine ⟨P', ?_, by simpa using c, a, b⟩
  rw [h]
  simp [rCh]

/-- the hypotheses of `taper_steepness` and `cone_unfolds` met: the photon comes out at a larger angle (strictly) -/
example (E : V3 ℝ) (hE : dot E E ≠ 0) :
    ∃ P', launch zLib (some kD) false 0 1 (some { exP ⟨0, 0, 0⟩ kd 0 with exitE := E }) (some [10]) true = .ok (1, .filled [1], some P') ∧
      P'.exitD.z < kd.z ∧ (∀ i < kD.prof.nmax, kD.prof.cap (i + 1) ≤ kD.prof.cap i) ∧
      ∃ κ za : ℝ, κ ≠ 0 ∧ (∀ i ≤ kD.prof.nmax, kD.prof.cap i = κ * (kD.prof.z i - za)) ∧ (∀ i ≤ kD.prof.nmax, 0 < kD.prof.cap i) ∧
        toward ⟨0, 0, za⟩ P'.exitC P'.exitD = toward ⟨0, 0, za⟩ ⟨0, 0, 0⟩ kd + gap kv ⟨0, 0, 0⟩ := by
  obtain ⟨P', h, -, a, b⟩ := k_launch E hE
  refine ⟨P', h, by rw [b]; norm_num [ke, kd, kS, kC], ?_, -(kS / kC), 1 + (2 * kS * kC / (kC ^ 2 - kS ^ 2)) / (kS / kC), by norm_num [kS, kC], ?_, fun i hi => (kCap i hi).1, ?_⟩
  · intro i hi
    have : i = 0 := by have : i < 1 := hi; omega
    subst this
    norm_num [kD, kR, kS, kC]
  · intro i hi
    have hk : kS / kC ≠ 0 := by norm_num [kS, kC]
    simp only [kD, kR]
    generalize kS / kC = q at hk
    generalize 2 * kS * kC / (kC ^ 2 - kS ^ 2) = T
    field_simp
    ring
  · rw [a, b]
    have hg : gap kv ⟨0, 0, 0⟩ = 1 / (kC ^ 2 - kS ^ 2) := by
      unfold gap
      rw [Real.sqrt_eq_iff_mul_self_eq (by positivity) (by norm_num [kS, kC])]
      norm_num [kv, kS, kC]
    rw [hg]
    norm_num [toward, kv, ke, kd, kS, kC]

open Polycap.Tube Skew in
/-- a launch that meets the hypotheses of `widening_silent`: the skew photon in a straight tube, after two reflections -/
example (E : V3 ℝ) (hE : dot E E ≠ 0) : ∃ P', launchE zLib (some (tD sR 4 1)) false 0 1 (some (sPh E)) (some [10]) true (some none) = .ok ((1, .filled [1], some P'), some none) ∧
    P'.i_refl = 2 ∧ 0 < P'.exitD.z := by
  obtain ⟨P', h, h2⟩ := s_launch E hE
  have hv := launchE_value zLib (some (tD sR 4 1)) false 0 1 (some (sPh E)) (some [10]) true (some none)
  rw [h] at hv
  generalize hl : launchE zLib (some (tD sR 4 1)) false 0 1 (some (sPh E)) (some [10]) true (some none) = x at hv
  cases x with
  | ok y =>
    obtain ⟨v, s⟩ := y
    simp only [vals_ok', Out.ok.injEq] at hv
    subst hv
    obtain ⟨rfl, hz⟩ := widening_silent zLib (tD sR 4 1) (by simp [tD]) (tGrid (by norm_num)) ⟨fun i _ => by
        have : 0 < sR := by norm_num [sR, zs, zc]
        exact this.le, fun i _ => by simp [tD]⟩ 0 0 (Or.inl (by simp [tD])) (fun i _ => le_refl _) (sPh E)
      (by simp [sPh, exP]) (by simp [sPh, exP, tD]) (by show (0:ℝ) < zc; norm_num [zc]) [10] (Tube.t_scatf _ _ _) _ P' s hl
    exact ⟨P', rfl, h2, hz⟩
  | _ => simp at hv
end Taper
end Polycap
