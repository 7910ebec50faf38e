import Verif.Props.Route
import Verif.Props.Discard

/-!
# C92: reflections in a straight capillary

In a straight capillary the way of light (`Route.Way`) has a closed form: all reflections happen under the same angle, and they follow each
other at constant distance.
-/
namespace Polycap
open CNum
namespace Bore
open EInd Polar Route

/-- square of the part of a direction perpendicular to the optical axis -/
def lateral (d : V3 ℝ) : ℝ := d.x ^ 2 + d.y ^ 2

section
variable (r ax ay : ℝ)

/-- square of the distance of `c` from the axis of the capillary -/
def off (c : V3 ℝ) : ℝ := (c.x - ax) ^ 2 + (c.y - ay) ^ 2

/-- lateral distance from the axis times lateral speed -/
def drift (c d : V3 ℝ) : ℝ := (c.x - ax) * d.x + (c.y - ay) * d.y

/-- half the lateral chord of the line in the circle of the capillary, times the lateral speed -/
noncomputable def chord (c d : V3 ℝ) : ℝ := Real.sqrt (drift ax ay c d ^ 2 + lateral d * (r ^ 2 - off ax ay c))

/-- height of the `k`th reflection (counted from 0) -/
noncomputable def hitZ (c d : V3 ℝ) (k : Nat) : ℝ := c.z + d.z * (((2 * k + 1) * chord r ax ay c d - drift ax ay c d) / lateral d)

end

variable {D : Descr ℝ} {capx capy : Nat → ℝ} {r X ax ay : ℝ}

/-- a straight capillary of radius `r` in a straight optic of radius `X` -/
structure Tube (D : Descr ℝ) (capx capy : Nat → ℝ) (r X ax ay : ℝ) : Prop where
  cap : ∀ i ≤ D.prof.nmax, D.prof.cap i = r
  ext : ∀ i ≤ D.prof.nmax, D.prof.ext i = X
  axX : ∀ i ≤ D.prof.nmax, capx i = ax
  axY : ∀ i ≤ D.prof.nmax, capy i = ay
  rad : 0 < r

/-- The quadratic in a form that shows its solutions. -/
theorem off_line {c d : V3 ℝ} (h0 : 0 ≤ drift ax ay c d ^ 2 + lateral d * (r ^ 2 - off ax ay c)) (z : ℝ) :
    lateral d * (off ax ay (lineAt c d z) - r ^ 2) = (lateral d * ((z - c.z) / d.z) + drift ax ay c d) ^ 2 - chord r ax ay c d ^ 2 := by
  unfold chord
  rw [Real.sq_sqrt h0]
  simp only [off, lineAt, lateral, drift]
  ring

theorem onWall_straight (t : Tube D capx capy r X ax ay) {i : Nat} (hi : i < D.prof.nmax) (v : V3 ℝ) :
    OnWall (axisPt D capx capy i) (axisPt D capx capy (i + 1)) (D.prof.cap i) (D.prof.cap (i + 1)) v ↔ off ax ay v = r ^ 2 := by
  simp only [OnWall, axisPt, linAt, t.cap i hi.le, t.cap _ hi, t.axX i hi.le, t.axX _ hi, t.axY i hi.le, t.axY _ hi, sub_self, zero_mul, add_zero, off]

theorem chord_drift {c d : V3 ℝ} (hl : 0 < lateral d) (hw : off ax ay c ≤ r ^ 2) : |drift ax ay c d| ≤ chord r ax ay c d := by
  unfold chord
  apply Real.le_sqrt_of_sq_le
  rw [sq_abs]
  have : 0 ≤ lateral d * (r ^ 2 - off ax ay c) := mul_nonneg hl.le (by linarith)
  linarith

/-- where the line meets the wall -/
theorem wall_iff {c d : V3 ℝ} (hd : 0 < d.z) (hl : 0 < lateral d) (hw : off ax ay c ≤ r ^ 2) (z : ℝ) :
    off ax ay (lineAt c d z) = r ^ 2 ↔ z = hitZ r ax ay c d 0 ∨ z = c.z + d.z * ((-chord r ax ay c d - drift ax ay c d) / lateral d) := by
  have h0 : 0 ≤ drift ax ay c d ^ 2 + lateral d * (r ^ 2 - off ax ay c) := by
    have : 0 ≤ lateral d * (r ^ 2 - off ax ay c) := mul_nonneg hl.le (by linarith)
    nlinarith [sq_nonneg (drift ax ay c d)]
  have h := off_line h0 z (r := r) (ax := ax) (ay := ay)
  have e : off ax ay (lineAt c d z) = r ^ 2 ↔ (lateral d * ((z - c.z) / d.z) + drift ax ay c d) ^ 2 = chord r ax ay c d ^ 2 := by
    constructor
    · intro he; rw [he] at h; linarith
    · intro he
      rw [he, sub_self] at h
      rcases mul_eq_zero.mp h with h | h
      · linarith
      · linarith
  rw [e, sq_eq_sq_iff_eq_or_eq_neg]
  unfold hitZ
  constructor
  · rintro (h | h)
    · left
      have : (z - c.z) / d.z = (chord r ax ay c d - drift ax ay c d) / lateral d := by rw [eq_div_iff hl.ne']; linarith
      rw [div_eq_iff hd.ne'] at this
      push_cast
      rw [show (2 * (0:ℝ) + 1) = 1 by norm_num, one_mul]
      linarith
    · right
      have : (z - c.z) / d.z = (-chord r ax ay c d - drift ax ay c d) / lateral d := by rw [eq_div_iff hl.ne']; linarith
      rw [div_eq_iff hd.ne'] at this
      linarith
  · rintro (rfl | rfl)
    · left; push_cast; field_simp; ring
    · right; field_simp; ring

/-- the wall normal -/
theorem wallNormal_straight (t : Tube D capx capy r X ax ay) (g : Grid D.prof) {j : Nat} (hj : j < D.prof.nmax) {v : V3 ℝ} (hv : off ax ay v = r ^ 2) :
    wallNormal D capx capy j v = ⟨(v.x - ax) / r, (v.y - ay) / r, 0⟩ := by
  have hL : 0 < D.prof.z (j + 1) - D.prof.z j := by have := g.inc j hj; linarith
  have hr := t.rad
  unfold wallNormal coneNormal
  simp only [axisPt, t.cap j hj.le, t.cap _ hj, t.axX j hj.le, t.axX _ hj, t.axY j hj.le, t.axY _ hj, sub_self, zero_div, Real.arctan_zero, Real.cos_zero,
    Real.sin_zero, dot, mul_zero, zero_mul, add_zero, zero_add, one_mul]
  generalize D.prof.z (j + 1) - D.prof.z j = L at hL
  have hf : v.z - (D.prof.z j + (v.z - D.prof.z j) * L / (L * L) * L) = 0 := by field_simp; ring
  rw [hf]
  have h1 : (v.x - ax) * (v.x - ax) + (v.y - ay) * (v.y - ay) = r ^ 2 := by rw [← hv]; unfold off; ring
  simp only [mul_zero, add_zero, zero_div, h1, Real.sqrt_sq hr.le]
  have h2 : (v.x - ax) / r * ((v.x - ax) / r) + (v.y - ay) / r * ((v.y - ay) / r) = 1 := by
    field_simp; rw [← h1]; ring
  rw [h2, Real.sqrt_one, div_one, div_one]

/-- light inside the capillary, neither along its axis nor across it -/
structure St (r ax ay : ℝ) (c d : V3 ℝ) : Prop where
  unit : dot d d = 1
  down : 0 < d.z
  tilted : 0 < lateral d
  inside : off ax ay c ≤ r ^ 2

theorem St.disc {c d : V3 ℝ} (st : St r ax ay c d) : 0 ≤ drift ax ay c d ^ 2 + lateral d * (r ^ 2 - off ax ay c) := by
  have : 0 ≤ lateral d * (r ^ 2 - off ax ay c) := mul_nonneg st.tilted.le (by linarith [st.inside])
  nlinarith [sq_nonneg (drift ax ay c d)]

theorem drift_cauchy (c d : V3 ℝ) : drift ax ay c d ^ 2 ≤ lateral d * off ax ay c := by
  unfold drift lateral off
  nlinarith [sq_nonneg ((c.x - ax) * d.y - (c.y - ay) * d.x)]

theorem drift_line (c d : V3 ℝ) (z : ℝ) : drift ax ay (lineAt c d z) d = drift ax ay c d + (z - c.z) / d.z * lateral d := by
  simp only [drift, lineAt, lateral]; ring

theorem hit_time {c d : V3 ℝ} (st : St r ax ay c d) : (hitZ r ax ay c d 0 - c.z) / d.z = (chord r ax ay c d - drift ax ay c d) / lateral d := by
  have := st.down
  have := st.tilted
  unfold hitZ
  push_cast
  field_simp
  ring

theorem hit_off {c d : V3 ℝ} (st : St r ax ay c d) : off ax ay (lineAt c d (hitZ r ax ay c d 0)) = r ^ 2 :=
  (wall_iff st.down st.tilted st.inside _).mpr (Or.inl rfl)

theorem hit_drift {c d : V3 ℝ} (st : St r ax ay c d) : drift ax ay (lineAt c d (hitZ r ax ay c d 0)) d = chord r ax ay c d := by
  rw [drift_line, hit_time st, div_mul_cancel₀ _ st.tilted.ne']; ring

/-- the wall normal at `v` -/
noncomputable def normalAt (r ax ay : ℝ) (v : V3 ℝ) : V3 ℝ := ⟨(v.x - ax) / r, (v.y - ay) / r, 0⟩

theorem normal_dot (v d : V3 ℝ) : dot (normalAt r ax ay v) d = drift ax ay v d / r := by
  simp only [dot, normalAt, drift]; ring

/-- After the reflection everything is as before: same inclination, same chord, and the heights of the remaining reflections are the same. -/
theorem bounce_state (hr : 0 < r) {c d : V3 ℝ} (st : St r ax ay c d) (v d' : V3 ℝ) (hv : v = lineAt c d (hitZ r ax ay c d 0)) (hd' : d' = mirror d (normalAt r ax ay v)) :
    St r ax ay v d' ∧ lateral d' = lateral d ∧ d'.z = d.z ∧ chord r ax ay v d' = chord r ax ay c d ∧ ∀ k, hitZ r ax ay v d' k = hitZ r ax ay c d (k + 1) := by
  have h1 := hit_off st
  have h2 := hit_drift st
  have h3 := hit_time st
  rw [← hv] at h1 h2
  have hdn : dot (normalAt r ax ay v) d = chord r ax ay c d / r := by rw [normal_dot, h2]
  have hS : 0 ≤ chord r ax ay c d := Real.sqrt_nonneg _
  have hz : d'.z = d.z := by rw [hd']; simp [mirror, normalAt]
  have hx : d'.x = d.x - 2 * (chord r ax ay c d / r) * ((v.x - ax) / r) := by rw [hd', ← hdn]; rfl
  have hy : d'.y = d.y - 2 * (chord r ax ay c d / r) * ((v.y - ay) / r) := by rw [hd', ← hdn]; rfl
  have hl : lateral d' = lateral d := by
    unfold lateral
    rw [hx, hy]
    unfold off at h1; unfold drift at h2
    generalize chord r ax ay c d = S at *
    field_simp
    linear_combination 4 * S ^ 2 * h1 - 4 * S * r ^ 2 * h2
  have hdr : drift ax ay v d' = -chord r ax ay c d := by
    unfold drift
    rw [hx, hy]
    unfold off at h1; unfold drift at h2
    generalize chord r ax ay c d = S at *
    field_simp
    linear_combination r ^ 2 * h2 - 2 * S * h1
  have hch : chord r ax ay v d' = chord r ax ay c d := by
    conv_lhs => unfold chord
    rw [hdr, hl, h1, sub_self, mul_zero, add_zero, neg_sq, Real.sqrt_sq hS]
  refine ⟨⟨?_, by rw [hz]; exact st.down, by rw [hl]; exact st.tilted, h1.le⟩, hl, hz, hch, ?_⟩
  · have := st.unit
    unfold dot at this ⊢
    unfold lateral at hl
    rw [hz]; nlinarith
  · intro k
    have hvz : v.z = hitZ r ax ay c d 0 := by rw [hv]; rfl
    have := st.tilted
    unfold hitZ at hvz ⊢
    rw [hch, hdr, hl, hz, hvz]
    push_cast
    field_simp
    ring

/-- a straight capillary with room around it in the optic -/
structure Room (D : Descr ℝ) (r X ax ay ρ : ℝ) : Prop where
  pos : 0 < X
  wide : r ≤ ρ
  hex : ∀ x y : ℝ, (x - ax) ^ 2 + (y - ay) ^ 2 ≤ ρ ^ 2 → InHex X x y
  single : D.n_cap ≤ 3 → ∀ x y : ℝ, (x - ax) ^ 2 + (y - ay) ^ 2 ≤ r ^ 2 → x ^ 2 + y ^ 2 < X ^ 2 ∧ x ^ 2 + y ^ 2 < X

theorem oblique (s : Sound D capx capy) (t : Tube D capx capy r X ax ay) {c d : V3 ℝ} (st : St r ax ay c d) : Oblique D capx capy d := by
  have hd := st.down
  refine ⟨st.unit, hd, ?_, ?_⟩
  · intro i hi
    simp only [genCoeff, axisPt, t.cap i hi.le, t.cap _ hi, t.axX i hi.le, t.axX _ hi, t.axY i hi.le, t.axY _ hi, sub_self, zero_div, sub_zero]
    have : (d.x / d.z) ^ 2 + (d.y / d.z) ^ 2 - 0 ^ 2 = lateral d / d.z ^ 2 := by unfold lateral; field_simp; ring
    rw [this]
    have := st.tilted
    positivity
  · intro i hi
    simp only [t.axX i hi.le, t.axX _ hi, t.axY i hi.le, t.axY _ hi, sub_self, mul_zero, zero_add]
    have := s.grid.inc i hi
    have : 0 < d.z * (D.prof.z (i + 1) - D.prof.z i) := mul_pos hd (by linarith)
    exact this.ne'

/-- between here and the next reflection the light is in the capillary -/
theorem between {c d : V3 ℝ} (st : St r ax ay c d) {z : ℝ} (h0 : c.z ≤ z) (h1 : z ≤ hitZ r ax ay c d 0) : off ax ay (lineAt c d z) ≤ r ^ 2 := by
  have h := off_line st.disc z (r := r) (ax := ax) (ay := ay)
  have hl := st.tilted
  have hS := chord_drift st.tilted st.inside
  have ht : (z - c.z) / d.z ≤ (chord r ax ay c d - drift ax ay c d) / lateral d := by
    rw [← hit_time st]
    exact div_le_div_of_nonneg_right (by linarith) st.down.le
  rw [le_div_iff₀ hl] at ht
  have ht0 : 0 ≤ (z - c.z) / d.z := div_nonneg (by linarith) st.down.le
  have := (abs_le.mp hS).1
  have h2 : (lateral d * ((z - c.z) / d.z) + drift ax ay c d) ^ 2 ≤ chord r ax ay c d ^ 2 := by
    apply sq_le_sq'
    · nlinarith [mul_nonneg hl.le ht0]
    · linarith
  by_contra hn
  push Not at hn
  have : 0 < lateral d * (off ax ay (lineAt c d z) - r ^ 2) := mul_pos hl (by linarith)
  linarith

/-- a little upstream the light's line is not far out -/
theorem behind (hr : 0 < r) {c d : V3 ℝ} (st : St r ax ay c d) {z Δ ρ : ℝ} (h0 : z ≤ c.z) (h1 : c.z - z ≤ Δ) (hρ : r + Δ * Real.sqrt (lateral d) / d.z ≤ ρ) :
    off ax ay (lineAt c d z) ≤ ρ ^ 2 := by
  have hd := st.down
  set b := Real.sqrt (lateral d) with hb
  have hb0 : 0 ≤ b := Real.sqrt_nonneg _
  have hb2 : b ^ 2 = lateral d := Real.sq_sqrt st.tilted.le
  have hoff : 0 ≤ off ax ay c := by unfold off; positivity
  set a := Real.sqrt (off ax ay c) with ha
  have ha0 : 0 ≤ a := Real.sqrt_nonneg _
  have ha2 : a ^ 2 = off ax ay c := Real.sq_sqrt hoff
  have har : a ≤ r := by rw [ha]; exact Real.sqrt_le_iff.mpr ⟨hr.le, st.inside⟩
  set q := (c.z - z) / d.z with hq
  have hq0 : 0 ≤ q := div_nonneg (by linarith) hd.le
  have hqd : q ≤ Δ / d.z := div_le_div_of_nonneg_right h1 hd.le
  have e : off ax ay (lineAt c d z) = off ax ay c - 2 * q * drift ax ay c d + q ^ 2 * lateral d := by
    have : (z - c.z) / d.z = -q := by rw [hq]; ring
    simp only [off, lineAt, this, drift, lateral]; ring
  have hdr : -drift ax ay c d ≤ a * b := by
    have h := drift_cauchy c d (ax := ax) (ay := ay)
    rw [← ha2, ← hb2] at h
    have : |drift ax ay c d| ≤ a * b := abs_le_of_sq_le_sq (by nlinarith) (by positivity)
    exact (neg_le_abs _).trans this
  rw [e, ← ha2, ← hb2]
  have h5 : a + q * b ≤ ρ := by
    have : q * b ≤ Δ / d.z * b := mul_le_mul_of_nonneg_right hqd hb0
    have e : Δ / d.z * b = Δ * b / d.z := by ring
    linarith
  calc a ^ 2 - 2 * q * drift ax ay c d + q ^ 2 * b ^ 2 ≤ (a + q * b) ^ 2 := by nlinarith [mul_le_mul_of_nonneg_left hdr hq0]
    _ ≤ ρ ^ 2 := pow_le_pow_left₀ (by positivity) h5 2

theorem held (t : Tube D capx capy r X ax ay) {ρ Δ : ℝ} (rm : Room D r X ax ay ρ) (hΔ : ∀ i < D.prof.nmax, D.prof.z (i + 1) - D.prof.z i ≤ Δ)
    {c d : V3 ℝ} (st : St r ax ay c d) (hρ : r + Δ * Real.sqrt (lateral d) / d.z ≤ ρ) {zend : ℝ} (h1 : zend ≤ hitZ r ax ay c d 0) (hL : c.z ≤ D.prof.z D.prof.nmax) :
    Held D c d zend := by
  intro i hi hp hz
  rw [t.ext i hi.le]
  apply rm.hex
  change off ax ay (lineAt c d (D.prof.z i)) ≤ ρ ^ 2
  rcases le_total c.z (D.prof.z i) with h | h
  · exact (between st h (by linarith)).trans (pow_le_pow_left₀ t.rad.le rm.wide 2)
  · refine behind t.rad st h ?_ hρ
    have h2 : c.z ≤ D.prof.z (i + 1) := by
      by_cases h3 : i + 1 < D.prof.nmax
      · by_contra h4
        have := hp (i + 1) h3 (by linarith)
        omega
      · rw [show i + 1 = D.prof.nmax by omega]; exact hL
    linarith [hΔ i hi]

theorem find_segment {z : Nat → ℝ} {w : ℝ} : ∀ n : Nat, z 0 ≤ w → w < z n → ∃ j < n, z j ≤ w ∧ w < z (j + 1) := by
  intro n
  induction n with
  | zero => intro a b; linarith
  | succ n ih =>
    intro a b
    by_cases h : w < z n
    · obtain ⟨j, hj, x⟩ := ih a h
      exact ⟨j, by omega, x⟩
    · exact ⟨n, by omega, by linarith, b⟩

/-- one leg of the zigzag -/
theorem leg (s : Sound D capx capy) (t : Tube D capx capy r X ax ay) {ρ Δ : ℝ} (rm : Room D r X ax ay ρ) (hΔ : ∀ i < D.prof.nmax, D.prof.z (i + 1) - D.prof.z i ≤ Δ)
    {c d : V3 ℝ} (st : St r ax ay c d) (hρ : r + Δ * Real.sqrt (lateral d) / d.z ≤ ρ) (hz : 0 ≤ c.z) (h5 : c.z + 1 / 10 ^ 5 ≤ hitZ r ax ay c d 0)
    (hseen : ∀ i ≤ D.prof.nmax, ¬ (D.prof.z i ≤ hitZ r ax ay c d 0 ∧ hitZ r ax ay c d 0 < D.prof.z i + 1 / 10 ^ 10)) (hL : hitZ r ax ay c d 0 < D.prof.z D.prof.nmax)
    (hst : 1 / 10 ^ 19 ≤ chord r ax ay c d / r) :
    ∃ j, Leg D capx capy c d j (hitZ r ax ay c d 0) ∧ wallNormal D capx capy j (lineAt c d (hitZ r ax ay c d 0)) = normalAt r ax ay (lineAt c d (hitZ r ax ay c d 0)) := by
  have p5 : (0:ℝ) < 1 / 10 ^ 5 := by norm_num
  obtain ⟨j, hj, a, b⟩ := find_segment (w := hitZ r ax ay c d 0) D.prof.nmax (by rw [s.grid.start]; linarith) hL
  have hw := hit_off st
  have hn : wallNormal D capx capy j (lineAt c d (hitZ r ax ay c d 0)) = normalAt r ax ay (lineAt c d (hitZ r ax ay c d 0)) := wallNormal_straight t s.grid hj hw
  have hdn : dot (normalAt r ax ay (lineAt c d (hitZ r ax ay c d 0))) d = chord r ax ay c d / r := by rw [normal_dot, hit_drift st]
  have hd := st.down
  have hS := chord_drift st.tilted st.inside
  refine ⟨j, ⟨hj, ⟨a, b.le, (onWall_straight t hj _).mpr hw⟩, ?_, h5, ?_, hL, by rw [hn, hdn]; exact hst, ?_, held t rm hΔ st hρ (le_refl _) (by linarith), ?_⟩, hn⟩
  · intro i z' hi hc hz'
    have := (onWall_straight t hi _).mp hc.2.2
    rcases (wall_iff st.down st.tilted st.inside _).mp this with h | h
    · exact h.ge
    · exfalso
      have : d.z * ((-chord r ax ay c d - drift ax ay c d) / lateral d) ≤ 0 := by
        apply mul_nonpos_of_nonneg_of_nonpos hd.le
        apply div_nonpos_of_nonpos_of_nonneg _ st.tilted.le
        have := (abs_le.mp hS).1
        linarith
      linarith
  · by_contra h
    exact hseen j hj.le ⟨a, by linarith⟩
  · rw [hn, hdn]
    have h1 := drift_cauchy (lineAt c d (hitZ r ax ay c d 0)) d (ax := ax) (ay := ay)
    rw [hit_drift st, hw] at h1
    have h2 : lateral d < 1 := by
      have := st.unit
      unfold dot at this
      unfold lateral
      nlinarith [mul_pos hd hd]
    have hr := t.rad
    rw [div_lt_one hr]
    have : 0 < r ^ 2 := by positivity
    nlinarith [Real.sqrt_nonneg (drift ax ay c d ^ 2 + lateral d * (r ^ 2 - off ax ay c)), sq_nonneg (chord r ax ay c d - r)]
  · refine ⟨X, ⟨j, hj, a, b.le, ?_⟩, rm.pos, ?_⟩
    · rw [t.ext j hj.le, t.ext _ hj]; simp [linAt]
    · have hw' : ((lineAt c d (hitZ r ax ay c d 0)).x - ax) ^ 2 + ((lineAt c d (hitZ r ax ay c d 0)).y - ay) ^ 2 ≤ r ^ 2 := hw.le
      split
      · rename_i hm
        exact rm.single hm _ _ hw'
      · exact rm.hex _ _ (hw'.trans (pow_le_pow_left₀ t.rad.le rm.wide 2))

/-- what a reflection with the angle whose cosine (to the wall normal) is `q` leaves of a channel, if the part `φ` of the light is polarised perpendicular to
the plane of incidence -/
noncomputable def leaves (D : Descr ℝ) (q : ℝ) (ch : Chan ℝ) (φ : ℝ) : ℝ :=
  reflTot (reflN ch.e D.density ch.scatf ch.amu) (Real.arccos q) φ * roughFactor D.sig_rough ch.e q

/-- channels after `n` reflections -/
noncomputable def after (D : Descr ℝ) (q : ℝ) (φ : Nat → ℝ) (n : Nat) (cs : List (Chan ℝ)) : List (Chan ℝ) :=
  cs.map fun ch => { ch with w := ch.w * ∏ k ∈ Finset.range n, leaves D q ch (φ k) }

theorem share_bounds (E n d : V3 ℝ) : 0 ≤ dot (vnorm E) (sDir n d) ^ 2 ∧ dot (vnorm E) (sDir n d) ^ 2 ≤ 1 := by
  refine ⟨sq_nonneg _, ?_⟩
  have hu : ∀ u : V3 ℝ, dot (vnorm u) (vnorm u) ≤ 1 := by
    intro u
    by_cases h : dot u u = 0
    · rw [vnorm_zero h]; simp [dot]
    · rw [vnorm_dot u h]
  have h1 := hu E
  have h2 : dot (sDir n d) (sDir n d) ≤ 1 := hu _
  have h3 : 0 ≤ dot (sDir n d) (sDir n d) := by unfold dot; nlinarith [sq_nonneg (sDir n d).x, sq_nonneg (sDir n d).y, sq_nonneg (sDir n d).z]
  have hc : dot (vnorm E) (sDir n d) ^ 2 ≤ dot (vnorm E) (vnorm E) * dot (sDir n d) (sDir n d) := by
    generalize vnorm E = a
    generalize sDir n d = b
    unfold dot
    nlinarith [sq_nonneg (a.x * b.y - a.y * b.x), sq_nonneg (a.x * b.z - a.z * b.x), sq_nonneg (a.y * b.z - a.z * b.y)]
  calc _ ≤ _ := hc
    _ ≤ 1 * 1 := by apply mul_le_mul h1 h2 h3 (by norm_num)
    _ = 1 := by norm_num

/-- position and direction after the next reflection -/
noncomputable def next (r ax ay : ℝ) (p : V3 ℝ × V3 ℝ) : V3 ℝ × V3 ℝ :=
  let v := lineAt p.1 p.2 (hitZ r ax ay p.1 p.2 0)
  (v, mirror p.2 (normalAt r ax ay v))

/-- the part of the light that is polarised perpendicular to the plane of incidence at reflection `k` (counted from 0) of the zigzag from `c`, `d`, as the code has it:
of the electric vector `E` at first, of the normalised vector without the signs of its components later (C90) -/
noncomputable def share (r ax ay : ℝ) (E c d : V3 ℝ) (k : Nat) : ℝ :=
  let p := (next r ax ay)^[k] (c, d)
  dot (vnorm (if k = 0 then E else absV (vnorm E))) (sDir (normalAt r ax ay (lineAt p.1 p.2 (hitZ r ax ay p.1 p.2 0))) p.2) ^ 2

theorem share_unit (r ax ay : ℝ) (E c d : V3 ℝ) (k : Nat) : 0 ≤ share r ax ay E c d k ∧ share r ax ay E c d k ≤ 1 := share_bounds _ _ _

theorem absV_again (E : V3 ℝ) : absV (vnorm (absV (vnorm E))) = absV (vnorm E) := by
  have ha : ∀ u : V3 ℝ, absV (absV u) = absV u := by intro u; simp [absV]
  by_cases h : dot E E = 0
  · have h0 : vnorm E = ⟨0, 0, 0⟩ := vnorm_zero h
    rw [h0]
    have : absV (⟨0, 0, 0⟩ : V3 ℝ) = ⟨0, 0, 0⟩ := by simp [absV]
    rw [this, vnorm_zero (by simp [dot]), this]
  · have hu : dot (absV (vnorm E)) (absV (vnorm E)) = 1 := by rw [absV_dot, vnorm_dot E h]
    rw [vnorm_unit _ hu, ha]

theorem share_succ (r ax ay : ℝ) (E c d : V3 ℝ) (k : Nat) :
    share r ax ay E c d (k + 1) = share r ax ay (absV (vnorm E)) (next r ax ay (c, d)).1 (next r ax ay (c, d)).2 k := by
  unfold share
  rw [Function.iterate_succ_apply]
  cases k with
  | zero => rfl
  | succ k => simp only [Nat.succ_ne_zero, if_false, absV_again]

theorem after_zero (q : ℝ) (φ : Nat → ℝ) (cs : List (Chan ℝ)) : after D q φ 0 cs = cs := by
  simp [after]

theorem after_succ (q : ℝ) (φ : Nat → ℝ) (n : Nat) (cs : List (Chan ℝ)) :
    after D q φ (n + 1) cs = after D q (fun k => φ (k + 1)) n (cs.map fun ch => { ch with w := ch.w * leaves D q ch (φ 0) }) := by
  unfold after
  rw [List.map_map]
  apply List.map_congr_left
  intro ch _
  simp only [Function.comp, Chan.mk.injEq, true_and, and_true]
  rw [Finset.prod_range_succ']
  simp only [leaves]
  ring

theorem weaker_eq {n d E : V3 ℝ} {q : ℝ} (h : dot n d = q) (cs : List (Chan ℝ)) :
    cs.map (weaker D n d E) = cs.map fun ch => { ch with w := ch.w * leaves D q ch (dot (vnorm E) (sDir n d) ^ 2) } := by
  apply List.map_congr_left
  intro ch _
  simp only [weaker, h, leaves, Chan.mk.injEq, true_and, and_true]
  ring

/-- how a way in a straight capillary with `N` reflections before the exit ends -/
structure Zigzags (D : Descr ℝ) (r ax ay : ℝ) (c d : V3 ℝ) (cs : List (Chan ℝ)) (N : Nat) (f : End) (m : Nat) (len : ℝ) (c' d' : V3 ℝ) (cs' : List (Chan ℝ)) (φ : Nat → ℝ) : Prop where
  inclination : d'.z = d.z
  len : len = (c'.z - c.z) / d.z
  out : f = .out → m = N ∧ cs' = after D (chord r ax ay c d / r) φ N cs ∧ (c'.z = if N = 0 then c.z else hitZ r ax ay c d (N - 1)) ∧ (0 < N → Alive cs')
  absorbed : f = .absorbed → m < N ∧ cs' = after D (chord r ax ay c d / r) φ (m + 1) cs ∧ c'.z = hitZ r ax ay c d m ∧ ¬ Alive cs'

theorem gap_len {c d : V3 ℝ} (st : St r ax ay c d) {z : ℝ} (h : c.z ≤ z) : gap (lineAt c d z) c = (z - c.z) / d.z := by
  have hd := st.down
  have h1 := st.unit
  unfold gap
  simp only [lineAt]
  have e : (c.x + (z - c.z) / d.z * d.x - c.x) ^ 2 + (c.y + (z - c.z) / d.z * d.y - c.y) ^ 2 + (z - c.z) ^ 2 = ((z - c.z) / d.z) ^ 2 := by
    have h2 : (z - c.z) ^ 2 = ((z - c.z) / d.z) ^ 2 * (d.z * d.z) := by field_simp
    unfold dot at h1
    linear_combination h2 + ((z - c.z) / d.z) ^ 2 * h1
  rw [e, Real.sqrt_sq (div_nonneg (by linarith) hd.le)]

/-- The whole way through a straight capillary. -/
theorem ways (s : Sound D capx capy) (t : Tube D capx capy r X ax ay) {ρ Δ : ℝ} (rm : Room D r X ax ay ρ) (hΔ : ∀ i < D.prof.nmax, D.prof.z (i + 1) - D.prof.z i ≤ Δ) :
    ∀ (N : Nat) (c d E : V3 ℝ) (cs : List (Chan ℝ)), St r ax ay c d → r + Δ * Real.sqrt (lateral d) / d.z ≤ ρ → 0 ≤ c.z → c.z ≤ D.prof.z D.prof.nmax →
      (0 < N → c.z + 1 / 10 ^ 5 ≤ hitZ r ax ay c d 0) → (1 < N → 1 / 10 ^ 5 ≤ 2 * chord r ax ay c d * d.z / lateral d) →
      (0 < N → 1 / 10 ^ 19 ≤ chord r ax ay c d / r) →
      (∀ k < N, ∀ i ≤ D.prof.nmax, ¬ (D.prof.z i ≤ hitZ r ax ay c d k ∧ hitZ r ax ay c d k < D.prof.z i + 1 / 10 ^ 10)) →
      (∀ k < N, hitZ r ax ay c d k < D.prof.z D.prof.nmax) → D.prof.z D.prof.nmax < hitZ r ax ay c d N →
      ∃ (f : End) (m : Nat) (len : ℝ) (c' d' E' : V3 ℝ) (cs' : List (Chan ℝ)),
        Way D capx capy c d E cs f m len c' d' E' cs' ∧ Zigzags D r ax ay c d cs N f m len c' d' cs' (share r ax ay E c d) := by
  intro N
  induction N with
  | zero =>
    intro c d E cs st hρ hz hzL _ _ _ _ _ hN
    refine ⟨.out, 0, 0, c, d, E, cs, .out (oblique s t st) ⟨?_, held t rm hΔ st hρ hN.le hzL⟩, ⟨rfl, by simp, ?_, by simp⟩⟩
    · intro i z' hi hc
      have hd := st.down
      have hS := chord_drift st.tilted st.inside
      have := (onWall_straight t hi _).mp hc.2.2
      rcases (wall_iff st.down st.tilted st.inside _).mp this with h | h
      · exfalso
        have h2 := hc.2.1
        have h3 := mono_of_step s.grid.inc (show i + 1 ≤ D.prof.nmax from hi) (le_refl _)
        linarith
      · have : d.z * ((-chord r ax ay c d - drift ax ay c d) / lateral d) ≤ 0 := by
          apply mul_nonpos_of_nonneg_of_nonpos hd.le
          apply div_nonpos_of_nonpos_of_nonneg _ st.tilted.le
          have := (abs_le.mp hS).1
          linarith
        have p5 : (0:ℝ) < 1 / 10 ^ 5 := by norm_num
        linarith
    · intro _
      exact ⟨rfl, (after_zero _ _ _).symm, by simp, by simp⟩
  | succ N ih =>
    intro c d E cs st hρ hz hzL h5 hsp hst hseen hL hN
    obtain ⟨j, lg, hn⟩ := leg s t rm hΔ st hρ hz (h5 (by omega)) (hseen 0 (by omega)) (hL 0 (by omega)) (hst (by omega))
    have p5 : (0:ℝ) < 1 / 10 ^ 5 := by norm_num
    have h5' := h5 (by omega)
    have hg := gap_len st (z := hitZ r ax ay c d 0) (by linarith)
    have hdn : dot (normalAt r ax ay (lineAt c d (hitZ r ax ay c d 0))) d = chord r ax ay c d / r := by rw [normal_dot, hit_drift st]
    obtain ⟨st', hl, hdz, hch, hk⟩ := bounce_state t.rad st (lineAt c d (hitZ r ax ay c d 0)) _ rfl rfl
    have hw := weaker_eq (D := D) (E := E) hdn cs
    by_cases hal : Alive (cs.map (weaker D (wallNormal D capx capy j (lineAt c d (hitZ r ax ay c d 0))) d E))
    · have hvz : (lineAt c d (hitZ r ax ay c d 0)).z = hitZ r ax ay c d 0 := rfl
      have hspace : hitZ r ax ay c d 1 = hitZ r ax ay c d 0 + 2 * chord r ax ay c d * d.z / lateral d := by
        unfold hitZ
        push_cast
        ring
      have hhit0 : hitZ r ax ay (lineAt c d (hitZ r ax ay c d 0)) (mirror d (normalAt r ax ay (lineAt c d (hitZ r ax ay c d 0)))) 0 = hitZ r ax ay c d 1 := hk 0
      obtain ⟨f, m, len, c', d', E', cs', w, z⟩ := ih (lineAt c d (hitZ r ax ay c d 0)) (mirror d (normalAt r ax ay (lineAt c d (hitZ r ax ay c d 0)))) (absV (vnorm E))
        (cs.map (weaker D (wallNormal D capx capy j (lineAt c d (hitZ r ax ay c d 0))) d E)) st' (by rw [hl, hdz]; exact hρ) (by rw [hvz]; linarith) (by rw [hvz]; exact (hL 0 (by omega)).le)
        (by intro h; rw [hvz, hhit0, hspace]; linarith [hsp (by omega)]) (by intro h; rw [hch, hdz, hl]; exact hsp (by omega)) (by intro _; rw [hch]; exact hst (by omega))
        (by intro k hk'; rw [hk]; exact hseen (k + 1) (by omega)) (by intro k hk'; rw [hk]; exact hL (k + 1) (by omega)) (by rw [hk]; exact hN)
      refine ⟨f, m + 1, _, c', d', E', cs', .bounce (oblique s t st) lg hal (by rw [hn] at w ⊢; exact w), ?_⟩
      have hshare : (fun k => share r ax ay E c d (k + 1)) = share r ax ay (absV (vnorm E)) (lineAt c d (hitZ r ax ay c d 0)) (mirror d (normalAt r ax ay (lineAt c d (hitZ r ax ay c d 0)))) := by
        funext k; exact share_succ r ax ay E c d k
      refine ⟨z.inclination.trans hdz, ?_, ?_, ?_⟩
      · rw [z.len, hg, hdz, hvz]; ring
      · intro hf
        obtain ⟨a, b, e, g⟩ := z.out hf
        refine ⟨by omega, ?_, ?_, ?_⟩
        · rw [b, hch, hn, hw, after_succ, hshare]; rfl
        · rw [e]
          split
          · rename_i h0; subst h0; simp [hvz]
          · rename_i h0
            rw [hk, if_neg (by omega)]
            congr 1; omega
        · intro _
          by_cases h0 : 0 < N
          · exact g h0
          · have : N = 0 := by omega
            subst this
            rw [b, after_zero]; exact hal
      · intro hf
        obtain ⟨a, b, e, g⟩ := z.absorbed hf
        refine ⟨by omega, ?_, by rw [e, hk], g⟩
        rw [b, hch, hn, hw]
        rw [after_succ _ _ (m + 1) cs, hshare]; rfl
    · refine ⟨.absorbed, 0, _, _, _, _, _, .absorbed (oblique s t st) lg hal, ?_⟩
      refine ⟨rfl, hg, by simp, ?_⟩
      · intro _
        refine ⟨by omega, ?_, rfl, hal⟩
        rw [hn, hw, after_succ, after_zero]; rfl

/-- what is left of a unit weight of energy `e` after `n` reflections, all with the cosine `q` to the wall normal, of which the `k`th finds the part `φ k` of
the light polarised perpendicular to the plane of incidence: the product of the reflectivities and roughness factors -/
noncomputable def kept (lib : Xray ℝ) (D : Descr ℝ) (q : ℝ) (φ : Nat → ℝ) (n : Nat) (e : ℝ) : ℝ :=
  ∏ k ∈ Finset.range n, reflTot (reflN e D.density (scatfOf lib D e) (amuOf lib D e)) (Real.arccos q) (φ k) * roughFactor D.sig_rough e q

theorem after_kept (lib : Xray ℝ) (D : Descr ℝ) (q : ℝ) (φ : Nat → ℝ) (n : Nat) (es : List ℝ) :
    (after D q φ n (freshChans lib D es)).map (·.w) = es.map (kept lib D q φ n) := by
  simp only [after, freshChans, List.map_map]
  apply List.map_congr_left
  intro e _
  simp [kept, leaves]

/-- the `N` reflections that the zigzag from `c`, `d` makes before the exit, none closer than 10⁻⁵ to the one before (or to the start), none within 10⁻¹⁰
downstream of a profile point, and not too grazing -/
structure Hits (D : Descr ℝ) (r ax ay : ℝ) (c d : V3 ℝ) (N : Nat) : Prop where
  first : 0 < N → c.z + 1 / 10 ^ 5 ≤ hitZ r ax ay c d 0
  spaced : 1 < N → 1 / 10 ^ 5 ≤ 2 * chord r ax ay c d * d.z / lateral d
  steep : 0 < N → 1 / 10 ^ 19 ≤ chord r ax ay c d / r
  seen : ∀ k < N, ∀ i ≤ D.prof.nmax, ¬ (D.prof.z i ≤ hitZ r ax ay c d k ∧ hitZ r ax ay c d k < D.prof.z i + 1 / 10 ^ 10)
  before : ∀ k < N, hitZ r ax ay c d k < D.prof.z D.prof.nmax
  last : D.prof.z D.prof.nmax < hitZ r ax ay c d N

/-- what a launch through a straight capillary with `N` reflections before the exit does -/
inductive Passes (lib : Xray ℝ) (D : Descr ℝ) (es : List ℝ) (q : ℝ) (z : Nat → ℝ) (z0 : ℝ) (N : Nat) (φ : Nat → ℝ) : Int → List ℝ → Int → ℝ → Prop where
  /-- out after all `N` reflections, with something left of one energy at least -/
  | out : (0 < N → ∃ e ∈ es, 1 / 10 ^ 4 ≤ kept lib D q φ N e) → Passes lib D es q z z0 N φ 1 (es.map (kept lib D q φ N)) N (if N = 0 then z0 else z (N - 1))
  /-- all energies absorbed at reflection `m + 1` -/
  | absorbed (m : Nat) : m < N → (∀ e ∈ es, kept lib D q φ (m + 1) e < 1 / 10 ^ 4) → Passes lib D es q z z0 N φ 0 (es.map (kept lib D q φ (m + 1))) m (z m)

theorem launch_straight_at (lib : Xray ℝ) (D : Descr ℝ) (fuel k : Nat) (P : Photon ℝ) (es : List ℝ) (hes : es ≠ []) (hb : ∀ e ∈ es, 1 ≤ e ∧ e ≤ 100)
    (hg : Refracts lib D es) (hsc : scatfRejects D es = false) {qr : Int × Int} (s : Sound D (axX D qr) (axY D qr))
    (hcap : launchCap D P.startC = some qr) (hopen : startsInWall D qr P.startC = false) (hz : 0 ≤ P.startC.z) (hE : dot P.exitE P.exitE ≠ 0)
    (hd : dot P.startD P.startD ≠ 0) {r X ax ay ρ Δ : ℝ} (t : Tube D (axX D qr) (axY D qr) r X ax ay) (rm : Room D r X ax ay ρ)
    (hΔ : ∀ i < D.prof.nmax, D.prof.z (i + 1) - D.prof.z i ≤ Δ) (st : St r ax ay P.startC (vnorm P.startD))
    (hρ : r + Δ * Real.sqrt (lateral (vnorm P.startD)) / (vnorm P.startD).z ≤ ρ) (hzL : P.startC.z ≤ D.prof.z D.prof.nmax)
    {N : Nat} (h : Hits D r ax ay P.startC (vnorm P.startD) N) (hN : N ≤ D.prof.nmax + 1) :
    ∃ (rc : Int) (ws : List ℝ) (P' : Photon ℝ),
      launch lib (some D) false fuel (k + 1) (some P) (some es) true = .ok (rc, .filled ws, some P') ∧
      Passes lib D es (chord r ax ay P.startC (vnorm P.startD) / r) (hitZ r ax ay P.startC (vnorm P.startD)) P.startC.z N
        (share r ax ay P.exitE P.startC (vnorm P.startD)) rc ws P'.i_refl P'.exitC.z ∧
      P'.exitD.z = (vnorm P.startD).z ∧ P'.d_travel = P.d_travel + (P'.exitC.z - P.startC.z) / (vnorm P.startD).z ∧ P'.ext = [] ∧ P'.int = [] := by
  obtain ⟨f, m, len, c', d', E', cs', w, z⟩ := ways s t rm hΔ N P.startC (vnorm P.startD) P.exitE (freshChans lib D es) st hρ hz hzL h.first h.spaced h.steep h.seen h.before h.last
  have hm : m ≤ D.prof.nmax + 1 ∧ (f = .absorbed → m ≤ D.prof.nmax) := by
    cases f with
    | out => exact ⟨by rw [(z.out rfl).1]; exact hN, by simp⟩
    | absorbed => have := (z.absorbed rfl).1; exact ⟨by omega, fun _ => by omega⟩
  obtain ⟨P', h1, h2, h3, h4, h5, h6, h7, h8⟩ := launch_goes_way lib D fuel k P es hes hb hg hsc s hcap hopen hz hE hd w hm.1 hm.2
  generalize share r ax ay P.exitE P.startC (vnorm P.startD) = φ at *
  refine ⟨_, _, P', h1, ?_, by rw [h3]; exact z.inclination, by rw [h6, z.len, h2], h7, h8⟩
  rw [h5, h2]
  have alive_iff : ∀ n, Alive (after D (chord r ax ay P.startC (vnorm P.startD) / r) φ n (freshChans lib D es)) ↔
      ∃ e ∈ es, 1 / 10 ^ 4 ≤ kept lib D (chord r ax ay P.startC (vnorm P.startD) / r) φ n e := by
    intro n
    have hk := after_kept lib D (chord r ax ay P.startC (vnorm P.startD) / r) φ n es
    unfold Alive
    constructor
    · rintro ⟨ch, hc, hw⟩
      have : ch.w ∈ (after D (chord r ax ay P.startC (vnorm P.startD) / r) φ n (freshChans lib D es)).map (·.w) := List.mem_map.mpr ⟨ch, hc, rfl⟩
      rw [hk] at this
      obtain ⟨e, he, hx⟩ := List.mem_map.mp this
      exact ⟨e, he, by rw [hx]; exact hw⟩
    · rintro ⟨e, he, hw⟩
      have : kept lib D (chord r ax ay P.startC (vnorm P.startD) / r) φ n e ∈ es.map (kept lib D (chord r ax ay P.startC (vnorm P.startD) / r) φ n) := List.mem_map.mpr ⟨e, he, rfl⟩
      rw [← hk] at this
      obtain ⟨ch, hc, hx⟩ := List.mem_map.mp this
      exact ⟨ch, hc, by rw [hx]; exact hw⟩
  cases f with
  | out =>
    obtain ⟨rfl, b, e, g⟩ := z.out rfl
    rw [b, after_kept, e]
    exact .out (fun h0 => (alive_iff _).mp (by rw [← b]; exact g h0))
  | absorbed =>
    obtain ⟨a, b, e, g⟩ := z.absorbed rfl
    rw [b, after_kept, e]
    refine .absorbed m a ?_
    rw [b, alive_iff] at g
    push Not at g
    exact g

/-- **C92.** One straight capillary of radius `r` in a tube of outer radius `X` (with some room between them), and a photon that starts inside it, tilted against the
axis, and reaches the wall `N` times before the exit.  All these reflections take place under the same angle and at constant distance from each
other.  A launch returns 1, if after all `N` of them an energy has at least 10⁻⁴ left, and then each weight is the product of the `N` reflectivities (`kept`, `share`); or
it returns 0, as all energies fell below 10⁻⁴ at reflection `m + 1`.  The photon's reflection count, place, inclination and travelled distance are
those of the zigzag. -/
theorem launch_straight (lib : Xray ℝ) (D : Descr ℝ) (fuel k : Nat) (P : Photon ℝ) (es : List ℝ) (hes : es ≠ []) (hb : ∀ e ∈ es, 1 ≤ e ∧ e ≤ 100)
    (hg : Refracts lib D es) (hsc : scatfRejects D es = false) (h1 : 1 ≤ D.n_cap) (h3 : D.n_cap ≤ 3) (g : Grid D.prof) {r X Δ : ℝ} (hr : 0 < r)
    (hcap : ∀ i ≤ D.prof.nmax, D.prof.cap i = r) (hext : ∀ i ≤ D.prof.nmax, D.prof.ext i = X)
    (hΔ : ∀ i < D.prof.nmax, D.prof.z (i + 1) - D.prof.z i ≤ Δ)
    (hX : 0 < X) (hroom : r + Δ * Real.sqrt (lateral (vnorm P.startD)) / (vnorm P.startD).z ≤ Real.sqrt 3 / 2 * X) (hX2 : r ^ 2 < X)
    (hin : P.startC.x ^ 2 + P.startC.y ^ 2 ≤ r ^ 2) (hz : 0 ≤ P.startC.z) (hzL : P.startC.z ≤ D.prof.z D.prof.nmax)
    (hdown : 0 < P.startD.z) (htilt : 0 < lateral P.startD) (hE : dot P.exitE P.exitE ≠ 0)
    {N : Nat} (h : Hits D r 0 0 P.startC (vnorm P.startD) N) (hN : N ≤ D.prof.nmax + 1) :
    ∃ (rc : Int) (ws : List ℝ) (P' : Photon ℝ),
      launch lib (some D) false fuel (k + 1) (some P) (some es) true = .ok (rc, .filled ws, some P') ∧
      Passes lib D es (chord r 0 0 P.startC (vnorm P.startD) / r) (hitZ r 0 0 P.startC (vnorm P.startD)) P.startC.z N
        (share r 0 0 P.exitE P.startC (vnorm P.startD)) rc ws P'.i_refl P'.exitC.z ∧
      P'.exitD.z = (vnorm P.startD).z ∧ P'.d_travel = P.d_travel + (P'.exitC.z - P.startC.z) / (vnorm P.startD).z ∧ P'.ext = [] ∧ P'.int = [] := by
  have hd : dot P.startD P.startD ≠ 0 := by
    unfold dot
    nlinarith [mul_pos hdown hdown, sq_nonneg P.startD.x, sq_nonneg P.startD.y]
  obtain ⟨q, hq, hv, hq1⟩ := vnorm_scale P.startD hdown
  have hvz : 0 < (vnorm P.startD).z := by rw [hv]; exact mul_pos hq hdown
  have hlat : 0 < lateral (vnorm P.startD) := by
    have : lateral (vnorm P.startD) = q ^ 2 * lateral P.startD := by rw [hv]; simp only [lateral]; ring
    rw [this]; positivity
  have hΔ0 : 0 ≤ Δ := by have := hΔ 0 g.two; have := g.inc 0 g.two; linarith
  have hadd : 0 ≤ Δ * Real.sqrt (lateral (vnorm P.startD)) / (vnorm P.startD).z := by positivity
  have h34 : (Real.sqrt 3 / 2 * X) ^ 2 = 3 / 4 * X ^ 2 := by
    rw [mul_pow, div_pow, Real.sq_sqrt (by norm_num)]; ring
  have hrX : r ≤ Real.sqrt 3 / 2 * X := by linarith
  have hr2 : r ^ 2 ≤ 3 / 4 * X ^ 2 := by rw [← h34]; exact pow_le_pow_left₀ hr.le hrX 2
  have hrX' : r ≤ X := by nlinarith
  have hsh : nShells (α := ℝ) D.n_cap = 0 := (nShells_zero_iff D.n_cap h1).mpr h3
  have hax : ∀ i, axX D (0, 0) i = 0 := by intro i; rw [axX_eq D h1]; simp [centreX]
  have hay : ∀ i, axY D (0, 0) i = 0 := by intro i; rw [axY_eq D h1]; simp [centreY]
  have hval : ∀ {f : Nat → ℝ} {v : ℝ}, (∀ i ≤ D.prof.nmax, f i = v) → ValueAt D.prof f P.startC.z v := by
    intro f v hf
    rcases hzL.lt_or_eq with hlt | heq
    · obtain ⟨j, hj, a, b⟩ := find_segment (w := P.startC.z) D.prof.nmax (by rw [g.start]; exact hz) hlt
      exact ⟨j, hj, a, b.le, by rw [hf j hj.le, hf _ hj]; simp [linAt]⟩
    · have h2 := g.two
      refine ⟨D.prof.nmax - 1, by omega, ?_, ?_, ?_⟩
      · rw [heq]; exact mono_of_step g.inc (by omega) (le_refl _)
      · rw [heq, show D.prof.nmax - 1 + 1 = D.prof.nmax by omega]
      · rw [hf _ (by omega), hf _ (by omega)]; simp [linAt]
  have hsq : Real.sqrt (P.startC.x ^ 2 + P.startC.y ^ 2) ≤ r := Real.sqrt_le_iff.mpr ⟨hr.le, hin⟩
  have hex : launchExt D.prof P.startC.z = X := (launchExt_value g hz hzL).unique g (hval hext)
  have hcp : launchCap D P.startC = some (0, 0) := by
    have hN : ¬ launchCap D P.startC = none := by
      rw [launchCap_none h1 (by rw [hex]; exact hX), hex]
      simp only [Outside, h3, if_true, not_lt]
      linarith
    obtain ⟨qr, hq⟩ := Option.ne_none_iff_exists'.mp hN
    rcases launchCap_some hq with ⟨-, h⟩ | ⟨h, -⟩
    · rw [hq, h]
    · exact absurd hsh h
  have hop : startsInWall D (0, 0) P.startC = false := by
    rw [← Bool.not_eq_true, startsInWall_iff g h1 hz hzL (hval hext) (hval hcap) hcp]
    simp only [InGlass, h3, if_true, not_lt]
    exact hsq
  have hhex : ∀ x y : ℝ, (x - 0) ^ 2 + (y - 0) ^ 2 ≤ (Real.sqrt 3 / 2 * X) ^ 2 → InHex X x y := by
    intro x y hxy
    rw [h34, sub_zero, sub_zero] at hxy
    exact ((boundary_one_iff X x y).mp (boundary_contains_disc X x y hX hxy)).2
  have sd : Sound D (axX D (0, 0)) (axY D (0, 0)) := by
    refine ⟨h1, g, fun i hi => by rw [hcap i hi]; exact hr, fun i hi => by rw [hext i hi]; exact hX, ?_⟩
    intro i hi
    rw [hext i hi, hax, hay]
    exact hhex 0 0 (by simp; positivity)
  refine launch_straight_at lib D fuel k P es hes hb hg hsc (qr := (0, 0)) sd hcp hop hz hE hd (X := X) (ρ := Real.sqrt 3 / 2 * X) (Δ := Δ)
    ⟨hcap, hext, fun i _ => hax i, fun i _ => hay i, hr⟩ ⟨hX, hrX, hhex, ?_⟩ hΔ ⟨vnorm_dot _ hd, hvz, hlat, ?_⟩ hroom hzL h hN
  · intro _ x y hxy
    rw [sub_zero, sub_zero] at hxy
    exact ⟨by nlinarith, by linarith⟩
  · unfold off; rw [sub_zero, sub_zero]; exact hin

open Polycap.Tube RoughTube in
/-- a photon on the axis with the slope `zs / zc`, in a tube of which the radius is that slope: it meets the wall at heights 1 and 3 of 4 -/
example (E : V3 ℝ) (hE : dot E E ≠ 0) :
    ∃ (rc : Int) (ws : List ℝ) (P' : Photon ℝ),
      launch zLib (some (tD (zs / zc) 4 1)) false 0 1 (some { exP ⟨0, 0, 0⟩ ⟨zs, 0, zc⟩ 0 with exitE := E }) (some [10]) true = .ok (rc, .filled ws, some P') ∧
      Passes zLib (tD (zs / zc) 4 1) [10] zs (fun k => 2 * k + 1) 0 2 (share (zs / zc) 0 0 E ⟨0, 0, 0⟩ ⟨zs, 0, zc⟩) rc ws P'.i_refl P'.exitC.z := by
  have hc : 0 < zc := by norm_num [zc]
  have hs : 0 < zs := by norm_num [zs]
  have hr : 0 < zs / zc := by positivity
  have hu : dot (⟨zs, 0, zc⟩ : V3 ℝ) ⟨zs, 0, zc⟩ = 1 := by have := zUnit; unfold dot; nlinarith
  have hv : vnorm (⟨zs, 0, zc⟩ : V3 ℝ) = ⟨zs, 0, zc⟩ := vnorm_unit _ hu
  have hl : lateral ⟨zs, 0, zc⟩ = zs ^ 2 := by simp [lateral]
  have hch : chord (zs / zc) 0 0 ⟨0, 0, 0⟩ ⟨zs, 0, zc⟩ = zs * (zs / zc) := by
    unfold chord
    rw [hl]
    simp only [drift, off]
    rw [show ((0 - 0) * zs + (0 - 0) * 0) ^ 2 + zs ^ 2 * ((zs / zc) ^ 2 - ((0 - 0) ^ 2 + (0 - 0) ^ 2)) = (zs * (zs / zc)) ^ 2 by ring, Real.sqrt_sq (by positivity)]
  have hh : hitZ (zs / zc) 0 0 ⟨0, 0, 0⟩ ⟨zs, 0, zc⟩ = fun k : Nat => 2 * (k : ℝ) + 1 := by
    funext k
    unfold hitZ
    rw [hch, hl]
    simp only [drift]
    field_simp
    ring
  have hq : chord (zs / zc) 0 0 ⟨0, 0, 0⟩ ⟨zs, 0, zc⟩ / (zs / zc) = zs := by rw [hch, mul_div_assoc, div_self hr.ne', mul_one]
  have hgl : ∀ e, scatfOf zLib (tD (zs / zc) 4 1) e = 1/2 ∧ amuOf zLib (tD (zs / zc) 4 1) e = 0 := by
    intro e
    simp [amuOf, scatfOf, tD, zLib]
    norm_num
  have gg := r_glass (cs := [rCh 10 1]) (by intro c hc; simp at hc; subst hc; simp [rCh]; norm_num)
  have h := launch_straight zLib (tD (zs / zc) 4 1) 0 0 { exP ⟨0, 0, 0⟩ ⟨zs, 0, zc⟩ 0 with exitE := E } [10] (by simp) (by simp; norm_num)
    ⟨by norm_num [tD], fun e _ => by rw [(hgl e).1]; norm_num, fun e _ => by rw [(hgl e).2], fun e he => by
      rw [(hgl e).1]; simp at he; subst he; exact (gg.chan (rCh 10 1) (by simp)).2.2.2.2⟩
    (t_scatf _ _ _) (by simp [tD]) (by simp [tD]) (tGrid (by norm_num)) (r := zs / zc) (X := 1) (Δ := 4) hr (fun _ _ => rfl) (fun _ _ => rfl)
    (by intro i hi; simp [tD] at hi ⊢; linarith) (by norm_num) (by
      show zs / zc + 4 * Real.sqrt (lateral (vnorm ⟨zs, 0, zc⟩)) / (vnorm ⟨zs, 0, zc⟩).z ≤ _
      rw [hv, hl, Real.sqrt_sq hs.le]
      have h3 : (1:ℝ) ≤ Real.sqrt 3 := by rw [show (1:ℝ) = Real.sqrt 1 by simp]; exact Real.sqrt_le_sqrt (by norm_num)
      have : zs / zc + 4 * zs / zc ≤ 1 / 2 := by norm_num [zs, zc]
      linarith) (by norm_num [zs, zc]) (by simp [exP]; positivity) (by simp [exP]) (by simp [exP, tD]) (by simpa [exP] using hc) (by
      show 0 < lateral ⟨zs, 0, zc⟩
      rw [hl]; positivity) hE (N := 2) (by
      show Hits _ _ 0 0 ⟨0, 0, 0⟩ (vnorm ⟨zs, 0, zc⟩) 2
      rw [hv]
      refine ⟨?_, ?_, ?_, ?_, ?_, ?_⟩
      · intro _; rw [hh]; norm_num
      · intro _; rw [hch, hl]; norm_num [zs, zc]
      · intro _; rw [hq]; norm_num [zs]
      · intro k hk i hi
        rw [hh]
        simp only [tD] at hi ⊢
        interval_cases k <;> interval_cases i <;> norm_num
      · intro k hk
        rw [hh]
        simp only [tD]
        interval_cases k <;> norm_num
      · rw [hh]; simp only [tD]; norm_num) (by simp [tD])
  obtain ⟨rc, ws, P', b, c, -⟩ := h
  refine ⟨rc, ws, P', b, ?_⟩
  have e1 : ({ exP ⟨0, 0, 0⟩ ⟨zs, 0, zc⟩ 0 with exitE := E } : Photon ℝ).startD = ⟨zs, 0, zc⟩ := rfl
  have e2 : ({ exP ⟨0, 0, 0⟩ ⟨zs, 0, zc⟩ 0 with exitE := E } : Photon ℝ).startC = ⟨0, 0, 0⟩ := rfl
  have e3 : ({ exP ⟨0, 0, 0⟩ ⟨zs, 0, zc⟩ 0 with exitE := E } : Photon ℝ).exitE = E := rfl
  rw [e1, e2, e3, hv, hq, hh] at c
  exact c

end Bore
end Polycap
