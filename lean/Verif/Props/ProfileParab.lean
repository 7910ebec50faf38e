import Verif.Props.ProfileGeom
import Mathlib.Tactic.Positivity

/-!
# C78: shape of the paraboloidal profiles

`polycap_profile_new` hands four points to a library fit of a polynomial of degree two
(polycap-profile.c:24-60, 149-169).  What the fit has to deliver is specified here as *least squares*:
no other choice of the three coefficients gives a smaller sum of squared residuals.
-/
namespace Polycap
open CNum

/-- Sum of the squared residuals of the polynomial `c₀ + c₁ x + c₂ x²` at the points. -/
def sumSq (pts : List (ℝ × ℝ)) (c : ℝ × ℝ × ℝ) : ℝ :=
  (pts.map fun q => (q.2 - (c.1 + c.2.1 * q.1 + c.2.2 * q.1 ^ 2)) ^ 2).sum

/-- `c` is a least-squares quadratic for the points. -/
def LeastSquares (pts : List (ℝ × ℝ)) (c : ℝ × ℝ × ℝ) : Prop := ∀ d, sumSq pts c ≤ sumSq pts d

/-- A quadratic polynomial in `t` that never drops below its value at 0 has no linear term. -/
theorem linear_zero {p q : ℝ} (h : ∀ t : ℝ, 0 ≤ t * p + t ^ 2 * q) : p = 0 := by
  by_contra hp
  have hq : 0 ≤ q := by
    by_contra hq
    have hq : q < 0 := not_le.mp hq
    have h1 := h 1
    have h2 := h (-1)
    nlinarith
  have := h (-p / (q + 1) )
  have e : -p / (q + 1) * p + (-p / (q + 1)) ^ 2 * q = - (p ^ 2) / (q + 1) ^ 2 := by
    field_simp; ring
  rw [e] at this
  have h3 : 0 < p ^ 2 / (q + 1) ^ 2 := by positivity
  rw [neg_div] at this
  linarith

/-- The normal equations for four points. -/
theorem ls_normal {x0 x1 x2 x3 y0 y1 y2 y3 : ℝ} {c : ℝ × ℝ × ℝ}
    (h : LeastSquares [(x0, y0), (x1, y1), (x2, y2), (x3, y3)] c) (d : ℝ × ℝ × ℝ) :
    (y0 - (c.1 + c.2.1 * x0 + c.2.2 * x0 ^ 2)) * (d.1 + d.2.1 * x0 + d.2.2 * x0 ^ 2) +
    (y1 - (c.1 + c.2.1 * x1 + c.2.2 * x1 ^ 2)) * (d.1 + d.2.1 * x1 + d.2.2 * x1 ^ 2) +
    (y2 - (c.1 + c.2.1 * x2 + c.2.2 * x2 ^ 2)) * (d.1 + d.2.1 * x2 + d.2.2 * x2 ^ 2) +
    (y3 - (c.1 + c.2.1 * x3 + c.2.2 * x3 ^ 2)) * (d.1 + d.2.1 * x3 + d.2.2 * x3 ^ 2) = 0 := by
  obtain ⟨c0, c1, c2⟩ := c
  obtain ⟨d0, d1, d2⟩ := d
  have := linear_zero (p := -2 * ((y0 - (c0 + c1 * x0 + c2 * x0 ^ 2)) * (d0 + d1 * x0 + d2 * x0 ^ 2) +
    (y1 - (c0 + c1 * x1 + c2 * x1 ^ 2)) * (d0 + d1 * x1 + d2 * x1 ^ 2) +
    (y2 - (c0 + c1 * x2 + c2 * x2 ^ 2)) * (d0 + d1 * x2 + d2 * x2 ^ 2) +
    (y3 - (c0 + c1 * x3 + c2 * x3 ^ 2)) * (d0 + d1 * x3 + d2 * x3 ^ 2)))
    (q := (d0 + d1 * x0 + d2 * x0 ^ 2) ^ 2 + (d0 + d1 * x1 + d2 * x1 ^ 2) ^ 2 +
      (d0 + d1 * x2 + d2 * x2 ^ 2) ^ 2 + (d0 + d1 * x3 + d2 * x3 ^ 2) ^ 2) (by
    intro t
    have := h (c0 + t * d0, c1 + t * d1, c2 + t * d2)
    simp only [sumSq, List.map_cons, List.map_nil, List.sum_cons, List.sum_nil] at this
    linarith)
  dsimp only
  linarith

/-- Conversely a quadratic satisfying the normal equations is a least-squares fit. -/
theorem ls_of_normal {x0 x1 x2 x3 y0 y1 y2 y3 : ℝ} {c : ℝ × ℝ × ℝ}
    (h : ∀ d : ℝ × ℝ × ℝ,
    (y0 - (c.1 + c.2.1 * x0 + c.2.2 * x0 ^ 2)) * (d.1 + d.2.1 * x0 + d.2.2 * x0 ^ 2) +
    (y1 - (c.1 + c.2.1 * x1 + c.2.2 * x1 ^ 2)) * (d.1 + d.2.1 * x1 + d.2.2 * x1 ^ 2) +
    (y2 - (c.1 + c.2.1 * x2 + c.2.2 * x2 ^ 2)) * (d.1 + d.2.1 * x2 + d.2.2 * x2 ^ 2) +
    (y3 - (c.1 + c.2.1 * x3 + c.2.2 * x3 ^ 2)) * (d.1 + d.2.1 * x3 + d.2.2 * x3 ^ 2) = 0) :
    LeastSquares [(x0, y0), (x1, y1), (x2, y2), (x3, y3)] c := by
  intro d
  obtain ⟨c0, c1, c2⟩ := c
  obtain ⟨d0, d1, d2⟩ := d
  have := h (d0 - c0, d1 - c1, d2 - c2)
  simp only [sumSq, List.map_cons, List.map_nil, List.sum_cons, List.sum_nil] at this ⊢
  linarith [sq_nonneg (d0 - c0 + (d1 - c1) * x0 + (d2 - c2) * x0 ^ 2),
    sq_nonneg (d0 - c0 + (d1 - c1) * x1 + (d2 - c2) * x1 ^ 2),
    sq_nonneg (d0 - c0 + (d1 - c1) * x2 + (d2 - c2) * x2 ^ 2),
    sq_nonneg (d0 - c0 + (d1 - c1) * x3 + (d2 - c2) * x3 ^ 2)]

/-- For four points with `x` strictly increasing: the fit meets the first point iff it meets the last
iff the third divided difference of the data vanishes. -/
theorem ls_ends_iff {x0 x1 x2 x3 y0 y1 y2 y3 : ℝ} {c : ℝ × ℝ × ℝ}
    (h : LeastSquares [(x0, y0), (x1, y1), (x2, y2), (x3, y3)] c)
    (h01 : x0 < x1) (h12 : x1 < x2) (h23 : x2 < x3) :
    let Δ := y0 * ((x1 - x2) * (x1 - x3) * (x2 - x3)) - y1 * ((x0 - x2) * (x0 - x3) * (x2 - x3)) +
      y2 * ((x0 - x1) * (x0 - x3) * (x1 - x3)) - y3 * ((x0 - x1) * (x0 - x2) * (x1 - x2))
    (c.1 + c.2.1 * x0 + c.2.2 * x0 ^ 2 = y0 ↔ Δ = 0) ∧
    (c.1 + c.2.1 * x3 + c.2.2 * x3 ^ 2 = y3 ↔ Δ = 0) := by
  intro Δ
  obtain ⟨c0, c1, c2⟩ := c
  have e1 := ls_normal h (x2 * x3, -(x2 + x3), 1)
  have e2 := ls_normal h (x1 * x3, -(x1 + x3), 1)
  have e3 := ls_normal h (x1 * x2, -(x1 + x2), 1)
  dsimp only at e1 e2 e3 ⊢
  set r0 := y0 - (c0 + c1 * x0 + c2 * x0 ^ 2) with hr0
  set r1 := y1 - (c0 + c1 * x1 + c2 * x1 ^ 2) with hr1
  set r2 := y2 - (c0 + c1 * x2 + c2 * x2 ^ 2) with hr2
  set r3 := y3 - (c0 + c1 * x3 + c2 * x3 ^ 2) with hr3
  have hΔ : Δ = r0 * ((x1 - x2) * (x1 - x3) * (x2 - x3)) - r1 * ((x0 - x2) * (x0 - x3) * (x2 - x3)) +
      r2 * ((x0 - x1) * (x0 - x3) * (x1 - x3)) - r3 * ((x0 - x1) * (x0 - x2) * (x1 - x2)) := by
    rw [hr0, hr1, hr2, hr3]; simp only [Δ]; ring
  have a1 : r1 * ((x1 - x2) * (x1 - x3)) = - (r0 * ((x0 - x2) * (x0 - x3))) := by linear_combination e1
  have a2 : r2 * ((x2 - x1) * (x2 - x3)) = - (r0 * ((x0 - x1) * (x0 - x3))) := by linear_combination e2
  have a3 : r3 * ((x3 - x1) * (x3 - x2)) = - (r0 * ((x0 - x1) * (x0 - x2))) := by linear_combination e3
  have p01 := sub_neg.mpr h01
  have p12 := sub_neg.mpr h12
  have p23 := sub_neg.mpr h23
  have p02 := sub_neg.mpr (h01.trans h12)
  have p13 := sub_neg.mpr (h12.trans h23)
  have p03 := sub_neg.mpr ((h01.trans h12).trans h23)
  have z1 : x1 - x2 ≠ 0 := p12.ne
  have z2 : x1 - x3 ≠ 0 := p13.ne
  have z3 : x2 - x3 ≠ 0 := p23.ne
  have z4 : x0 - x1 ≠ 0 := p01.ne
  have z5 : x0 - x2 ≠ 0 := p02.ne
  have z6 : x0 - x3 ≠ 0 := p03.ne
  have f1 : r1 = - (r0 * ((x0 - x2) * (x0 - x3)) / ((x1 - x2) * (x1 - x3))) := by
    field_simp; linear_combination a1
  have f2 : r2 = r0 * ((x0 - x1) * (x0 - x3)) / ((x1 - x2) * (x2 - x3)) := by
    field_simp; linear_combination -a2
  have f3 : r3 = - (r0 * ((x0 - x1) * (x0 - x2)) / ((x1 - x3) * (x2 - x3))) := by
    field_simp; linear_combination a3
  have hr : Δ = 0 ↔ r0 = 0 := by
    have : Δ = r0 * ((x1 - x2) * (x1 - x3) * (x2 - x3) +
        ((x0 - x2) * (x0 - x3)) ^ 2 * (x2 - x3) / ((x1 - x2) * (x1 - x3)) +
        ((x0 - x1) * (x0 - x3)) ^ 2 * (x1 - x3) / ((x1 - x2) * (x2 - x3)) +
        ((x0 - x1) * (x0 - x2)) ^ 2 * (x1 - x2) / ((x1 - x3) * (x2 - x3))) := by
      rw [hΔ, f1, f2, f3]; ring
    rw [this]
    have neg : (x1 - x2) * (x1 - x3) * (x2 - x3) +
        ((x0 - x2) * (x0 - x3)) ^ 2 * (x2 - x3) / ((x1 - x2) * (x1 - x3)) +
        ((x0 - x1) * (x0 - x3)) ^ 2 * (x1 - x3) / ((x1 - x2) * (x2 - x3)) +
        ((x0 - x1) * (x0 - x2)) ^ 2 * (x1 - x2) / ((x1 - x3) * (x2 - x3)) < 0 := by
      have n1 : (x1 - x2) * (x1 - x3) * (x2 - x3) < 0 :=
        mul_neg_of_pos_of_neg (mul_pos_of_neg_of_neg p12 p13) p23
      have n2 : ((x0 - x2) * (x0 - x3)) ^ 2 * (x2 - x3) / ((x1 - x2) * (x1 - x3)) < 0 :=
        div_neg_of_neg_of_pos (mul_neg_of_pos_of_neg (by positivity) p23) (mul_pos_of_neg_of_neg p12 p13)
      have n3 : ((x0 - x1) * (x0 - x3)) ^ 2 * (x1 - x3) / ((x1 - x2) * (x2 - x3)) < 0 :=
        div_neg_of_neg_of_pos (mul_neg_of_pos_of_neg (by positivity) p13) (mul_pos_of_neg_of_neg p12 p23)
      have n4 : ((x0 - x1) * (x0 - x2)) ^ 2 * (x1 - x2) / ((x1 - x3) * (x2 - x3)) < 0 :=
        div_neg_of_neg_of_pos (mul_neg_of_pos_of_neg (by positivity) p12) (mul_pos_of_neg_of_neg p13 p23)
      linarith
    constructor
    · intro h; exact (mul_eq_zero.mp h).resolve_right neg.ne
    · intro h; rw [h, zero_mul]
  rw [hr]
  constructor
  · constructor
    · intro h; rw [hr0]; linarith
    · intro h; rw [hr0] at h; linarith
  · have : r3 = 0 ↔ r0 = 0 := by
      rw [f3]
      constructor
      · intro h
        rw [neg_eq_zero, div_eq_zero_iff] at h
        rcases h with h | h
        · exact (mul_eq_zero.mp h).resolve_right (mul_ne_zero z4 z5)
        · exact absurd h (mul_ne_zero z2 z3)
      · intro h; rw [h]; simp
    rw [← this]
    constructor
    · intro h; rw [hr3]; linarith
    · intro h; rw [hr3] at h; linarith

/-- A quarter turn through the model: the four points, in ordinary notation.  `h₁`, `h₂` are the
distances of the inner points from the ends. -/
theorem parabPoints_real (a : ProfArgs ℝ) (d : ProfDomain a) :
    ∃ h₁ h₂ : ℝ, h₁ = min a.focal_dist_upstream a.length / 10 ∧
      h₂ = min a.focal_dist_downstream a.length / 10 ∧
      parabPoints a = [(0, a.rad_ext_upstream),
        (h₁, a.rad_ext_upstream + a.rad_ext_upstream / a.focal_dist_upstream * h₁),
        (a.length - h₂, a.rad_ext_downstream + a.rad_ext_downstream / a.focal_dist_downstream * h₂),
        (a.length, a.rad_ext_downstream)] := by
  refine ⟨_, _, rfl, rfl, ?_⟩
  have hfd := d.fd.ne'
  have hfu := d.fu.ne'
  have e2 : a.length - (a.length + a.focal_dist_downstream) = - a.focal_dist_downstream := by ring
  simp only [parabPoints, real_le, real_div, real_lit, real_sub, real_add, real_mul, decide_eq_true_eq]
  push_cast
  congr 1
  congr 1
  · split
    · rename_i h; rw [min_eq_left h]; simp; ring
    · rename_i h; rw [min_eq_right (not_le.mp h).le]; simp; ring
  · congr 1
    rw [e2]
    split
    · rename_i h; rw [min_eq_left h]; simp; field_simp; ring
    · rename_i h; rw [min_eq_right (not_le.mp h).le]; simp; field_simp; ring

theorem arr_key (f : ℕ → ℝ) (i : ℕ) (x : ℝ) (hx : (arr profNmax f)[i]? = some x) :
    i ≤ 999 ∧ x = f i := by
  by_cases hi : i ≤ profNmax
  · rw [arr_get _ _ _ hi] at hx; exact ⟨hi, (Option.some.inj hx).symm⟩
  · rw [List.getElem?_eq_none (by simp; omega)] at hx; cases hx

theorem profZ_frac (a : ProfArgs ℝ) (i : ℕ) : profZ a i = a.length * ((i : ℝ) / 999) := by
  simp [profZ, profNmax]; ring

/-- **C78 (1).**  On the whole domain: the paraboloidal profile has the requested external radius at the
entrance iff it has the requested radius at the exit iff the chord slopes `ru/fu` (over the first
`min(fu,L)/10`), `(rd-ru)/L` and `-rd/fd` (over the last `min(fd,L)/10`) fit on one parabola. -/
theorem paraboloidal_ends_iff (fit : Fit ℝ) (a : ProfArgs ℝ) (d : ProfDomain a) (ht : a.type = 1)
    (hfit : LeastSquares (parabPoints a) (fit (parabPoints a))) :
    ∃ zs cs es, ProfileResult fit a zs cs es ∧ es.length = 1000 ∧
      let ru := a.rad_ext_upstream
      let rd := a.rad_ext_downstream
      let L := a.length
      let Fits := ((rd - ru) / L - ru / a.focal_dist_upstream) * (L - min a.focal_dist_downstream L / 10) =
        (-(rd / a.focal_dist_downstream) - (rd - ru) / L) * (L - min a.focal_dist_upstream L / 10)
      (es[0]? = some ru ↔ Fits) ∧ (es[999]? = some rd ↔ Fits) := by
  refine ⟨_, _, _, profileResult_of fit a d (f := profExtParab fit a) (by simp [profExt, ht]),
    by simp [profNmax], ?_⟩
  intro ru rd L Fits
  obtain ⟨h₁, h₂, e1, e2, hp⟩ := parabPoints_real a d
  have hL := d.len
  have p1 : 0 < h₁ := by rw [e1]; have := lt_min d.fu d.len; positivity
  have p2 : 0 < h₂ := by rw [e2]; have := lt_min d.fd d.len; positivity
  have q1 : h₁ ≤ a.length / 10 := by rw [e1]; have := min_le_right a.focal_dist_upstream a.length; linarith
  have q2 : h₂ ≤ a.length / 10 := by rw [e2]; have := min_le_right a.focal_dist_downstream a.length; linarith
  have z0 : profZ a 0 = 0 := by simp [profZ]
  have z999 : profZ a 999 = a.length := by simp [profZ, profNmax]
  generalize hc : fit (parabPoints a) = c at hfit
  rw [hp] at hfit
  have key := ls_ends_iff hfit p1 (by linarith) (by linarith)
  have hFits : Fits ↔ ((rd - ru) / L - ru / a.focal_dist_upstream) * (L - h₂) =
        (-(rd / a.focal_dist_downstream) - (rd - ru) / L) * (L - h₁) := by
    rw [e1, e2]
  have hD : (ru * ((h₁ - (L - h₂)) * (h₁ - L) * (L - h₂ - L)) -
      (ru + ru / a.focal_dist_upstream * h₁) * ((0 - (L - h₂)) * (0 - L) * (L - h₂ - L)) +
      (rd + rd / a.focal_dist_downstream * h₂) * ((0 - h₁) * (0 - L) * (h₁ - L)) -
      rd * ((0 - h₁) * (0 - (L - h₂)) * (h₁ - (L - h₂))) = 0) ↔ Fits := by
    rw [hFits]
    have hm : (rd - ru) / L * L = rd - ru := by
      have : L ≠ 0 := hL.ne'
      field_simp
    set m := (rd - ru) / L
    set s1 := ru / a.focal_dist_upstream
    set s2 := rd / a.focal_dist_downstream
    have hru : ru = rd - m * L := by linarith
    have : ru * ((h₁ - (L - h₂)) * (h₁ - L) * (L - h₂ - L)) -
      (ru + s1 * h₁) * ((0 - (L - h₂)) * (0 - L) * (L - h₂ - L)) +
      (rd + s2 * h₂) * ((0 - h₁) * (0 - L) * (h₁ - L)) -
      rd * ((0 - h₁) * (0 - (L - h₂)) * (h₁ - (L - h₂))) =
      - (h₁ * h₂ * L) * ((m - s1) * (L - h₂) - (-s2 - m) * (L - h₁)) := by
      rw [hru]; ring
    rw [this]
    have hne : - (h₁ * h₂ * L) ≠ 0 := by
      have : 0 < h₁ * h₂ * L := by positivity
      linarith
    constructor
    · intro h
      exact sub_eq_zero.mp ((mul_eq_zero.mp h).resolve_left hne)
    · intro h
      rw [h]; ring
  dsimp only at key
  constructor
  · rw [arr_get _ _ _ (by simp), ← hD]
    refine Iff.trans ?_ key.1
    simp only [profExtParab, hc, z0, real_add, real_mul, Option.some.injEq]
    constructor
    · intro h; simpa using h
    · intro h; simpa using h
  · rw [arr_get _ _ _ (by simp [profNmax]), ← hD]
    refine Iff.trans ?_ key.2
    simp only [profExtParab, hc, z999, real_add, real_mul, Option.some.injEq]
    have : c.1 + c.2.1 * a.length + c.2.2 * a.length * a.length =
      c.1 + c.2.1 * a.length + c.2.2 * a.length ^ 2 := by ring
    rw [this]

/-- Least squares at the four points 0, L/10, 9L/10, L: the closed form. -/
theorem ls_sym {L y0 y1 y2 y3 : ℝ} (hL : 0 < L) {c : ℝ × ℝ × ℝ}
    (h : LeastSquares [(0, y0), (L / 10, y1), (L - L / 10, y2), (L, y3)] c) (t : ℝ) :
    let δ := 4 * (y3 - y0) + 5 * (y1 - y2)
    let E0 := y0 + 2 * δ / 41
    let E1 := y3 - 2 * δ / 41
    c.1 + c.2.1 * (L * t) + c.2.2 * (L * t) ^ 2 =
      E0 + (E1 - E0) * t + (50 / 9 * (y1 - y0 + (y2 - y3))) * (t * (1 - t)) := by
  intro δ E0 E1
  obtain ⟨c0, c1, c2⟩ := c
  have e1 := ls_normal h (1, 0, 0)
  have e2 := ls_normal h (0, 1, 0)
  have e3 := ls_normal h (0, 0, 1)
  dsimp only at e1 e2 e3 ⊢
  have hne := hL.ne'
  set u := c1 * L with hu
  set v := c2 * L ^ 2 with hv
  have g1 : y0 + y1 + y2 + y3 - 4 * c0 - 2 * u - v * (1/100 + 81/100 + 1) = 0 := by
    rw [hu, hv]; linear_combination e1
  have goal2 : c0 + c1 * (L * t) + c2 * (L * t) ^ 2 = c0 + u * t + v * t ^ 2 := by
    rw [hu, hv]; ring
  rw [goal2]
  have g2 : y1 / 10 + 9 * y2 / 10 + y3 - 2 * c0 - u * (1/100 + 81/100 + 1) - v * (1/1000 + 729/1000 + 1) = 0 := by
    refine mul_left_cancel₀ hne ?_
    rw [hu, hv]
    linear_combination e2
  have g3 : y1 / 100 + 81 * y2 / 100 + y3 - c0 * (1/100 + 81/100 + 1) - u * (1/1000 + 729/1000 + 1)
      - v * (1/10000 + 6561/10000 + 1) = 0 := by
    refine mul_left_cancel₀ (pow_ne_zero 2 hne) ?_
    rw [hu, hv]
    linear_combination e3
  have hv' : v = - (50 / 9 * (y1 - y0 + (y2 - y3))) := by linarith
  have hu' : u = (E1 - E0) + 50 / 9 * (y1 - y0 + (y2 - y3)) := by
    simp only [E0, E1, δ]; linarith
  have hc0 : c0 = E0 := by
    simp only [E0, δ]; linarith
  rw [hc0, hu', hv']; ring

/-- How far a paraboloidal profile whose focal distances are at least its length misses the requested
end radii: `2/41` of the amount by which `(ru/fu + (-rd/fd))/2 · L` fails to be `rd - ru`. -/
noncomputable def parabMiss (a : ProfArgs ℝ) : ℝ :=
  2 / 41 * ((a.rad_ext_upstream / a.focal_dist_upstream - a.rad_ext_downstream / a.focal_dist_downstream)
    * a.length / 2 - (a.rad_ext_downstream - a.rad_ext_upstream))

/-- **C78 (2).**  With both focal distances at least the length (the usual case), every external radius
of the paraboloidal profile is known exactly: the ends are `ru + miss` and `rd - miss`, and the profile
is the concave parabola between them; the capillary radius is the linear interpolation of the internal
radii; `z` runs from 0 to the length in 999 equal steps.  Hence (last part) the capillary fits inside
the optic everywhere iff it does so at both ends. -/
theorem paraboloidal_profile_exact (fit : Fit ℝ) (a : ProfArgs ℝ) (d : ProfDomain a) (ht : a.type = 1)
    (hfit : LeastSquares (parabPoints a) (fit (parabPoints a)))
    (hu : a.length ≤ a.focal_dist_upstream) (hd : a.length ≤ a.focal_dist_downstream) :
    ∃ zs cs es, ProfileResult fit a zs cs es ∧ zs.length = 1000 ∧ cs.length = 1000 ∧
      es.length = 1000 ∧
      es[0]? = some (a.rad_ext_upstream + parabMiss a) ∧
      es[999]? = some (a.rad_ext_downstream - parabMiss a) ∧
      (∀ (i : ℕ) (z c e : ℝ), zs[i]? = some z → cs[i]? = some c → es[i]? = some e →
        z = a.length * (i / 999) ∧
        c = a.rad_int_upstream + (a.rad_int_downstream - a.rad_int_upstream) * (z / a.length) ∧
        e = (a.rad_ext_upstream + parabMiss a) * (1 - z / a.length) +
            (a.rad_ext_downstream - parabMiss a) * (z / a.length) +
            5 / 9 * (a.rad_ext_upstream / a.focal_dist_upstream +
              a.rad_ext_downstream / a.focal_dist_downstream) * z * (1 - z / a.length)) ∧
      ((∀ (i : ℕ) (c e : ℝ), cs[i]? = some c → es[i]? = some e → 0 < c ∧ c < e) ↔
        a.rad_int_upstream < a.rad_ext_upstream + parabMiss a ∧
        a.rad_int_downstream < a.rad_ext_downstream - parabMiss a) := by
  have hL := d.len
  obtain ⟨h₁, h₂, e1, e2, hp⟩ := parabPoints_real a d
  rw [min_eq_right hu] at e1
  rw [min_eq_right hd] at e2
  subst e1 e2
  generalize hc : fit (parabPoints a) = c at hfit
  rw [hp] at hfit
  have form : ∀ i, profExtParab fit a i =
      (a.rad_ext_upstream + parabMiss a) * (1 - profZ a i / a.length) +
            (a.rad_ext_downstream - parabMiss a) * (profZ a i / a.length) +
            5 / 9 * (a.rad_ext_upstream / a.focal_dist_upstream +
              a.rad_ext_downstream / a.focal_dist_downstream) * profZ a i * (1 - profZ a i / a.length) := by
    intro i
    have hz : profZ a i = a.length * (profZ a i / a.length) := by field_simp
    set t := profZ a i / a.length with ht'
    have := ls_sym hL hfit t
    simp only [profExtParab, hc, real_add, real_mul]
    rw [hz]
    have e : c.1 + c.2.1 * (a.length * t) + c.2.2 * (a.length * t) * (a.length * t) =
      c.1 + c.2.1 * (a.length * t) + c.2.2 * (a.length * t) ^ 2 := by ring
    rw [e, this, parabMiss]
    ring
  have z0 : profZ a 0 = 0 := by simp [profZ]
  have z999 : profZ a 999 = a.length := by simp [profZ, profNmax]
  have c0 : profCap a 0 = a.rad_int_upstream := by
    simp only [profCap, z0, real_add, real_mul]; ring
  have hcap : ∀ i, profCap a i = a.rad_int_upstream +
      (a.rad_int_downstream - a.rad_int_upstream) * (profZ a i / a.length) := by
    intro i
    simp only [profCap, real_add, real_mul, real_div, real_sub]; ring
  have f0 : profExtParab fit a 0 = a.rad_ext_upstream + parabMiss a := by rw [form, z0]; ring
  have hdiv : a.length / a.length = 1 := div_self hL.ne'
  have f999 : profExtParab fit a 999 = a.rad_ext_downstream - parabMiss a := by
    rw [form, z999, hdiv]; ring
  refine ⟨_, _, _, profileResult_of fit a d (f := profExtParab fit a) (by simp [profExt, ht]),
    by simp [profNmax], by simp [profNmax], by simp [profNmax], ?_, ?_, ?_, ?_⟩
  · rw [arr_get _ _ _ (by simp), f0]
  · rw [arr_get _ _ _ (by simp [profNmax]), f999]
  · intro i z c' e hz hc' he
    obtain ⟨hi, rfl⟩ := arr_key _ _ _ hz
    obtain ⟨_, rfl⟩ := arr_key _ _ _ hc'
    obtain ⟨_, rfl⟩ := arr_key _ _ _ he
    exact ⟨profZ_frac a i, hcap i, form i⟩
  · constructor
    · intro h
      have h0 := h 0 _ _ (arr_get _ _ _ (by simp)) (arr_get _ _ _ (by simp))
      have h1 := h 999 _ _ (arr_get _ _ _ (by simp [profNmax])) (arr_get _ _ _ (by simp [profNmax]))
      rw [c0, f0] at h0
      rw [hcap, z999, hdiv, f999] at h1
      exact ⟨h0.2, by linarith [h1.2]⟩
    · rintro ⟨h0, h1⟩ i c' e hc' he
      obtain ⟨hi, rfl⟩ := arr_key _ _ _ hc'
      obtain ⟨_, rfl⟩ := arr_key _ _ _ he
      have hi' : (i : ℝ) ≤ 999 := by exact_mod_cast hi
      rw [form, hcap]
      have hz0 : 0 ≤ profZ a i := by rw [profZ_frac]; positivity
      have ht : profZ a i / a.length = (i : ℝ) / 999 := by rw [profZ_frac]; field_simp
      have t0 : 0 ≤ profZ a i / a.length := by rw [ht]; positivity
      have t1 : profZ a i / a.length ≤ 1 := by rw [ht, div_le_one (by norm_num)]; exact hi'
      have hcur : 0 ≤ 5 / 9 * (a.rad_ext_upstream / a.focal_dist_upstream +
              a.rad_ext_downstream / a.focal_dist_downstream) * profZ a i * (1 - profZ a i / a.length) := by
        have a1 : 0 < a.rad_ext_upstream / a.focal_dist_upstream := div_pos (d.iu.trans d.eu) d.fu
        have a2 : 0 < a.rad_ext_downstream / a.focal_dist_downstream := div_pos (d.id.trans d.ed) d.fd
        exact mul_nonneg (by positivity) (by linarith)
      have k1 := convex_pos t0 t1 d.iu d.id
      have k2 := convex_pos t0 t1 (sub_pos.mpr h0) (sub_pos.mpr h1)
      constructor
      · exact k1
      · nlinarith

/-- The closed form is itself a least-squares fit, so the hypothesis on the fit can be met. -/
theorem ls_witness (a : ProfArgs ℝ) (d : ProfDomain a)
    (hu : a.length ≤ a.focal_dist_upstream) (hd : a.length ≤ a.focal_dist_downstream) :
    ∃ fit : Fit ℝ, LeastSquares (parabPoints a) (fit (parabPoints a)) := by
  obtain ⟨h₁, h₂, e1, e2, hp⟩ := parabPoints_real a d
  rw [min_eq_right hu] at e1
  rw [min_eq_right hd] at e2
  subst e1 e2
  have hL := d.len.ne'
  generalize a.rad_ext_upstream / a.focal_dist_upstream = s1 at hp
  generalize a.rad_ext_downstream / a.focal_dist_downstream = s2 at hp
  generalize a.rad_ext_upstream = ru at hp
  generalize a.rad_ext_downstream = rd at hp
  refine ⟨fun _ => (ru + 2 / 41 * ((s1 - s2) * a.length / 2 - (rd - ru)),
    ((rd - ru) - 4 / 41 * ((s1 - s2) * a.length / 2 - (rd - ru)) + 5 / 9 * (s1 + s2) * a.length) / a.length,
    - (5 / 9 * (s1 + s2) / a.length)), ?_⟩
  rw [hp]
  apply ls_of_normal
  rintro ⟨d0, d1, d2⟩
  dsimp only
  field_simp
  ring

/-- A usual paraboloidal profile (9 cm long, 0.2065 → 0.0585 cm, focal distances 1000 and 10 cm). -/
example : ∃ (fit : Fit ℝ) (a : ProfArgs ℝ), ProfDomain a ∧ a.type = 1 ∧
    LeastSquares (parabPoints a) (fit (parabPoints a)) ∧ a.length ≤ a.focal_dist_upstream ∧
    a.length ≤ a.focal_dist_downstream := by
  have dom : ProfDomain ⟨1, 9, 0.2065, 0.0585, 0.00035, 0.000099, 1000, 10⟩ := by
    constructor <;> norm_num
  obtain ⟨fit, h⟩ := ls_witness ⟨1, 9, 0.2065, 0.0585, 0.00035, 0.000099, 1000, 10⟩ dom
    (by norm_num) (by norm_num)
  exact ⟨fit, _, dom, rfl, h, by norm_num, by norm_num⟩

/-- Finding (C78): whatever exact least-squares fit is used, `polycap_profile_new` accepts arguments for
a paraboloidal profile (length 1, external radii 1/100 → 1, focal distances 1) and returns, with no
error, a profile whose external radius at the entrance is *negative*. -/
theorem paraboloidal_negative_radius :
    ∃ a : ProfArgs ℝ, ProfDomain a ∧ a.type = 1 ∧ a.rad_ext_upstream = 1 / 100 ∧
      (∃ fit : Fit ℝ, LeastSquares (parabPoints a) (fit (parabPoints a))) ∧
      ∀ fit : Fit ℝ, LeastSquares (parabPoints a) (fit (parabPoints a)) →
        ∃ zs cs es, ProfileResult fit a zs cs es ∧ ∃ r, es[0]? = some r ∧ r < 0 := by
  have dom : ProfDomain ⟨1, 1, 1/100, 1, 1/1000, 1/1000, 1, 1⟩ := by constructor <;> norm_num
  refine ⟨⟨1, 1, 1/100, 1, 1/1000, 1/1000, 1, 1⟩, dom, rfl, rfl,
    ls_witness _ dom (by norm_num) (by norm_num), ?_⟩
  intro fit hfit
  obtain ⟨zs, cs, es, hr, _, _, _, h0, _⟩ :=
    paraboloidal_profile_exact fit _ dom rfl hfit (by norm_num) (by norm_num)
  exact ⟨zs, cs, es, hr, _, h0, by norm_num [parabMiss]⟩

/-- Finding (C78): the end radii of the usual example above are not the requested ones. -/
theorem paraboloidal_ends_false :
    ∃ a : ProfArgs ℝ, ProfDomain a ∧ a.type = 1 ∧
      (∃ fit : Fit ℝ, LeastSquares (parabPoints a) (fit (parabPoints a))) ∧
      ∀ fit : Fit ℝ, LeastSquares (parabPoints a) (fit (parabPoints a)) →
        ∃ zs cs es, ProfileResult fit a zs cs es ∧ es[0]? ≠ some a.rad_ext_upstream ∧
          es[999]? ≠ some a.rad_ext_downstream := by
  have dom : ProfDomain ⟨1, 9, 0.2065, 0.0585, 0.00035, 0.000099, 1000, 10⟩ := by
    constructor <;> norm_num
  refine ⟨_, dom, rfl, ls_witness _ dom (by norm_num) (by norm_num), ?_⟩
  intro fit hfit
  obtain ⟨zs, cs, es, hr, _, h0, h1⟩ := paraboloidal_ends_iff fit _ dom rfl hfit
  refine ⟨zs, cs, es, hr, ?_, ?_⟩
  · rw [ne_eq, h0]; norm_num
  · rw [ne_eq, h1]; norm_num

end Polycap
