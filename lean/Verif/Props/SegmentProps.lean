import Verif.Segment
import Verif.Props.CapSelect

/-!
# C18, C19: wall intersections

Specification side: the capillary segment is the set of points whose horizontal distance from the axis
point at their height equals the radius at that height, axis and radius being linear in z.
-/
namespace Polycap
open CNum

/-- value at height `z` of the linear function through `(z0, v0)`, `(z1, v1)` -/
noncomputable def linAt (z0 z1 v0 v1 z : ℝ) : ℝ := v0 + (v1 - v0) * ((z - z0) / (z1 - z0))

/-- The point `v` lies on the wall of the capillary segment between axis points `c0`, `c1` with radii
`r0`, `r1`. -/
def OnWall (c0 c1 : V3 ℝ) (r0 r1 : ℝ) (v : V3 ℝ) : Prop :=
  (v.x - linAt c0.z c1.z c0.x c1.x v.z) ^ 2 + (v.y - linAt c0.z c1.z c0.y c1.y v.z) ^ 2 =
    (linAt c0.z c1.z r0 r1 v.z) ^ 2

/-- The point of the photon's straight line (through `p0`, direction `d`) at height `z`. -/
noncomputable def lineAt (p0 d : V3 ℝ) (z : ℝ) : V3 ℝ :=
  ⟨p0.x + (z - p0.z) / d.z * d.x, p0.y + (z - p0.z) / d.z * d.y, z⟩

/-- The photon line is tangent to the family of walls: leading coefficient 0 (line parallel to a generator
of the – possibly cylindrical – cone). -/
noncomputable def genCoeff (c0 c1 : V3 ℝ) (r0 r1 : ℝ) (d : V3 ℝ) : ℝ :=
  (d.x / d.z - (c1.x - c0.x) / (c1.z - c0.z)) ^ 2 + (d.y / d.z - (c1.y - c0.y) / (c1.z - c0.z)) ^ 2
    - ((r1 - r0) / (c1.z - c0.z)) ^ 2

theorem vnorm_scale (d : V3 ℝ) (hd : 0 < d.z) :
    ∃ s > 0, vnorm d = ⟨s * d.x, s * d.y, s * d.z⟩ ∧ s ^ 2 * (d.x ^ 2 + d.y ^ 2 + d.z ^ 2) = 1 := by
  have hsq : 0 < d.x * d.x + d.y * d.y + d.z * d.z := by
    have : 0 < d.z * d.z := mul_self_pos.mpr hd.ne'
    nlinarith [mul_self_nonneg d.x, mul_self_nonneg d.y]
  refine ⟨1 / Real.sqrt (d.x * d.x + d.y * d.y + d.z * d.z), div_pos one_pos (Real.sqrt_pos.mpr hsq), ?_, ?_⟩
  · simp only [vnorm, real_mul, real_div, real_add, real_sqrt]
    congr 1 <;> ring
  · rw [div_pow, one_pow, Real.sq_sqrt hsq.le]
    field_simp

/-- slopes do not depend on the normalisation -/
theorem slope_norm (d : V3 ℝ) (hd : 0 < d.z) :
    (vnorm d).x / (vnorm d).z = d.x / d.z ∧ (vnorm d).y / (vnorm d).z = d.y / d.z ∧ 0 < (vnorm d).z := by
  obtain ⟨s, hs, h, -⟩ := vnorm_scale d hd
  rw [h]
  refine ⟨?_, ?_, by positivity⟩ <;> field_simp

/-- The quadratic the code solves vanishes exactly at the heights where the line meets the wall. -/
theorem quad_iff (c0 c1 : V3 ℝ) (r0 r1 : ℝ) (p0 d : V3 ℝ) (hd : 0 < d.z) (hz : c0.z < c1.z) (hp : p0.z = c0.z) (t : ℝ) :
    segA c0 c1 r0 r1 (vnorm d) (vsub c1 c0) * t ^ 2 + segB c0 c1 r0 r1 p0 (vnorm d) (vsub c1 c0) * t + segC c0 r0 p0 = 0 ↔
      OnWall c0 c1 r0 r1 (lineAt p0 d (p0.z + t)) := by
  obtain ⟨e1, e2, -⟩ := slope_norm d hd
  have hz' : c1.z - c0.z ≠ 0 := by linarith
  simp only [segA, segB, segC, segSlopes, segTaper, vsub, real_mul, real_div, real_add, real_sub, real_lit, e1, e2,
    OnWall, lineAt, linAt]
  rw [← sub_eq_zero (b := (_ : ℝ) ^ 2)]
  have : ∀ u v : ℝ, u = v → (u = 0 ↔ v = 0) := fun u v h => by rw [h]
  apply this
  rw [hp]
  push_cast
  field_simp
  ring

theorem genCoeff_eq (c0 c1 : V3 ℝ) (r0 r1 : ℝ) (d : V3 ℝ) (hd : 0 < d.z) :
    segA c0 c1 r0 r1 (vnorm d) (vsub c1 c0) = genCoeff c0 c1 r0 r1 d := by
  obtain ⟨e1, e2, -⟩ := slope_norm d hd
  simp only [segA, segSlopes, segTaper, vsub, real_mul, real_div, real_add, real_sub, e1, e2, genCoeff]
  ring

/-- "not the right solution", over the reals -/
def segBadR (z z0 z1 cur : ℝ) : Prop := z < z0 ∨ z - cur < 1 / 10 ^ 5 ∨ z1 < z

open Classical in
/-- `segSolve` over the reals, in plain notation -/
theorem segSolve_real (a b c p0z z0 z1 cur : ℝ) : segSolve a b c p0z z0 z1 cur =
    if b * b - 4 * a * c < 0 then .inl (-2)
    else if b * b - 4 * a * c = 0 then .inr (p0z + -b / (2 * a))
    else
      if segBadR (p0z + (-b + Real.sqrt (b * b - 4 * a * c)) / (2 * a)) z0 z1 cur then
        if segBadR (p0z + (-b - Real.sqrt (b * b - 4 * a * c)) / (2 * a)) z0 z1 cur then .inl (-3)
        else .inr (p0z + (-b - Real.sqrt (b * b - 4 * a * c)) / (2 * a))
      else if segBadR (p0z + (-b - Real.sqrt (b * b - 4 * a * c)) / (2 * a)) z0 z1 cur then
        .inr (p0z + (-b + Real.sqrt (b * b - 4 * a * c)) / (2 * a))
      else if p0z + (-b - Real.sqrt (b * b - 4 * a * c)) / (2 * a) - cur <
          p0z + (-b + Real.sqrt (b * b - 4 * a * c)) / (2 * a) - cur then
        .inr (p0z + (-b - Real.sqrt (b * b - 4 * a * c)) / (2 * a))
      else .inr (p0z + (-b + Real.sqrt (b * b - 4 * a * c)) / (2 * a)) := by
  unfold segSolve segBad segBadR
  have e4 : ((4:ℚ):ℝ) = 4 := by norm_num
  have e5 : ((1/10^5:ℚ):ℝ) = 1/10^5 := by norm_num
  have e2 : ((2:ℚ):ℝ) = 2 := by norm_num
  have e1 : ((-1:ℚ):ℝ) = -1 := by norm_num
  have e0 : ((0:ℚ):ℝ) = 0 := by norm_num
  simp only [real_mul, real_sub, real_lit, real_lt, real_beq, real_add, real_div, real_sqrt, gt, e0, e1, e2, e4, e5,
    neg_one_mul, Bool.or_eq_true, decide_eq_true_eq, or_assoc]
  congr

/-- the two roots -/
theorem quad_roots {a b c : ℝ} (ha : a ≠ 0) (h1 : 0 ≤ b * b - 4 * a * c) (t : ℝ) :
    a * t ^ 2 + b * t + c = 0 ↔ t = (-b + Real.sqrt (b * b - 4 * a * c)) / (2 * a) ∨
      t = (-b - Real.sqrt (b * b - 4 * a * c)) / (2 * a) := by
  have hs : Real.sqrt (b * b - 4 * a * c) ^ 2 = b * b - 4 * a * c := Real.sq_sqrt h1
  generalize Real.sqrt (b * b - 4 * a * c) = s at hs ⊢
  constructor
  · intro ht
    have : (2 * a * t + b - s) * (2 * a * t + b + s) = 0 := by
      calc _ = 4 * a * (a * t ^ 2 + b * t + c) + (b * b - 4 * a * c) - s ^ 2 := by ring
        _ = 0 := by rw [ht, hs]; ring
    rcases mul_eq_zero.mp this with h3 | h3
    · left; field_simp; linarith
    · right; field_simp; linarith
  · have key : ∀ u, 2 * a * u + b = s ∨ 2 * a * u + b = -s → a * u ^ 2 + b * u + c = 0 := by
      intro u hu
      have h4 : 4 * a * (a * u ^ 2 + b * u + c) = 0 := by
        have : (2 * a * u + b) ^ 2 = s ^ 2 := by rcases hu with h | h <;> rw [h]; ring
        calc 4 * a * (a * u ^ 2 + b * u + c) = (2 * a * u + b) ^ 2 - (b * b - 4 * a * c) := by ring
          _ = 0 := by rw [this, hs]; ring
      have h5 : 4 * a ≠ 0 := by simpa using ha
      exact (mul_eq_zero.mp h4).resolve_left h5
    rintro (rfl | rfl) <;> apply key
    · left; field_simp; ring
    · right; field_simp; ring

/-- What `segSolve` returns over the reals for `a ≠ 0`: a root, and the least admissible one. -/
theorem segSolve_root {a b c p0z z0 z1 cur : ℝ} (ha : a ≠ 0) {z : ℝ}
    (h : segSolve a b c p0z z0 z1 cur = .inr z) :
    a * (z - p0z) ^ 2 + b * (z - p0z) + c = 0 ∧
    (∀ t, a * t ^ 2 + b * t + c = 0 → z0 ≤ p0z + t → 1 / 10 ^ 5 ≤ p0z + t - cur → p0z + t ≤ z1 →
      z ≤ p0z + t ∧ z0 ≤ z ∧ 1 / 10 ^ 5 ≤ z - cur) := by
  rw [segSolve_real] at h
  by_cases h1 : b * b - 4 * a * c < 0
  · simp [h1] at h
  rw [if_neg h1] at h
  push Not at h1
  have roots := quad_roots ha h1
  by_cases h2 : b * b - 4 * a * c = 0
  · rw [if_pos h2, Sum.inr.injEq] at h
    rw [h2, Real.sqrt_zero, add_zero, sub_zero] at roots
    refine ⟨(roots _).mpr (Or.inl (by rw [← h]; ring)), fun t ht k1 k2 _ => ?_⟩
    have := (roots t).mp ht
    simp only [or_self] at this
    rw [this, h] at k1 k2
    rw [this, h]
    exact ⟨le_refl _, k1, k2⟩
  · rw [if_neg h2] at h
    generalize (-b + Real.sqrt (b * b - 4 * a * c)) / (2 * a) = t1 at h roots
    generalize (-b - Real.sqrt (b * b - 4 * a * c)) / (2 * a) = t2 at h roots
    have e : ∀ u : ℝ, p0z + u - p0z = u := fun u => by ring
    split_ifs at h with c1 c2 c3 c4
    all_goals
      first
      | (cases h; done)
      | (rw [Sum.inr.injEq] at h
         rw [← h, e]
         refine ⟨(roots _).mpr (by simp), fun t ht g1 g2 g3 => ?_⟩
         simp only [segBadR] at *
         rcases (roots t).mp ht with rfl | rfl <;> grind)

/-- …and if it gives up there is no admissible root. -/
theorem segSolve_none {a b c p0z z0 z1 cur : ℝ} (ha : a ≠ 0) {k : ℤ}
    (h : segSolve a b c p0z z0 z1 cur = .inl k) :
    (k = -2 ∨ k = -3) ∧ ∀ t, a * t ^ 2 + b * t + c = 0 → z0 ≤ p0z + t → 1 / 10 ^ 5 ≤ p0z + t - cur → p0z + t ≤ z1 → False := by
  rw [segSolve_real] at h
  by_cases h1 : b * b - 4 * a * c < 0
  · simp only [h1, if_true, Sum.inl.injEq] at h
    refine ⟨Or.inl h.symm, fun t ht _ _ _ => ?_⟩
    have : (2 * a * t + b) ^ 2 = b * b - 4 * a * c := by
      calc (2 * a * t + b) ^ 2 = 4 * a * (a * t ^ 2 + b * t + c) + (b * b - 4 * a * c) := by ring
        _ = _ := by rw [ht]; ring
    nlinarith [sq_nonneg (2 * a * t + b)]
  rw [if_neg h1] at h
  push Not at h1
  by_cases h2 : b * b - 4 * a * c = 0
  · rw [if_pos h2] at h; simp at h
  rw [if_neg h2] at h
  have roots := quad_roots ha h1
  generalize (-b + Real.sqrt (b * b - 4 * a * c)) / (2 * a) = t1 at h roots
  generalize (-b - Real.sqrt (b * b - 4 * a * c)) / (2 * a) = t2 at h roots
  split_ifs at h with c1 c2 c3 c4
  simp only [segBadR] at c1 c2
  rw [Sum.inl.injEq] at h
  refine ⟨Or.inr h.symm, fun t ht g1 g2 g3 => ?_⟩
  rcases (roots t).mp ht with rfl | rfl
  · rcases c1 with c1 | c1 | c1 <;> linarith
  · rcases c2 with c2 | c2 | c2 <;> linarith

/-- the guards, over the reals -/
theorem segRejects_false {c0 c1 : V3 ℝ} {r0 r1 : ℝ} {p0 p1 d : V3 ℝ} :
    segRejects c0 c1 r0 r1 p0 p1 d = false ↔
      0 ≤ c0.z ∧ 0 ≤ c1.z ∧ 0 ≤ r0 ∧ 0 ≤ r1 ∧ 0 ≤ d.z ∧ c0.z = p0.z ∧ c1.z = p1.z ∧ c0.z < c1.z := by
  simp [segRejects, and_assoc]

/-- the part of `segment` after the quadratic is solved, in plain notation -/
theorem segment_of_solved {c0 c1 : V3 ℝ} {r0 r1 : ℝ} {p0 p1 d cur nrm : V3 ℝ} {z : ℝ}
    (hr : segRejects c0 c1 r0 r1 p0 p1 d = false)
    (hs : segSolve (segA c0 c1 r0 r1 (vnorm d) (vsub c1 c0)) (segB c0 c1 r0 r1 p0 (vnorm d) (vsub c1 c0))
      (segC c0 r0 p0) p0.z c0.z c1.z cur.z = .inr z) :
    segment c0 c1 r0 r1 p0 p1 d cur nrm =
      if c1.z < z then (-4, cur, ⟨0, 0, 0⟩)
      else if z < c0.z ∨ z - cur.z < 1 / 10 ^ 5 then (-5, cur, ⟨0, 0, 0⟩)
      else if (z - p0.z) / (vnorm d).z < 1 / 10 ^ 10 then (-6, cur, ⟨0, 0, 0⟩)
      else (1, ⟨p0.x + (z - p0.z) / (vnorm d).z * (vnorm d).x, p0.y + (z - p0.z) / (vnorm d).z * (vnorm d).y, z⟩,
        segNormal c0 r0 r1 p0 (vnorm d) (vsub c1 c0)
          ⟨p0.x + (z - p0.z) / (vnorm d).z * (vnorm d).x, p0.y + (z - p0.z) / (vnorm d).z * (vnorm d).y, z⟩
          ((z - p0.z) / (vnorm d).z)) := by
  unfold segment
  have e5 : ((1/10^5:ℚ):ℝ) = 1/10^5 := by norm_num
  have e10 : ((1/10^10:ℚ):ℝ) = 1/10^10 := by norm_num
  have e0 : ((0:ℚ):ℝ) = 0 := by norm_num
  simp only [hr, hs, Bool.false_eq_true, if_false, gt, real_lt, real_sub, real_lit, real_div, real_mul, real_add,
    e0, e5, e10, Bool.or_eq_true, decide_eq_true_eq]

/-- …and if the quadratic has no admissible solution -/
theorem segment_of_unsolved {c0 c1 : V3 ℝ} {r0 r1 : ℝ} {p0 p1 d cur nrm : V3 ℝ} {k : ℤ}
    (hr : segRejects c0 c1 r0 r1 p0 p1 d = false)
    (hs : segSolve (segA c0 c1 r0 r1 (vnorm d) (vsub c1 c0)) (segB c0 c1 r0 r1 p0 (vnorm d) (vsub c1 c0))
      (segC c0 r0 p0) p0.z c0.z c1.z cur.z = .inl k) :
    segment c0 c1 r0 r1 p0 p1 d cur nrm = (k, cur, ⟨0, 0, 0⟩) := by
  unfold segment
  have e0 : ((0:ℚ):ℝ) = 0 := by norm_num
  simp only [hr, hs, Bool.false_eq_true, if_false, real_lit, e0]

/-- everything known about a successful search -/
theorem segment_success {c0 c1 : V3 ℝ} {r0 r1 : ℝ} {p0 p1 d cur nrm v n : V3 ℝ}
    (h : segment c0 c1 r0 r1 p0 p1 d cur nrm = (1, v, n)) :
    segRejects c0 c1 r0 r1 p0 p1 d = false ∧
    segSolve (segA c0 c1 r0 r1 (vnorm d) (vsub c1 c0)) (segB c0 c1 r0 r1 p0 (vnorm d) (vsub c1 c0))
      (segC c0 r0 p0) p0.z c0.z c1.z cur.z = .inr v.z ∧
    v.z ≤ c1.z ∧ c0.z ≤ v.z ∧ 1 / 10 ^ 5 ≤ v.z - cur.z ∧ 1 / 10 ^ 10 ≤ (v.z - p0.z) / (vnorm d).z ∧
    v.x = p0.x + (v.z - p0.z) / (vnorm d).z * (vnorm d).x ∧ v.y = p0.y + (v.z - p0.z) / (vnorm d).z * (vnorm d).y ∧
    n = segNormal c0 r0 r1 p0 (vnorm d) (vsub c1 c0) v ((v.z - p0.z) / (vnorm d).z) := by
  cases hr : segRejects c0 c1 r0 r1 p0 p1 d with
  | true => simp [segment, hr] at h
  | false =>
  cases hs : segSolve (segA c0 c1 r0 r1 (vnorm d) (vsub c1 c0)) (segB c0 c1 r0 r1 p0 (vnorm d) (vsub c1 c0))
      (segC c0 r0 p0) p0.z c0.z c1.z cur.z with
  | inl k =>
    rw [segment_of_unsolved hr hs] at h
    simp only [Prod.mk.injEq] at h
    have : k = -2 ∨ k = -3 := by
      rw [segSolve_real] at hs
      split_ifs at hs <;> simp_all
    omega
  | inr z =>
    rw [segment_of_solved hr hs] at h
    split_ifs at h with h1 h2 h3
    · simp at h
    · simp at h
    · simp at h
    · simp only [Prod.mk.injEq, true_and] at h
      obtain ⟨hv, hn⟩ := h
      have hz : v.z = z := by rw [← hv]
      push Not at h1 h2 h3
      refine ⟨rfl, by rw [hz], by rw [hz]; exact h1, by rw [hz]; exact h2.1, by rw [hz]; exact h2.2, by rw [hz]; exact h3, ?_, ?_, ?_⟩
      · rw [hz, ← hv]
      · rw [hz, ← hv]
      · rw [hz, ← hn, ← hv]

/-- **C18.** If the search succeeds, for a photon moving downstream and not parallel to a generator
line of the cone, the returned point is on the photon's straight line, downstream of its start, inside
the segment's z range, at least 10⁻⁵ downstream of the previous interaction, on the capillary wall,
and it is the first such point. -/
theorem segment_sound (c0 c1 : V3 ℝ) (r0 r1 : ℝ) (p0 p1 d cur nrm v n : V3 ℝ)
    (hd : 0 < d.z) (ha : genCoeff c0 c1 r0 r1 d ≠ 0)
    (h : segment c0 c1 r0 r1 p0 p1 d cur nrm = (1, v, n)) :
    v = lineAt p0 d v.z ∧ p0.z < v.z ∧ c0.z ≤ v.z ∧ v.z ≤ c1.z ∧ cur.z + 1 / 10 ^ 5 ≤ v.z ∧
    OnWall c0 c1 r0 r1 v ∧
    (∀ z, c0.z ≤ z → z ≤ c1.z → cur.z + 1 / 10 ^ 5 ≤ z → OnWall c0 c1 r0 r1 (lineAt p0 d z) → v.z ≤ z) := by
  obtain ⟨hr, hs, h1, h2, h2', h3, hx, hy, -⟩ := segment_success h
  obtain ⟨g1, g2, g3, g4, g5, g6, g7, g8⟩ := segRejects_false.mp hr
  rw [← genCoeff_eq c0 c1 r0 r1 d hd] at ha
  obtain ⟨e1, e2, e3⟩ := slope_norm d hd
  obtain ⟨root, least⟩ := segSolve_root ha hs
  have hline : v = lineAt p0 d v.z := by
    rcases v with ⟨vx, vy, vz⟩
    simp only at hx hy ⊢
    rw [lineAt, hx, hy]
    congr 1
    · rw [← mul_div_right_comm, mul_div_assoc, e1]; ring
    · rw [← mul_div_right_comm, mul_div_assoc, e2]; ring
  have hpos : p0.z < v.z := by
    by_contra hc
    push Not at hc
    have : (v.z - p0.z) / (vnorm d).z ≤ 0 := div_nonpos_of_nonpos_of_nonneg (by linarith) e3.le
    have : (0:ℝ) < 1 / 10 ^ 10 := by norm_num
    linarith
  refine ⟨hline, hpos, h2, h1, by linarith, ?_, ?_⟩
  · rw [hline]
    have := (quad_iff c0 c1 r0 r1 p0 d hd g8 g6.symm (v.z - p0.z)).mp root
    rwa [show p0.z + (v.z - p0.z) = v.z by ring] at this
  · intro z' k1 k2 k3 hw
    have := (quad_iff c0 c1 r0 r1 p0 d hd g8 g6.symm (z' - p0.z)).mpr
      (by rw [show p0.z + (z' - p0.z) = z' by ring]; exact hw)
    have := (least _ this (by linarith) (by linarith) (by linarith)).1
    linarith

/-- **C18**, completeness: a photon in front of the wall is never missed.  If the search reports
failure for acceptable arguments although the photon's line meets the wall in the segment's z range,
10⁻⁵ beyond the last interaction, then the first such meeting point is within 10⁻¹⁰ of path of the
segment entry. -/
theorem segment_complete (c0 c1 : V3 ℝ) (r0 r1 : ℝ) (p0 p1 d cur nrm : V3 ℝ)
    (hd : 0 < d.z) (ha : genCoeff c0 c1 r0 r1 d ≠ 0) (hr : segRejects c0 c1 r0 r1 p0 p1 d = false)
    (h : (segment c0 c1 r0 r1 p0 p1 d cur nrm).1 ≠ 1)
    (z : ℝ) (k1 : c0.z ≤ z) (k2 : z ≤ c1.z) (k3 : cur.z + 1 / 10 ^ 5 ≤ z)
    (hw : OnWall c0 c1 r0 r1 (lineAt p0 d z)) :
    ∃ z', c0.z ≤ z' ∧ z' ≤ z ∧ cur.z + 1 / 10 ^ 5 ≤ z' ∧ z' - p0.z < 1 / 10 ^ 10 ∧
      OnWall c0 c1 r0 r1 (lineAt p0 d z') := by
  obtain ⟨g1, g2, g3, g4, g5, g6, g7, g8⟩ := segRejects_false.mp hr
  rw [← genCoeff_eq c0 c1 r0 r1 d hd] at ha
  obtain ⟨e1, e2, e3⟩ := slope_norm d hd
  have e4 : (vnorm d).z ≤ 1 := by
    obtain ⟨s, hs, e, h1⟩ := vnorm_scale d hd
    rw [e]
    have : (s * d.z) ^ 2 ≤ 1 := by nlinarith [sq_nonneg (s * d.x), sq_nonneg (s * d.y)]
    have := mul_pos hs hd
    simp only
    nlinarith
  have hroot := (quad_iff c0 c1 r0 r1 p0 d hd g8 g6.symm (z - p0.z)).mpr
    (by rw [show p0.z + (z - p0.z) = z by ring]; exact hw)
  cases hs : segSolve (segA c0 c1 r0 r1 (vnorm d) (vsub c1 c0)) (segB c0 c1 r0 r1 p0 (vnorm d) (vsub c1 c0))
    (segC c0 r0 p0) p0.z c0.z c1.z cur.z with
  | inl k =>
    exact ((segSolve_none ha hs).2 _ hroot (by linarith) (by linarith) (by linarith)).elim
  | inr zz =>
    obtain ⟨root, least⟩ := segSolve_root ha hs
    obtain ⟨hle, l1, l2⟩ := least _ hroot (by linarith) (by linarith) (by linarith)
    rw [segment_of_solved hr hs, if_neg (by linarith), if_neg (by push Not; exact ⟨l1, l2⟩)] at h
    split_ifs at h with h3
    · refine ⟨zz, l1, by linarith, by linarith, ?_, ?_⟩
      · by_contra hc
        push Not at hc
        rw [div_lt_iff₀ e3] at h3
        have : (0:ℝ) < 1 / 10 ^ 10 := by norm_num
        nlinarith
      · have := (quad_iff c0 c1 r0 r1 p0 d hd g8 g6.symm (zz - p0.z)).mp root
        rwa [show p0.z + (zz - p0.z) = zz by ring] at this
    · exact absurd rfl h

/-- **C18**, failure: whatever number type, an unsuccessful search leaves the photon position as it was. -/
theorem segment_failure_keeps_position {α : Type} [CNum α] (c0 c1 : V3 α) (r0 r1 : α) (p0 p1 d cur nrm : V3 α)
    (h : (segment c0 c1 r0 r1 p0 p1 d cur nrm).1 ≠ 1) :
    (segment c0 c1 r0 r1 p0 p1 d cur nrm).2.1 = cur := by
  revert h
  unfold segment
  simp only
  split
  · intro _; rfl
  · split
    · intro _; rfl
    · split_ifs <;> intro h <;> first | rfl | exact absurd rfl h

/-- the codes of the intersection search -/
theorem segment_codes {α : Type} [CNum α] (c0 c1 : V3 α) (r0 r1 : α) (p0 p1 d cur nrm : V3 α) :
    (segment c0 c1 r0 r1 p0 p1 d cur nrm).1 ∈ ([1, -1, -2, -3, -4, -5, -6] : List Int) := by
  unfold segment
  simp only
  split
  · simp
  · split
    · rename_i k hs
      unfold segSolve at hs
      simp only at hs
      split_ifs at hs <;> simp_all
    · split_ifs <;> simp

/-- dot product of real vectors -/
def dot (a b : V3 ℝ) : ℝ := a.x * b.x + a.y * b.y + a.z * b.z

theorem scalar_real (a b : V3 ℝ) : scalar a b = dot a b := rfl

theorem vnorm_unit (v : V3 ℝ) (h : dot v v = 1) : vnorm v = v := by
  have : v.x * v.x + v.y * v.y + v.z * v.z = 1 := h
  simp only [vnorm, real_mul, real_add, real_sqrt, real_div, this, Real.sqrt_one, div_one]

theorem cos_sin_arctan (k : ℝ) : Real.cos (Real.arctan k) ^ 2 + Real.sin (Real.arctan k) ^ 2 = 1 ∧
    0 < Real.cos (Real.arctan k) ∧ Real.sin (Real.arctan k) = k * Real.cos (Real.arctan k) := by
  refine ⟨Real.cos_sq_add_sin_sq _, Real.cos_arctan_pos k, ?_⟩
  have := Real.tan_arctan k
  rw [Real.tan_eq_sin_div_cos, div_eq_iff (Real.cos_arctan_pos k).ne'] at this
  exact this

/-- Anatomy of the returned normal: with `foot` the orthogonal projection of the interaction point
on the capillary axis, it is cos γ · (radial unit vector) + sin γ · (axis unit vector), tan γ being the
taper; the second normalisation changes nothing. -/
theorem segNormal_spec (c0 : V3 ℝ) (r0 r1 : ℝ) (p0 pd cd v : V3 ℝ) (t : ℝ)
    (hv : v = ⟨p0.x + t * pd.x, p0.y + t * pd.y, p0.z + t * pd.z⟩) (hcd : dot cd cd ≠ 0) (hpc : dot pd cd ≠ 0)
    (foot : V3 ℝ)
    (hfoot : foot = ⟨c0.x + dot (vsub v c0) cd / dot cd cd * cd.x, c0.y + dot (vsub v c0) cd / dot cd cd * cd.y,
      c0.z + dot (vsub v c0) cd / dot cd cd * cd.z⟩)
    (hin : v ≠ foot) (L D : ℝ) (hL : L = Real.sqrt (dot cd cd)) (hD : D = Real.sqrt (dot (vsub v foot) (vsub v foot)))
    (cg sg : ℝ) (hcg : cg = Real.cos (Real.arctan ((r0 - r1) / L))) (hsg : sg = Real.sin (Real.arctan ((r0 - r1) / L))) :
    0 < L ∧ 0 < D ∧ dot (vsub v foot) cd = 0 ∧
    segNormal c0 r0 r1 p0 pd cd v t =
      ⟨cg * (v.x - foot.x) / D + sg * cd.x / L, cg * (v.y - foot.y) / D + sg * cd.y / L,
       cg * (v.z - foot.z) / D + sg * cd.z / L⟩ ∧
    dot (segNormal c0 r0 r1 p0 pd cd v t) (segNormal c0 r0 r1 p0 pd cd v t) = 1 := by
  have nn : ∀ w : V3 ℝ, 0 ≤ dot w w := fun w => by unfold dot; nlinarith [mul_self_nonneg w.x, mul_self_nonneg w.y, mul_self_nonneg w.z]
  have hLp : 0 < L := by rw [hL]; exact Real.sqrt_pos.mpr (lt_of_le_of_ne (nn cd) (Ne.symm hcd))
  have hDp : 0 < D := by
    rw [hD]
    refine Real.sqrt_pos.mpr (lt_of_le_of_ne (nn _) fun h0 => hin ?_)
    rcases v with ⟨vx, vy, vz⟩
    rcases foot with ⟨fx, fy, fz⟩
    simp only [dot, vsub, real_sub] at h0
    have h1 := mul_self_nonneg (vx - fx)
    have h2 := mul_self_nonneg (vy - fy)
    have h3 := mul_self_nonneg (vz - fz)
    have e1 : vx - fx = 0 := mul_self_eq_zero.mp (by linarith)
    have e2 : vy - fy = 0 := mul_self_eq_zero.mp (by linarith)
    have e3 : vz - fz = 0 := mul_self_eq_zero.mp (by linarith)
    rw [sub_eq_zero.mp e1, sub_eq_zero.mp e2, sub_eq_zero.mp e3]
  have horth : dot (vsub v foot) cd = 0 := by
    have : dot (vsub v foot) cd = dot (vsub v c0) cd - dot (vsub v c0) cd / dot cd cd * dot cd cd := by
      rw [hfoot]; simp only [dot, vsub, real_sub]; ring
    rw [this, div_mul_cancel₀ _ hcd, sub_self]
  have hf : (t + dot (vsub p0 c0) cd / dot pd cd) / (dot cd cd / dot pd cd) = dot (vsub v c0) cd / dot cd cd := by
    have : dot (vsub v c0) cd = t * dot pd cd + dot (vsub p0 c0) cd := by
      rw [hv]; simp only [dot, vsub, real_sub]; ring
    rw [this]; field_simp
  have hL2 : L ^ 2 = dot cd cd := by rw [hL]; exact Real.sq_sqrt (nn _)
  have hD2 : D ^ 2 = dot (vsub v foot) (vsub v foot) := by rw [hD]; exact Real.sq_sqrt (nn _)
  have hcs : cg ^ 2 + sg ^ 2 = 1 := by rw [hcg, hsg]; exact Real.cos_sq_add_sin_sq _
  have hunit : dot ⟨cg * (v.x - foot.x) / D + sg * cd.x / L, cg * (v.y - foot.y) / D + sg * cd.y / L,
       cg * (v.z - foot.z) / D + sg * cd.z / L⟩ ⟨cg * (v.x - foot.x) / D + sg * cd.x / L, cg * (v.y - foot.y) / D + sg * cd.y / L,
       cg * (v.z - foot.z) / D + sg * cd.z / L⟩ = 1 := by
    have : dot ⟨cg * (v.x - foot.x) / D + sg * cd.x / L, cg * (v.y - foot.y) / D + sg * cd.y / L,
       cg * (v.z - foot.z) / D + sg * cd.z / L⟩ ⟨cg * (v.x - foot.x) / D + sg * cd.x / L, cg * (v.y - foot.y) / D + sg * cd.y / L,
       cg * (v.z - foot.z) / D + sg * cd.z / L⟩ =
        cg ^ 2 * dot (vsub v foot) (vsub v foot) / D ^ 2 + sg ^ 2 * dot cd cd / L ^ 2
          + 2 * cg * sg * dot (vsub v foot) cd / (D * L) := by
      simp only [dot, vsub, real_sub]; field_simp; ring
    rw [this, horth, ← hD2, ← hL2]
    field_simp
    rw [hcs]; ring
  have hform : segNormal c0 r0 r1 p0 pd cd v t =
      ⟨cg * (v.x - foot.x) / D + sg * cd.x / L, cg * (v.y - foot.y) / D + sg * cd.y / L,
       cg * (v.z - foot.z) / D + sg * cd.z / L⟩ := by
    rw [← vnorm_unit _ hunit]
    unfold segNormal
    simp only [scalar_real, real_mul, real_add, real_div, real_sqrt, real_sub, real_atan, real_sin, real_cos, hf]
    rw [hcg, hsg, hL, hD, hfoot]
    rfl
  exact ⟨hLp, hDp, horth, hform, by rw [hform]; exact hunit⟩

theorem linAt_pos {z0 z1 v0 v1 z : ℝ} (h0 : 0 < v0) (h1 : 0 < v1) (hz : z0 < z1) (a : z0 ≤ z) (b : z ≤ z1) :
    0 < linAt z0 z1 v0 v1 z := by
  unfold linAt
  have hz' : 0 < z1 - z0 := by linarith
  have k0 : 0 ≤ (z - z0) / (z1 - z0) := div_nonneg (by linarith) hz'.le
  have k1 : (z - z0) / (z1 - z0) ≤ 1 := by rw [div_le_one hz']; linarith
  generalize (z - z0) / (z1 - z0) = k at k0 k1
  have : v0 + (v1 - v0) * k = (1 - k) * v0 + k * v1 := by ring
  rw [this]
  rcases eq_or_lt_of_le k0 with rfl | k0
  · simpa using h0
  · have : 0 ≤ (1 - k) * v0 := mul_nonneg (by linarith) h0.le
    have := mul_pos k0 h1
    linarith

/-- a successful interaction point in a capillary of positive radius is not on the axis -/
theorem offAxis {c0 c1 v foot : V3 ℝ} {r0 r1 f : ℝ} (hr0 : 0 < r0) (hr1 : 0 < r1) (hz : c0.z < c1.z)
    (a : c0.z ≤ v.z) (b : v.z ≤ c1.z) (hw : OnWall c0 c1 r0 r1 v)
    (hf : foot = ⟨c0.x + f * (c1.x - c0.x), c0.y + f * (c1.y - c0.y), c0.z + f * (c1.z - c0.z)⟩) : v ≠ foot := by
  intro h
  have hz' : c1.z - c0.z ≠ 0 := by linarith
  have hp := linAt_pos hr0 hr1 hz a b
  rw [h, hf] at hw hp
  unfold OnWall at hw
  have e : ∀ u w : ℝ, linAt c0.z c1.z u w (c0.z + f * (c1.z - c0.z)) = u + f * (w - u) := by
    intro u w; unfold linAt; field_simp; ring
  simp only [e] at hw hp
  have : (r0 + f * (r1 - r0)) ^ 2 = 0 := by rw [← hw]; ring
  nlinarith

/-- **C18**, normal: for positive radii and a photon not orthogonal to the capillary axis the normal
returned with a successful search is a unit vector, and it points away from the axis. -/
theorem segment_normal_unit (c0 c1 : V3 ℝ) (r0 r1 : ℝ) (p0 p1 d cur nrm v n : V3 ℝ)
    (hd : 0 < d.z) (ha : genCoeff c0 c1 r0 r1 d ≠ 0) (hr0 : 0 < r0) (hr1 : 0 < r1)
    (hpc : dot d (vsub c1 c0) ≠ 0)
    (h : segment c0 c1 r0 r1 p0 p1 d cur nrm = (1, v, n)) : dot n n = 1 := by
  obtain ⟨-, -, hz0, hz1, -, hw, -⟩ := segment_sound c0 c1 r0 r1 p0 p1 d cur nrm v n hd ha h
  obtain ⟨hr, hs, h1, h2, h2', h3, hx, hy, hn⟩ := segment_success h
  obtain ⟨g1, g2, g3, g4, g5, g6, g7, g8⟩ := segRejects_false.mp hr
  obtain ⟨s, hs0, es, es1⟩ := vnorm_scale d hd
  have e3 : 0 < (vnorm d).z := (slope_norm d hd).2.2
  have hpc' : dot (vnorm d) (vsub c1 c0) ≠ 0 := by
    rw [es]
    have : dot ⟨s * d.x, s * d.y, s * d.z⟩ (vsub c1 c0) = s * dot d (vsub c1 c0) := by simp only [dot]; ring
    rw [this]; exact mul_ne_zero hs0.ne' hpc
  have hcd : dot (vsub c1 c0) (vsub c1 c0) ≠ 0 := by
    simp only [dot, vsub, real_sub]
    have := mul_self_pos.mpr (show c1.z - c0.z ≠ 0 by linarith)
    nlinarith [mul_self_nonneg (c1.x - c0.x), mul_self_nonneg (c1.y - c0.y)]
  rw [hn]
  refine (segNormal_spec c0 r0 r1 p0 (vnorm d) (vsub c1 c0) v ((v.z - p0.z) / (vnorm d).z) ?_ hcd hpc' _ rfl ?_ _ _ rfl rfl _ _ rfl rfl).2.2.2.2
  · rcases v with ⟨vx, vy, vz⟩
    simp only at hx hy ⊢
    rw [hx, hy, div_mul_cancel₀ _ e3.ne']
    congr 1; ring
  · exact offAxis hr0 hr1 g8 hz0 hz1 hw rfl

/-- **C18**, normal of a capillary parallel to the optical axis: the returned unit normal is orthogonal
to the wall – to the circle of constant height and to the generator line through the point. -/
theorem segment_normal_orthogonal (c0 c1 : V3 ℝ) (r0 r1 : ℝ) (p0 p1 d cur nrm v n : V3 ℝ)
    (hd : 0 < d.z) (ha : genCoeff c0 c1 r0 r1 d ≠ 0) (hr0 : 0 < r0) (hr1 : 0 < r1)
    (hcx : c1.x = c0.x) (hcy : c1.y = c0.y)
    (h : segment c0 c1 r0 r1 p0 p1 d cur nrm = (1, v, n)) :
    dot n ⟨-(v.y - c0.y), v.x - c0.x, 0⟩ = 0 ∧
    dot n ⟨(v.x - c0.x) * (r1 - r0), (v.y - c0.y) * (r1 - r0), linAt c0.z c1.z r0 r1 v.z * (c1.z - c0.z)⟩ = 0 ∧
    0 < dot n ⟨v.x - c0.x, v.y - c0.y, 0⟩ := by
  obtain ⟨-, -, hz0, hz1, -, hw, -⟩ := segment_sound c0 c1 r0 r1 p0 p1 d cur nrm v n hd ha h
  obtain ⟨hr, hs, h1, h2, h2', h3, hx, hy, hn⟩ := segment_success h
  obtain ⟨g1, g2, g3, g4, g5, g6, g7, g8⟩ := segRejects_false.mp hr
  have e3 : 0 < (vnorm d).z := (slope_norm d hd).2.2
  have hz : 0 < c1.z - c0.z := by linarith
  have hcdv : vsub c1 c0 = ⟨0, 0, c1.z - c0.z⟩ := by simp only [vsub, real_sub, hcx, hcy, sub_self]
  have hcd : dot (vsub c1 c0) (vsub c1 c0) = (c1.z - c0.z) ^ 2 := by rw [hcdv]; simp only [dot]; ring
  have hpc' : dot (vnorm d) (vsub c1 c0) ≠ 0 := by
    rw [hcdv]; simp only [dot, mul_zero, zero_add]; exact mul_ne_zero e3.ne' hz.ne'
  have hR := linAt_pos hr0 hr1 g8 hz0 hz1
  have hfoot : (⟨c0.x + dot (vsub v c0) (vsub c1 c0) / dot (vsub c1 c0) (vsub c1 c0) * (vsub c1 c0).x,
      c0.y + dot (vsub v c0) (vsub c1 c0) / dot (vsub c1 c0) (vsub c1 c0) * (vsub c1 c0).y,
      c0.z + dot (vsub v c0) (vsub c1 c0) / dot (vsub c1 c0) (vsub c1 c0) * (vsub c1 c0).z⟩ : V3 ℝ) = ⟨c0.x, c0.y, v.z⟩ := by
    rw [hcd, hcdv]
    simp only [dot, vsub, real_sub, mul_zero, zero_add, add_zero]
    congr 1
    field_simp
    ring
  have hD : Real.sqrt (dot (vsub v ⟨c0.x, c0.y, v.z⟩) (vsub v ⟨c0.x, c0.y, v.z⟩)) = linAt c0.z c1.z r0 r1 v.z := by
    rw [Real.sqrt_eq_iff_mul_self_eq_of_pos hR]
    unfold OnWall at hw
    have e : ∀ u : ℝ, linAt c0.z c1.z u u v.z = u := fun u => by unfold linAt; ring
    rw [hcx, hcy, e, e] at hw
    simp only [dot, vsub, real_sub, sub_self, mul_zero, add_zero]
    nlinarith
  have hL : Real.sqrt (dot (vsub c1 c0) (vsub c1 c0)) = c1.z - c0.z := by rw [hcd]; exact Real.sqrt_sq hz.le
  have spec := segNormal_spec c0 r0 r1 p0 (vnorm d) (vsub c1 c0) v ((v.z - p0.z) / (vnorm d).z)
    (by
      rcases v with ⟨vx, vy, vz⟩
      simp only at hx hy ⊢
      rw [hx, hy, div_mul_cancel₀ _ e3.ne']
      congr 1; ring) (by rw [hcd]; positivity) hpc' ⟨c0.x, c0.y, v.z⟩ hfoot.symm
    (by
      refine offAxis (f := (v.z - c0.z) / (c1.z - c0.z)) hr0 hr1 g8 hz0 hz1 hw ?_
      rw [hcx, hcy, div_mul_cancel₀ _ hz.ne']
      simp) _ _ rfl rfl _ _ rfl rfl
  obtain ⟨-, -, -, hform, -⟩ := spec
  rw [hL, hD] at hform
  obtain ⟨-, hcpos, hsc⟩ := cos_sin_arctan ((r0 - r1) / (c1.z - c0.z))
  rw [hn, hform, hsc, hcdv]
  generalize Real.cos (Real.arctan ((r0 - r1) / (c1.z - c0.z))) = cg at hcpos
  have hw' : (v.x - c0.x) ^ 2 + (v.y - c0.y) ^ 2 = linAt c0.z c1.z r0 r1 v.z ^ 2 := by
    unfold OnWall at hw
    have e : ∀ u : ℝ, linAt c0.z c1.z u u v.z = u := fun u => by unfold linAt; ring
    rwa [hcx, hcy, e, e] at hw
  generalize linAt c0.z c1.z r0 r1 v.z = R at *
  refine ⟨?_, ?_, ?_⟩
  · simp only [dot]; field_simp; ring
  · have key : ∀ a b R cg k l : ℝ, R ≠ 0 → l ≠ 0 → (cg * a / R + -k / l * cg * 0 / l) * (a * k) + (cg * b / R + -k / l * cg * 0 / l) * (b * k)
        + (cg * (v.z - v.z) / R + -k / l * cg * l / l) * (R * l) = cg * k / R * (a ^ 2 + b ^ 2 - R ^ 2) := by
      intro a b R cg k l hR hl
      field_simp; ring
    have := key (v.x - c0.x) (v.y - c0.y) R cg (r1 - r0) (c1.z - c0.z) hR.ne' hz.ne'
    rw [hw', sub_self (R ^ 2), mul_zero (cg * (r1 - r0) / R), neg_sub] at this
    exact this
  · have : dot ⟨cg * (v.x - c0.x) / R + (r0 - r1) / (c1.z - c0.z) * cg * 0 / (c1.z - c0.z),
        cg * (v.y - c0.y) / R + (r0 - r1) / (c1.z - c0.z) * cg * 0 / (c1.z - c0.z),
        cg * (v.z - v.z) / R + (r0 - r1) / (c1.z - c0.z) * cg * (c1.z - c0.z) / (c1.z - c0.z)⟩ ⟨v.x - c0.x, v.y - c0.y, 0⟩ = cg * R := by
      have : cg * R = cg * R ^ 2 / R := by field_simp
      rw [this, ← hw']
      simp only [dot]; field_simp; ring
    rw [this]; positivity

/-- a concrete case of all the hypotheses above: a conical capillary of length 10, radius 1 to 1/2, hit
by a photon entering on the axis with slope 1/10: the wall is met at height 20/3. -/
theorem segment_example : ∃ n,
    segment (⟨0, 0, 0⟩ : V3 ℝ) ⟨0, 0, 10⟩ 1 (1/2) ⟨0, 0, 0⟩ ⟨1, 0, 10⟩ ⟨1, 0, 10⟩ ⟨0, 0, 0⟩ ⟨0, 0, 0⟩ =
      (1, ⟨2/3, 0, 20/3⟩, n) := by
  have hd : (0:ℝ) < (⟨1, 0, 10⟩ : V3 ℝ).z := by norm_num
  obtain ⟨e1, e2, e3⟩ := slope_norm ⟨1, 0, 10⟩ hd
  have hr : segRejects (⟨0, 0, 0⟩ : V3 ℝ) ⟨0, 0, 10⟩ 1 (1/2) ⟨0, 0, 0⟩ ⟨1, 0, 10⟩ ⟨1, 0, 10⟩ = false := by
    rw [segRejects_false]; norm_num
  have hs : segSolve (segA (⟨0, 0, 0⟩ : V3 ℝ) ⟨0, 0, 10⟩ 1 (1/2) (vnorm ⟨1, 0, 10⟩) (vsub ⟨0, 0, 10⟩ ⟨0, 0, 0⟩))
      (segB (⟨0, 0, 0⟩ : V3 ℝ) ⟨0, 0, 10⟩ 1 (1/2) ⟨0, 0, 0⟩ (vnorm ⟨1, 0, 10⟩) (vsub ⟨0, 0, 10⟩ ⟨0, 0, 0⟩))
      (segC (⟨0, 0, 0⟩ : V3 ℝ) 1 ⟨0, 0, 0⟩) 0 0 10 0 = .inr (20/3) := by
    have ea : segA (⟨0, 0, 0⟩ : V3 ℝ) ⟨0, 0, 10⟩ 1 (1/2) (vnorm ⟨1, 0, 10⟩) (vsub ⟨0, 0, 10⟩ ⟨0, 0, 0⟩) = 3/400 := by
      simp only [segA, segSlopes, segTaper, vsub, real_mul, real_div, real_add, real_sub, e1, e2]; norm_num
    have eb : segB (⟨0, 0, 0⟩ : V3 ℝ) ⟨0, 0, 10⟩ 1 (1/2) ⟨0, 0, 0⟩ (vnorm ⟨1, 0, 10⟩) (vsub ⟨0, 0, 10⟩ ⟨0, 0, 0⟩) = 1/10 := by
      simp only [segB, segSlopes, segTaper, vsub, real_mul, real_div, real_add, real_sub, real_lit, e1, e2]; norm_num
    have ec : segC (⟨0, 0, 0⟩ : V3 ℝ) 1 ⟨0, 0, 0⟩ = -1 := by
      simp only [segC, real_mul, real_add, real_sub]; norm_num
    rw [ea, eb, ec, segSolve_real]
    have hsq : Real.sqrt ((1/10) * (1/10) - 4 * (3/400) * (-1)) = 1/5 := by
      rw [show ((1/10) * (1/10) - 4 * (3/400) * (-1) : ℝ) = (1/5) ^ 2 by norm_num]
      exact Real.sqrt_sq (by norm_num)
    rw [hsq, if_neg (by norm_num), if_neg (by norm_num), if_neg (by unfold segBadR; norm_num), if_pos (by unfold segBadR; norm_num)]
    norm_num
  suffices hh : ∀ x : Int × V3 ℝ × V3 ℝ, x.1 = 1 → x.2.1 = ⟨2/3, 0, 20/3⟩ → ∃ n, x = (1, ⟨2/3, 0, 20/3⟩, n) by
    refine hh _ ?_ ?_
    all_goals
      have e3' : (vnorm (⟨1, 0, 10⟩ : V3 ℝ)).z ≠ 0 := e3.ne'
      have ex : (vnorm (⟨1, 0, 10⟩ : V3 ℝ)).x / (vnorm (⟨1, 0, 10⟩ : V3 ℝ)).z = 1 / 10 := by rw [e1]
      have ey : (vnorm (⟨1, 0, 10⟩ : V3 ℝ)).y / (vnorm (⟨1, 0, 10⟩ : V3 ℝ)).z = 0 := by rw [e2]; simp
      have e4 : (vnorm (⟨1, 0, 10⟩ : V3 ℝ)).z ≤ 1 := by
        obtain ⟨s, hs, e, h1⟩ := vnorm_scale ⟨1, 0, 10⟩ hd
        rw [e]
        simp only at h1 ⊢
        nlinarith
      have h10 : ¬ ((20/3 - 0 : ℝ) / (vnorm (⟨1, 0, 10⟩ : V3 ℝ)).z < 1 / 10 ^ 10) := by
        rw [not_lt, le_div_iff₀ e3]
        norm_num
        linarith
      rw [segment_of_solved hr hs, if_neg (by norm_num), if_neg (by norm_num), if_neg h10]
    rw [V3.mk.injEq]
    refine ⟨?_, ?_, rfl⟩
    · rw [← mul_div_right_comm, mul_div_assoc, ex]; norm_num
    · rw [← mul_div_right_comm, mul_div_assoc, ey]; norm_num
  rintro ⟨a, b, c⟩ h1 h2
  exact ⟨c, Prod.ext h1 (Prod.ext h2 rfl)⟩

example : genCoeff (⟨0, 0, 0⟩ : V3 ℝ) ⟨0, 0, 10⟩ 1 (1/2) ⟨1, 0, 10⟩ ≠ 0 := by unfold genCoeff; norm_num
example : dot (⟨1, 0, 10⟩ : V3 ℝ) (vsub ⟨0, 0, 10⟩ ⟨0, 0, 0⟩) ≠ 0 := by simp [dot, vsub]

/-! ## C19 -/

/-- all coordinates finite -/
def FinV (v : V3 XR) : Prop := ∃ w : V3 ℝ, v = ⟨.fin w.x, .fin w.y, .fin w.z⟩

/-- a vector of finite doubles -/
def finV (v : V3 ℝ) : V3 XR := ⟨.fin v.x, .fin v.y, .fin v.z⟩

/-- **C19 is false of the code.**  A photon flying down the middle of a constant-radius capillary,
parallel to its axis: all inputs are finite and admissible, the search reports success, and the
"interaction point" is NaN. -/
theorem segment_nan_success : ∃ v n,
    segment (finV ⟨0, 0, 0⟩) (finV ⟨0, 0, 1⟩) (.fin 1) (.fin 1) (finV ⟨0, 0, 0⟩) (finV ⟨0, 0, 1⟩) (finV ⟨0, 0, 1⟩)
      (finV ⟨0, 0, 0⟩) (finV ⟨0, 0, 0⟩) = (1, v, n) ∧ v = ⟨.nan, .nan, .nan⟩ ∧ ¬ FinV v := by
  have hn : vnorm (finV ⟨0, 0, 1⟩) = finV ⟨0, 0, 1⟩ := by
    simp only [vnorm, finV, xr_mul, xr_add]
    rw [xr_sqrt _ (by norm_num)]
    simp only [mul_zero, zero_add, mul_one, Real.sqrt_one]
    rw [xr_div _ _ one_ne_zero, xr_div _ _ one_ne_zero]
    norm_num
  have hs : segSolve (segA (finV ⟨0, 0, 0⟩) (finV ⟨0, 0, 1⟩) (.fin 1) (.fin 1) (finV ⟨0, 0, 1⟩) (vsub (finV ⟨0, 0, 1⟩) (finV ⟨0, 0, 0⟩)))
      (segB (finV ⟨0, 0, 0⟩) (finV ⟨0, 0, 1⟩) (.fin 1) (.fin 1) (finV ⟨0, 0, 0⟩) (finV ⟨0, 0, 1⟩) (vsub (finV ⟨0, 0, 1⟩) (finV ⟨0, 0, 0⟩)))
      (segC (finV ⟨0, 0, 0⟩) (.fin 1) (finV ⟨0, 0, 0⟩)) (finV ⟨0, 0, 0⟩).z (finV ⟨0, 0, 0⟩).z (finV ⟨0, 0, 1⟩).z (finV ⟨0, 0, 0⟩).z = .inr .nan := by
    have d1 : ∀ x : ℝ, CNum.div (XR.fin x) (XR.fin 1) = XR.fin x := fun x => by rw [xr_div _ _ one_ne_zero, div_one]
    have ea : segA (finV ⟨0, 0, 0⟩) (finV ⟨0, 0, 1⟩) (.fin 1) (.fin 1) (finV ⟨0, 0, 1⟩) (vsub (finV ⟨0, 0, 1⟩) (finV ⟨0, 0, 0⟩)) = .fin 0 := by
      simp [segA, segSlopes, segTaper, vsub, finV, d1]
    have eb : segB (finV ⟨0, 0, 0⟩) (finV ⟨0, 0, 1⟩) (.fin 1) (.fin 1) (finV ⟨0, 0, 0⟩) (finV ⟨0, 0, 1⟩) (vsub (finV ⟨0, 0, 1⟩) (finV ⟨0, 0, 0⟩)) = .fin 0 := by
      simp [segB, segSlopes, segTaper, vsub, finV, d1]
    have ec : segC (finV ⟨0, 0, 0⟩) (.fin 1) (finV ⟨0, 0, 0⟩) = .fin (-1) := by
      simp [segC, finV]
    rw [ea, eb, ec]
    simp [segSolve, finV, xr_div_zero_zero]
  have hr : segRejects (finV ⟨0, 0, 0⟩) (finV ⟨0, 0, 1⟩) (.fin 1) (.fin 1) (finV ⟨0, 0, 0⟩) (finV ⟨0, 0, 1⟩) (finV ⟨0, 0, 1⟩) = false := by
    simp [segRejects, finV]
  have key : ∀ x : Int × V3 XR × V3 XR, x.1 = 1 → x.2.1 = ⟨.nan, .nan, .nan⟩ →
      ∃ v n, x = (1, v, n) ∧ v = ⟨.nan, .nan, .nan⟩ ∧ ¬ FinV v := by
    rintro ⟨a, b, c⟩ h1 h2
    refine ⟨b, c, Prod.ext h1 rfl, h2, ?_⟩
    rintro ⟨w, h⟩
    simp only at h2
    rw [h2] at h
    cases h
  refine key _ ?_ ?_ <;>
  · unfold segment
    simp only [hr, hn, hs, Bool.false_eq_true, if_false]
    simp

theorem finV_vnorm (d : V3 ℝ) (hd : 0 < d.z) : vnorm (finV d) = finV (vnorm d) := by
  have hsq : 0 < d.x * d.x + d.y * d.y + d.z * d.z := by
    have : 0 < d.z * d.z := mul_self_pos.mpr hd.ne'
    nlinarith [mul_self_nonneg d.x, mul_self_nonneg d.y]
  have hs := (Real.sqrt_pos.mpr hsq).ne'
  simp only [vnorm, finV, xr_mul, xr_add, real_mul, real_add, real_sqrt, real_div]
  rw [xr_sqrt _ hsq.le, xr_div _ _ hs, xr_div _ _ hs, xr_div _ _ hs]

theorem finV_vsub (a b : V3 ℝ) : vsub (finV a) (finV b) = finV (vsub a b) := by
  simp [vsub, finV]

theorem segA_fin (c0 c1 : V3 ℝ) (r0 r1 : ℝ) (pd : V3 ℝ) (hp : pd.z ≠ 0) (hc : c1.z - c0.z ≠ 0) :
    segA (finV c0) (finV c1) (.fin r0) (.fin r1) (finV pd) (finV (vsub c1 c0)) = .fin (segA c0 c1 r0 r1 pd (vsub c1 c0)) := by
  have hc' : (vsub c1 c0).z ≠ 0 := hc
  simp only [segA, segSlopes, segTaper, finV, xr_sub, xr_div _ _ hp, xr_div _ _ hc, xr_div _ _ hc', xr_mul, xr_add,
    real_sub, real_div, real_mul, real_add]

theorem segB_fin (c0 c1 : V3 ℝ) (r0 r1 : ℝ) (p0 pd : V3 ℝ) (hp : pd.z ≠ 0) (hc : c1.z - c0.z ≠ 0) :
    segB (finV c0) (finV c1) (.fin r0) (.fin r1) (finV p0) (finV pd) (finV (vsub c1 c0)) = .fin (segB c0 c1 r0 r1 p0 pd (vsub c1 c0)) := by
  have hc' : (vsub c1 c0).z ≠ 0 := hc
  simp only [segB, segSlopes, segTaper, finV, xr_sub, xr_div _ _ hp, xr_div _ _ hc, xr_div _ _ hc', xr_mul, xr_add, xr_lit,
    real_sub, real_div, real_mul, real_add, real_lit]

theorem segC_fin (c0 : V3 ℝ) (r0 : ℝ) (p0 : V3 ℝ) : segC (finV c0) (.fin r0) (finV p0) = .fin (segC c0 r0 p0) := by
  simp only [segC, finV, xr_sub, xr_mul, xr_add, real_sub, real_mul, real_add]

theorem segBad_fin (z z0 z1 cur : ℝ) : segBad (XR.fin z) (.fin z0) (.fin z1) (.fin cur) = segBad z z0 z1 cur := by
  simp only [segBad, gt, xr_lt, xr_sub, xr_lit, real_lt, real_sub, real_lit]

theorem segSolve_fin (a b c p0z z0 z1 cur : ℝ) (ha : a ≠ 0) :
    segSolve (XR.fin a) (.fin b) (.fin c) (.fin p0z) (.fin z0) (.fin z1) (.fin cur) =
      Sum.map id XR.fin (segSolve a b c p0z z0 z1 cur) := by
  have e0 : ((0:ℚ):ℝ) = 0 := by norm_num
  have ha2 : ((2:ℚ):ℝ) * a ≠ 0 := by simpa using ha
  unfold segSolve
  simp only [xr_mul, xr_sub, xr_lit, xr_lt, xr_beq, xr_add, xr_div _ _ ha2, real_mul, real_sub, real_lit, real_lt, real_beq,
    real_add, real_div, real_sqrt, e0]
  by_cases h1 : b * b - ((4:ℚ):ℝ) * a * c < 0
  · simp only [h1, decide_true, if_true, Sum.map_inl, id]
  · rw [xr_sqrt _ (not_lt.mp h1)]
    simp only [h1, decide_false, Bool.false_eq_true, if_false, xr_add, xr_sub, xr_div _ _ ha2, segBad_fin, xr_lt]
    split_ifs <;> simp only [Sum.map_inl, Sum.map_inr, id]

theorem segRejects_fin (c0 c1 : V3 ℝ) (r0 r1 : ℝ) (p0 p1 d : V3 ℝ) :
    segRejects (finV c0) (finV c1) (.fin r0) (.fin r1) (finV p0) (finV p1) (finV d) = segRejects c0 c1 r0 r1 p0 p1 d := by
  simp only [segRejects, finV, xr_lt, xr_lit, xr_le, xr_beq, CNum.bne, real_lt, real_lit, real_le, real_beq]

/-- **C19**, what does hold: for finite inputs, a photon moving downstream and not parallel to a
generator line, a successful search returns finite coordinates – those of exact arithmetic. -/
theorem segment_finite_partial (c0 c1 : V3 ℝ) (r0 r1 : ℝ) (p0 p1 d cur : V3 ℝ) (nrm v n : V3 XR)
    (hd : 0 < d.z) (ha : genCoeff c0 c1 r0 r1 d ≠ 0)
    (h : segment (finV c0) (finV c1) (.fin r0) (.fin r1) (finV p0) (finV p1) (finV d) (finV cur) nrm = (1, v, n)) :
    FinV v ∧ ∃ w m, v = finV w ∧ segment c0 c1 r0 r1 p0 p1 d cur ⟨0, 0, 0⟩ = (1, w, m) := by
  suffices hh : ∃ w m, v = finV w ∧ segment c0 c1 r0 r1 p0 p1 d cur ⟨0, 0, 0⟩ = (1, w, m) by
    obtain ⟨w, m, e, h'⟩ := hh
    exact ⟨⟨w, e⟩, w, m, e, h'⟩
  have hp : (vnorm d).z ≠ 0 := (slope_norm d hd).2.2.ne'
  rw [← genCoeff_eq c0 c1 r0 r1 d hd] at ha
  unfold segment at h
  rw [segRejects_fin] at h
  cases hr : segRejects c0 c1 r0 r1 p0 p1 d with
  | true => simp [hr] at h
  | false =>
  have hz := (segRejects_false.mp hr).2.2.2.2.2.2.2
  have hc : c1.z - c0.z ≠ 0 := by linarith
  simp only [hr, Bool.false_eq_true, if_false, finV_vnorm d hd, finV_vsub, segA_fin c0 c1 r0 r1 _ hp hc,
    segB_fin c0 c1 r0 r1 p0 _ hp hc, segC_fin] at h
  have hs' := segSolve_fin (segA c0 c1 r0 r1 (vnorm d) (vsub c1 c0)) (segB c0 c1 r0 r1 p0 (vnorm d) (vsub c1 c0))
    (segC c0 r0 p0) p0.z c0.z c1.z cur.z ha
  change segSolve _ _ _ (finV p0).z (finV c0).z (finV c1).z (finV cur).z = _ at hs'
  rw [hs'] at h
  cases hs : segSolve (segA c0 c1 r0 r1 (vnorm d) (vsub c1 c0)) (segB c0 c1 r0 r1 p0 (vnorm d) (vsub c1 c0))
      (segC c0 r0 p0) p0.z c0.z c1.z cur.z with
  | inl k =>
    rw [hs] at h
    simp only [Sum.map_inl, id, Prod.mk.injEq] at h
    have := (segSolve_none ha hs).1
    omega
  | inr z =>
    rw [hs] at h
    have e5 : ((1/10^5:ℚ):ℝ) = 1/10^5 := by norm_num
    have e10 : ((1/10^10:ℚ):ℝ) = 1/10^10 := by norm_num
    simp only [Sum.map_inr, finV, gt, xr_lt, xr_sub, xr_lit, xr_div _ _ hp, xr_mul, xr_add, e5, e10, Bool.or_eq_true,
      decide_eq_true_eq] at h
    rw [segment_of_solved hr hs]
    split_ifs at h ⊢ with h1 h2 h3
    · simp at h
    · simp at h
    · simp at h
    · simp only [Prod.mk.injEq, true_and] at h
      exact ⟨⟨p0.x + (z - p0.z) / (vnorm d).z * (vnorm d).x, p0.y + (z - p0.z) / (vnorm d).z * (vnorm d).y, z⟩, _,
        h.1.symm, rfl⟩

end Polycap
