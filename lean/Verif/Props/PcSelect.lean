import Verif.Props.PcIntersect
import Mathlib.Order.Bounds.Basic

/-!
# C44: which crossing of the outer hexagon is returned
-/
namespace Polycap
open CNum
set_option linter.unusedSimpArgs false
set_option linter.unusedTactic false
set_option linter.unnecessarySeqFocus false

/-! ## Which of the viable crossings is returned -/

/-- the selection is exact: with all three crossings compared by a total order it returns the extreme viable one, and
nothing only if none is viable -/
theorem selectZ_max (P : ℝ → Bool) (z1 z2 z3 : ℝ) :
    (∀ z, selectZ (fun a b : ℝ => a >=. b) (fun a b => a >. b) (P z1) (P z2) (P z3) z1 z2 z3 = some (some z) →
      IsGreatest {w | (w = z1 ∨ w = z2 ∨ w = z3) ∧ P w = true} z) ∧
    ((P z1 = true ∨ P z2 = true ∨ P z3 = true) →
      ∃ z, selectZ (fun a b : ℝ => a >=. b) (fun a b => a >. b) (P z1) (P z2) (P z3) z1 z2 z3 = some (some z)) := by
  have key : ∀ z, selectZ (fun a b : ℝ => a >=. b) (fun a b => a >. b) (P z1) (P z2) (P z3) z1 z2 z3 = some (some z) →
      ((z = z1 ∨ z = z2 ∨ z = z3) ∧ P z = true) ∧ (P z1 = true → z1 ≤ z) ∧ (P z2 = true → z2 ≤ z) ∧ (P z3 = true → z3 ≤ z) := by
    intro z h
    simp only [selectZ, gt, real_le, real_lt] at h
    cases h1 : P z1 <;> cases h2 : P z2 <;> cases h3 : P z3 <;>
      simp only [h1, h2, h3, Bool.and_true, Bool.and_false, Bool.false_eq_true, if_true, if_false, Bool.and_eq_true, decide_eq_true_eq, reduceCtorEq, Option.some.injEq] at h <;>
      (try split at h) <;> (try split at h) <;> (try split at h) <;> simp_all <;> (try subst h) <;> (try simp_all) <;> grind
  refine ⟨fun z h => ?_, ?_⟩
  · obtain ⟨k1, k2, k3, k4⟩ := key z h
    refine ⟨k1, ?_⟩
    rintro w ⟨rfl | rfl | rfl, hw⟩
    · exact k2 hw
    · exact k3 hw
    · exact k4 hw
  · intro h
    simp only [selectZ, gt, real_le, real_lt]
    cases h1 : P z1 <;> cases h2 : P z2 <;> cases h3 : P z3 <;>
      simp only [h1, h2, h3, Bool.and_true, Bool.and_false, Bool.false_eq_true, if_true, if_false, Bool.and_eq_true, decide_eq_true_eq] <;>
      (try split) <;> (try split) <;> (try split) <;> simp_all <;> grind

theorem selectZ_min (P : ℝ → Bool) (z1 z2 z3 : ℝ) :
    (∀ z, selectZ (fun a b : ℝ => a <=. b) (fun a b => a <. b) (P z1) (P z2) (P z3) z1 z2 z3 = some (some z) →
      IsLeast {w | (w = z1 ∨ w = z2 ∨ w = z3) ∧ P w = true} z) ∧
    ((P z1 = true ∨ P z2 = true ∨ P z3 = true) →
      ∃ z, selectZ (fun a b : ℝ => a <=. b) (fun a b => a <. b) (P z1) (P z2) (P z3) z1 z2 z3 = some (some z)) := by
  have key : ∀ z, selectZ (fun a b : ℝ => a <=. b) (fun a b => a <. b) (P z1) (P z2) (P z3) z1 z2 z3 = some (some z) →
      ((z = z1 ∨ z = z2 ∨ z = z3) ∧ P z = true) ∧ (P z1 = true → z ≤ z1) ∧ (P z2 = true → z ≤ z2) ∧ (P z3 = true → z ≤ z3) := by
    intro z h
    simp only [selectZ, real_le, real_lt] at h
    cases h1 : P z1 <;> cases h2 : P z2 <;> cases h3 : P z3 <;>
      simp only [h1, h2, h3, Bool.and_true, Bool.and_false, Bool.false_eq_true, if_true, if_false, Bool.and_eq_true, decide_eq_true_eq, reduceCtorEq, Option.some.injEq] at h <;>
      (try split at h) <;> (try split at h) <;> (try split at h) <;> simp_all <;> (try subst h) <;> (try simp_all) <;> grind
  refine ⟨fun z h => ?_, ?_⟩
  · obtain ⟨k1, k2, k3, k4⟩ := key z h
    refine ⟨k1, ?_⟩
    rintro w ⟨rfl | rfl | rfl, hw⟩
    · exact k2 hw
    · exact k3 hw
    · exact k4 hw
  · intro h
    simp only [selectZ, real_le, real_lt]
    cases h1 : P z1 <;> cases h2 : P z2 <;> cases h3 : P z3 <;>
      simp only [h1, h2, h3, Bool.and_true, Bool.and_false, Bool.false_eq_true, if_true, if_false, Bool.and_eq_true, decide_eq_true_eq] <;>
      (try split) <;> (try split) <;> (try split) <;> simp_all <;> grind

/-- the z values the code computes for the crossings of the photon line with the three pairs of opposite hexagon sides,
from the profile points `b` (where the search stopped) and `e` (the one before) -/
noncomputable def crossings (p : Profile ℝ) (c d : V3 ℝ) (b e : ℕ) : Set ℝ :=
  let pb := proj3 c d (p.z b)
  let pe := proj3 c d (p.z e)
  let f := edgeZ (p.ext b) (p.ext e) (hexApothem (p.ext b)) (hexApothem (p.ext e))
  {w | w = f |pb.y| |pe.y| ∨ w = f |cospi6 * pb.x + 1 / 2 * pb.y| |cospi6 * pe.x + 1 / 2 * pe.y| ∨
    w = f |cospi6 * pb.x - 1 / 2 * pb.y| |cospi6 * pe.x - 1 / 2 * pe.y|}

theorem pcFinish_select (p : Profile ℝ) (c d v : V3 ℝ) (b e : ℕ) (dir : ℤ) (hb : b ≤ p.nmax) (he : e ≤ p.nmax) (hd : (b : ℤ) - dir = e)
    (hz : d.z ≠ 0) (h : pcFinish p c d dir b = .ok (some v)) :
    (dir < 0 → (∃ w ∈ crossings p c d b e, p.z b ≤ w ∧ w ≤ p.z e) → IsGreatest {w ∈ crossings p c d b e | p.z b ≤ w ∧ w ≤ p.z e} v.z) ∧
    (¬ dir < 0 → (∃ w ∈ crossings p c d b e, p.z e ≤ w ∧ w ≤ p.z b) → IsLeast {w ∈ crossings p c d b e | p.z e ≤ w ∧ w ≤ p.z b} v.z) ∧
    ((∀ w ∈ crossings p c d b e, ¬ (min (p.z b) (p.z e) ≤ w ∧ w ≤ max (p.z b) (p.z e))) → v = proj3 c d (p.z e)) := by
  have hpz : ∀ zz, (proj3 c d zz).z = zz := by
    intro zz
    simp only [proj3, real_add, real_mul, real_sub, real_div]
    field_simp
    ring
  unfold pcFinish at h
  have e1 : rd p.z p.nmax (b : ℤ) = .ok (p.z b) := rd_ok.mpr ⟨⟨by omega, by omega⟩, by simp⟩
  have e2 : rd p.z p.nmax ((b : ℤ) - dir) = .ok (p.z e) := rd_ok.mpr ⟨⟨by omega, by omega⟩, by rw [hd]; simp⟩
  have e3 : rd p.ext p.nmax (b : ℤ) = .ok (p.ext b) := rd_ok.mpr ⟨⟨by omega, by omega⟩, by simp⟩
  have e4 : rd p.ext p.nmax ((b : ℤ) - dir) = .ok (p.ext e) := rd_ok.mpr ⟨⟨by omega, by omega⟩, by rw [hd]; simp⟩
  simp only [e1, e2, e3, e4, Out.bind_ok] at h
  have f1 : ∀ q : V3 ℝ, fabs (lit 0 *. q.x +. lit 1 *. q.y) = |q.y| := by intro q; simp
  have f2 : ∀ q : V3 ℝ, fabs (cospi6 *. q.x +. lit (1/2) *. q.y) = |cospi6 * q.x + 1 / 2 * q.y| := by intro q; simp
  have f3 : ∀ q : V3 ℝ, fabs (cospi6 *. q.x +. lit (-1/2) *. q.y) = |cospi6 * q.x - 1 / 2 * q.y| := by
    intro q
    simp only [real_fabs, real_add, real_mul, real_lit]
    congr 1
    push_cast
    ring
  simp only [f1, f2, f3] at h
  have cr : crossings p c d b e = {w | w = edgeZ (p.ext b) (p.ext e) (hexApothem (p.ext b)) (hexApothem (p.ext e)) |(proj3 c d (p.z b)).y| |(proj3 c d (p.z e)).y| ∨
    w = edgeZ (p.ext b) (p.ext e) (hexApothem (p.ext b)) (hexApothem (p.ext e)) |cospi6 * (proj3 c d (p.z b)).x + 1 / 2 * (proj3 c d (p.z b)).y| |cospi6 * (proj3 c d (p.z e)).x + 1 / 2 * (proj3 c d (p.z e)).y| ∨
    w = edgeZ (p.ext b) (p.ext e) (hexApothem (p.ext b)) (hexApothem (p.ext e)) |cospi6 * (proj3 c d (p.z b)).x - 1 / 2 * (proj3 c d (p.z b)).y| |cospi6 * (proj3 c d (p.z e)).x - 1 / 2 * (proj3 c d (p.z e)).y|} := rfl
  rw [cr]
  generalize edgeZ _ _ _ _ |(proj3 c d (p.z b)).y| |(proj3 c d (p.z e)).y| = z1 at h ⊢
  generalize edgeZ _ _ _ _ |cospi6 * (proj3 c d (p.z b)).x + 1 / 2 * (proj3 c d (p.z b)).y| _ = z2 at h ⊢
  generalize edgeZ _ _ _ _ |cospi6 * (proj3 c d (p.z b)).x - 1 / 2 * (proj3 c d (p.z b)).y| _ = z3 at h ⊢
  by_cases hn : dir < 0
  · simp only [hn, if_true, not_true, false_imp_iff, true_and, forall_true_left] at h ⊢
    have mx := selectZ_max (fun z => z >=. p.z b && z <=. p.z e) z1 z2 z3
    set sel := selectZ (α := ℝ) _ _ _ _ _ _ _ _ with hsel
    have hset : {w | (w = z1 ∨ w = z2 ∨ w = z3) ∧ (w >=. p.z b && w <=. p.z e) = true} =
        {w | w ∈ {w | w = z1 ∨ w = z2 ∨ w = z3} ∧ p.z b ≤ w ∧ w ≤ p.z e} := by
      ext w; simp
    rw [hset] at mx
    constructor
    · rintro ⟨w, hw, hv⟩
      obtain ⟨z, hzz⟩ := mx.2 (by rcases hw with rfl | rfl | rfl <;> simp [hv])
      have := mx.1 z hzz
      simp only [hzz, Out.ok.injEq, Option.some.injEq] at h
      rw [← h, hpz]
      exact this
    · intro hno
      rcases hcase : sel with _ | _ | zf
      · simp [hcase] at h
      · simp only [hcase, Out.ok.injEq, Option.some.injEq] at h
        exact h.symm
      · have := (mx.1 zf hcase).1
        exact absurd ⟨(min_le_left _ _).trans this.2.1, this.2.2.trans (le_max_right _ _)⟩ (hno zf this.1)
  · simp only [hn, if_false, not_false_eq_true, false_imp_iff, true_and, forall_true_left] at h ⊢
    have mx := selectZ_min (fun z => z <=. p.z b && z >=. p.z e) z1 z2 z3
    set sel := selectZ (α := ℝ) _ _ _ _ _ _ _ _ with hsel
    have hset : {w | (w = z1 ∨ w = z2 ∨ w = z3) ∧ (w <=. p.z b && w >=. p.z e) = true} =
        {w | w ∈ {w | w = z1 ∨ w = z2 ∨ w = z3} ∧ p.z e ≤ w ∧ w ≤ p.z b} := by
      ext w; simp; tauto
    rw [hset] at mx
    constructor
    · rintro ⟨w, hw, hv⟩
      obtain ⟨z, hzz⟩ := mx.2 (by rcases hw with rfl | rfl | rfl <;> simp [hv])
      have := mx.1 z hzz
      simp only [hzz, Out.ok.injEq, Option.some.injEq] at h
      rw [← h, hpz]
      exact this
    · intro hno
      rcases hcase : sel with _ | _ | zf
      · simp [hcase] at h
      · simp only [hcase, Out.ok.injEq, Option.some.injEq] at h
        exact h.symm
      · have := (mx.1 zf hcase).1
        exact absurd ⟨(min_le_right _ _).trans this.2.1, this.2.2.trans (le_max_left _ _)⟩ (hno zf this.1)

/-- **C44.** Of the crossings with the hexagon sides that lie in the segment where the in-optic status changes, the one
returned is the one closest to the given point (largest z for a photon travelling forward, smallest for one travelling
backward); if no crossing lies in the segment, the end of the segment nearer to the given point is returned. -/
theorem pc_intersect_nearest (p : Profile ℝ) (hn : 1 ≤ p.nmax) (hz : ∀ i < p.nmax, p.z i < p.z (i + 1))
    (c d v : V3 ℝ) (e e' : EArg) (h : pcIntersect p c d e = .ok (some v, e')) :
    ∃ k < p.nmax,
      if 0 < d.z then
        ownStatus p c ≠ lineStatus p c (revDir d) k ∧
        (∀ i, k < i → i ≤ segIdFrom p.z 0 c.z p.nmax → ownStatus p c = lineStatus p c (revDir d) i) ∧
        ((∃ w ∈ crossings p c (revDir d) k (k + 1), p.z k ≤ w ∧ w ≤ p.z (k + 1)) →
          IsGreatest {w ∈ crossings p c (revDir d) k (k + 1) | p.z k ≤ w ∧ w ≤ p.z (k + 1)} v.z) ∧
        ((∀ w ∈ crossings p c (revDir d) k (k + 1), ¬ (p.z k ≤ w ∧ w ≤ p.z (k + 1))) → v = proj3 c (revDir d) (p.z (k + 1)))
      else
        ownStatus p c ≠ lineStatus p c (revDir d) (k + 1) ∧
        (∀ i, segIdFrom p.z 0 c.z p.nmax < i → i ≤ k → ownStatus p c = lineStatus p c (revDir d) i) ∧
        ((∃ w ∈ crossings p c (revDir d) (k + 1) k, p.z k ≤ w ∧ w ≤ p.z (k + 1)) →
          IsLeast {w ∈ crossings p c (revDir d) (k + 1) k | p.z k ≤ w ∧ w ≤ p.z (k + 1)} v.z) ∧
        ((∀ w ∈ crossings p c (revDir d) (k + 1) k, ¬ (p.z k ≤ w ∧ w ≤ p.z (k + 1))) → v = proj3 c (revDir d) (p.z k)) := by
  have hid := segId_lt p.z 0 c.z p.nmax hn
  unfold pcIntersect at h
  by_cases h0 : d.z = 0
  · simp [h0] at h
  have hz0 : (d.z ==. (lit 0 : ℝ)) = false := by simpa using h0
  simp only [hz0, Bool.false_eq_true, if_false] at h
  by_cases h1 : ownStatus p c = 1
  · have h1' := h1
    unfold ownStatus at h1'
    simp [h1'] at h
  have h1' := h1
  unfold ownStatus at h1'
  simp only [h1', if_false] at h
  have hsq : 0 < d.x * d.x + d.y * d.y + d.z * d.z := by
    have : 0 < d.z * d.z := mul_self_pos.mpr h0
    nlinarith [mul_self_nonneg d.x, mul_self_nonneg d.y]
  have hrev : ∃ s > 0, revDir d = ⟨-(s * d.x), -(s * d.y), -(s * d.z)⟩ := by
    refine ⟨1 / Real.sqrt (d.x * d.x + d.y * d.y + d.z * d.z), div_pos one_pos (Real.sqrt_pos.mpr hsq), ?_⟩
    simp only [revDir, vnorm, real_mul, real_lit, real_div, real_add, real_sqrt]
    norm_num
    refine ⟨?_, ?_, ?_⟩ <;> ring
  obtain ⟨s, hs, hrd⟩ := hrev
  have hrdz : (revDir d).z ≠ 0 := by
    rw [hrd]
    simp only [ne_eq, neg_eq_zero, mul_eq_zero, not_or]
    exact ⟨hs.ne', h0⟩
  have hrz : ((revDir d).z <. (lit 0 : ℝ)) = decide (0 < d.z) := by
    rw [hrd]
    simp only [real_lt, real_lit, Rat.cast_zero]
    congr 1
    apply propext
    constructor
    · intro h; by_contra hc; push Not at hc; nlinarith
    · intro h; have := mul_pos hs h; linarith
  change (pcSearch p c (revDir d) (ownStatus p c) (if (revDir d).z <. lit 0 then -1 else 1) (p.nmax + 3)
    (if (revDir d).z <. lit 0 then ↑(segIdFrom p.z 0 c.z p.nmax) + 1 else ↑(segIdFrom p.z 0 c.z p.nmax)) >>= _) = _ at h
  rw [hrz] at h
  by_cases hd : 0 < d.z
  · simp only [hd, decide_true, if_true] at h
    rw [show ((segIdFrom p.z 0 c.z p.nmax : ℕ) : ℤ) + 1 = ((segIdFrom p.z 0 c.z p.nmax + 1 : ℕ) : ℤ) by push_cast; ring] at h
    rcases pcSearch_down p c (revDir d) (ownStatus p c) (p.nmax + 3) (segIdFrom p.z 0 c.z p.nmax + 1) (by omega) (by omega) with
      ⟨j, h2, h3, h4, h5⟩ | ⟨h2, h3⟩
    · rw [h5] at h
      simp only [Out.bind_ok] at h
      obtain ⟨r, hr, h⟩ := Out.bind_eq_ok.mp h
      simp only [Out.ok.injEq, Prod.mk.injEq] at h
      obtain ⟨h, he⟩ := h
      subst h
      obtain ⟨g1, _, g3⟩ := pcFinish_select p c (revDir d) v j (j + 1) (-1) (by omega) (by omega) (by push_cast; ring) hrdz hr
      have hle := (hz j (by omega)).le
      refine ⟨j, by omega, ?_⟩
      rw [if_pos hd]
      refine ⟨h3, fun i h1 h2 => h4 i h1 (by omega), g1 (by norm_num), ?_⟩
      rw [min_eq_left hle, max_eq_right hle] at g3
      exact g3
    · rw [h3] at h; simp at h
  · simp only [hd, decide_false, Bool.false_eq_true, if_false] at h
    rcases pcSearch_up p c (revDir d) (ownStatus p c) (p.nmax + 3) (segIdFrom p.z 0 c.z p.nmax) (by omega) (by omega) with
      ⟨j, h2, h3, h4, h5, h6⟩ | ⟨h2, h3⟩
    · rw [h6] at h
      simp only [Out.bind_ok] at h
      obtain ⟨r, hr, h⟩ := Out.bind_eq_ok.mp h
      simp only [Out.ok.injEq, Prod.mk.injEq] at h
      obtain ⟨h, he⟩ := h
      subst h
      have hj2 : j - 1 + 1 = j := by omega
      obtain ⟨_, g2, g3⟩ := pcFinish_select p c (revDir d) v j (j - 1) 1 (by omega) (by omega) (by omega) hrdz hr
      have hle := (hz (j - 1) (by omega)).le
      rw [hj2] at hle
      refine ⟨j - 1, by omega, ?_⟩
      rw [if_neg hd, hj2]
      refine ⟨h4, fun i h1 h2 => h5 i h1 (by omega), g2 (by norm_num), ?_⟩
      rw [min_eq_right hle, max_eq_left hle] at g3
      exact g3
    · rw [h3] at h; simp at h

/-- the call of `pc_intersect_off_surface` meets the hypotheses -/
example : ∃ v e', pcIntersect (straight (1/10) 1) ⟨0, 2, 2⟩ ⟨0, 1, 1⟩ (some none) = .ok (some v, e') ∧
    1 ≤ (straight (1/10) 1).nmax ∧ ∀ i < (straight (1/10) 1).nmax, (straight (1/10) 1).z i < (straight (1/10) 1).z (i + 1) := by
  refine ⟨_, _, pc_intersect_off_surface.1, by simp [straight], ?_⟩
  intro i hi
  simp [straight]

end Polycap
