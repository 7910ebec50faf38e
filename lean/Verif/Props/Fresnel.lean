import Mathlib.Analysis.SpecialFunctions.Complex.Arg
import Verif.Capil
import Verif.Photon
import Verif.Props.TraceProps

/-!
# C21, C52: the reflectivity used at a reflection

Specification (`fresnelS`, `fresnelP`): the textbook Fresnel amplitudes for light going from vacuum to a medium of complex refractive
index `n`, in terms of Mathlib's complex numbers.
-/
namespace Polycap
open CNum

/-! ## Specification -/

/-- `w` is the cosine of the refraction angle: Snell's law `sin θ = n sin θ'` and the branch with
non-negative real part. -/
def IsCosRefr (n : ℂ) (sinθ : ℝ) (w : ℂ) : Prop := w ^ 2 = 1 - ((sinθ : ℂ) / n) ^ 2 ∧ 0 ≤ w.re

/-- Fresnel amplitude, polarisation perpendicular to the plane of incidence -/
noncomputable def fresnelS (n : ℂ) (cosθ : ℝ) (w : ℂ) : ℂ := (cosθ - n * w) / (cosθ + n * w)
/-- Fresnel amplitude, polarisation in the plane of incidence -/
noncomputable def fresnelP (n : ℂ) (cosθ : ℝ) (w : ℂ) : ℂ := (w - n * cosθ) / (w + n * cosθ)

/-! ## The model's complex numbers are Mathlib's -/

def Cx.toC (a : Cx ℝ) : ℂ := ⟨a.re, a.im⟩

theorem cmul_toC (a b : Cx ℝ) : (cmul a b).toC = a.toC * b.toC := by
  apply Complex.ext <;> simp [cmul, Cx.toC]

theorem cinv_toC (a : Cx ℝ) : (cinv a).toC = a.toC⁻¹ := by
  apply Complex.ext <;> simp [cinv, Cx.toC, Complex.inv_re, Complex.inv_im, Complex.normSq_apply]

theorem cscale_toC (a : Cx ℝ) (k : ℝ) : (cscale a k).toC = a.toC * k := by
  apply Complex.ext <;> simp [cscale, Cx.toC]

theorem cabs_toC (a : Cx ℝ) : cabs a = ‖a.toC‖ := by
  simp [cabs, Cx.toC, Complex.norm_def, Complex.normSq_apply]

/-- the model's `csqrt` is a square root with non-negative real part and an imaginary part of the sign
of the argument's -/
theorem csqrt_spec (a : Cx ℝ) : (csqrt a).toC ^ 2 = a.toC ∧ 0 ≤ (csqrt a).re ∧ (0 ≤ a.im → 0 ≤ (csqrt a).im) := by
  have e0 : ((0:ℚ):ℝ) = 0 := by norm_num
  have e2 : ((2:ℚ):ℝ) = 2 := by norm_num
  obtain ⟨x, y⟩ := a
  simp only [csqrt, cabs, real_mul, real_add, real_sub, real_div, real_sqrt, real_lit, real_lt, real_neg, e0, e2]
  generalize hm : Real.sqrt (x * x + y * y) = m
  have hmm : m * m = x * x + y * y := by
    rw [← hm]; exact Real.mul_self_sqrt (by nlinarith [mul_self_nonneg x, mul_self_nonneg y])
  have hm0 : 0 ≤ m := by rw [← hm]; exact Real.sqrt_nonneg _
  have h1 : 0 ≤ m + x := by
    by_contra h; push Not at h
    nlinarith [mul_self_nonneg y]
  have h2 : 0 ≤ m - x := by
    by_contra h; push Not at h
    nlinarith [mul_self_nonneg y]
  have hr := Real.mul_self_sqrt (show 0 ≤ (m + x) / 2 by linarith)
  have hi := Real.mul_self_sqrt (show 0 ≤ (m - x) / 2 by linarith)
  have hr0 := Real.sqrt_nonneg ((m + x) / 2)
  have hi0 := Real.sqrt_nonneg ((m - x) / 2)
  generalize Real.sqrt ((m + x) / 2) = r at *
  generalize Real.sqrt ((m - x) / 2) = i at *
  have hri : (2 * (r * i)) * (2 * (r * i)) = y * y := by
    have : (2 * (r * i)) * (2 * (r * i)) = 4 * (r * r) * (i * i) := by ring
    rw [this, hr, hi]; nlinarith
  have hri0 : 0 ≤ 2 * (r * i) := by positivity
  refine ⟨?_, hr0, ?_⟩
  · by_cases hy : y < 0
    · simp only [hy, decide_true, if_true]
      have : 2 * (r * i) = -y := by
        nlinarith
      apply Complex.ext
      · simp [Cx.toC, pow_two]; linarith
      · simp [Cx.toC, pow_two]; linarith
    · simp only [hy, decide_false, Bool.false_eq_true, if_false]
      have : 2 * (r * i) = y := by nlinarith
      apply Complex.ext
      · simp [Cx.toC, pow_two]; linarith
      · simp [Cx.toC, pow_two]; linarith
  · intro hy
    simp only [not_lt.mpr hy, decide_false, Bool.false_eq_true, if_false]
    exact hi0

/-- the code's `our_csqrt` is the cosine of the refraction angle; its imaginary part is non-negative for
an absorbing or transparent medium -/
theorem reflW_spec (n : Cx ℝ) (s : ℝ) : IsCosRefr n.toC s (reflW n s).toC ∧
    (0 ≤ n.re → 0 ≤ n.im → 0 ≤ (reflW n s).im) := by
  have e1 : ((1:ℚ):ℝ) = 1 := by norm_num
  have em : ((-1:ℚ):ℝ) = -1 := by norm_num
  obtain ⟨h1, h2, h3⟩ := csqrt_spec ⟨1 - (cscale (cmul (cinv n) (cinv n)) (s * s)).re, -1 * (cscale (cmul (cinv n) (cinv n)) (s * s)).im⟩
  have hw : reflW n s = csqrt ⟨1 - (cscale (cmul (cinv n) (cinv n)) (s * s)).re, -1 * (cscale (cmul (cinv n) (cinv n)) (s * s)).im⟩ := by
    simp only [reflW, real_mul, real_sub, real_lit, e1, em]
  rw [hw]
  refine ⟨⟨?_, h2⟩, ?_⟩
  · rw [h1]
    have : (⟨1 - (cscale (cmul (cinv n) (cinv n)) (s * s)).re, -1 * (cscale (cmul (cinv n) (cinv n)) (s * s)).im⟩ : Cx ℝ).toC =
        1 - (cscale (cmul (cinv n) (cinv n)) (s * s)).toC := by
      apply Complex.ext <;> simp [Cx.toC]
    rw [this, cscale_toC, cmul_toC, cinv_toC]
    push_cast
    ring
  · intro hr hi
    apply h3
    simp only [cscale, cmul, cinv, real_mul, real_add, real_sub, real_div, real_neg]
    have hs : 0 ≤ s * s := mul_self_nonneg s
    have hd : 0 ≤ n.re * n.re + n.im * n.im := by nlinarith [mul_self_nonneg n.re, mul_self_nonneg n.im]
    have k1 : 0 ≤ n.re / (n.re * n.re + n.im * n.im) := div_nonneg hr hd
    have k2 : 0 ≤ n.im / (n.re * n.re + n.im * n.im) := div_nonneg hi hd
    rw [neg_div]
    nlinarith [mul_nonneg (mul_nonneg k1 k2) hs]

/-- **C52, first half.** The amplitude for perpendicular polarisation is the textbook Fresnel amplitude. -/
theorem reflRs_fresnel (n w : Cx ℝ) (c : ℝ) : (reflRs n w c).toC = fresnelS n.toC c w.toC := by
  have em : ((-1:ℚ):ℝ) = -1 := by norm_num
  unfold reflRs fresnelS
  simp only [real_sub, real_add, real_mul, real_lit, em]
  rw [cmul_toC, cinv_toC, div_eq_mul_inv, ← cmul_toC n w]
  congr 1
  · apply Complex.ext <;> simp [Cx.toC]
  · congr 1
    apply Complex.ext <;> simp [Cx.toC]

/-- **C52 (partial).** The amplitude for polarisation in the plane of incidence is the textbook one when the medium does not absorb. -/
theorem reflRp_fresnel_partial (n w : Cx ℝ) (c : ℝ) (h : n.im = 0) : (reflRp n w c).toC = fresnelP n.toC c w.toC := by
  unfold reflRp fresnelP
  simp only [real_sub, real_add, cscale, real_mul, h, zero_mul, sub_zero, add_zero]
  rw [cmul_toC, cinv_toC, div_eq_mul_inv]
  congr 1
  · apply Complex.ext <;> simp [Cx.toC, h]
  · congr 1
    apply Complex.ext <;> simp [Cx.toC, h]

/-- **C52 is false of the code.**  Because the macro `new_Dcomplex` does not parenthesise its second argument, the amplitude
for polarisation in the plane of incidence is not the Fresnel amplitude when the medium absorbs; here at
normal incidence, where the two polarisations must have the same reflectivity: the code has none at all. -/
theorem reflRp_not_fresnel : ∃ n w : Cx ℝ, 0 < n.re ∧ 0 < n.im ∧ w = reflW n (Real.sin 0) ∧
    ‖(reflRp n w (Real.cos 0)).toC‖ = 0 ∧ ‖fresnelP n.toC (Real.cos 0) w.toC‖ = ‖fresnelS n.toC (Real.cos 0) w.toC‖ ∧
    ‖fresnelP n.toC (Real.cos 0) w.toC‖ ≠ 0 := by
  have e0 : ((0:ℚ):ℝ) = 0 := by norm_num
  have e1 : ((1:ℚ):ℝ) = 1 := by norm_num
  have e2 : ((2:ℚ):ℝ) = 2 := by norm_num
  have hw : reflW (⟨1/2, 1/2⟩ : Cx ℝ) (Real.sin 0) = ⟨1, 0⟩ := by
    simp [reflW, cscale, csqrt, cabs]
  refine ⟨⟨1/2, 1/2⟩, _, by norm_num, by norm_num, rfl, ?_, ?_, ?_⟩
  · rw [hw, Real.cos_zero]
    have : reflRp (⟨1/2, 1/2⟩ : Cx ℝ) ⟨1, 0⟩ 1 = ⟨0, 0⟩ := by
      simp only [reflRp, cscale, cmul, cinv, real_sub, real_add, real_mul, real_div, real_neg]
      norm_num
    rw [this]
    simp [Cx.toC, Complex.norm_def]
  · rw [hw]
    unfold fresnelP fresnelS Cx.toC
    rw [Real.cos_zero]
    have : (⟨1, 0⟩ : ℂ) = 1 := rfl
    rw [this]; simp
  · rw [hw]
    unfold fresnelP Cx.toC
    rw [Real.cos_zero]
    have : (⟨1, 0⟩ : ℂ) = 1 := rfl
    rw [this, norm_ne_zero_iff, div_ne_zero_iff]
    constructor
    · intro h
      have := congrArg Complex.im h
      simp at this
    · intro h
      have := congrArg Complex.im h
      simp at this

/-! ## Bounds -/

/-- real part of `n w` for a medium in the first quadrant -/
theorem nw_re_nonneg (n w : Cx ℝ) (s : ℝ) (hn : 0 < n.re) (hi : 0 ≤ n.im) (hw : w = reflW n s) :
    0 ≤ (cmul n w).re := by
  obtain ⟨⟨hw2, hwr⟩, hwi⟩ := reflW_spec n s
  have hwi := hwi hn.le hi
  rw [← hw] at hw2 hwr hwi
  have hwr : 0 ≤ w.re := hwr
  have hne : n.toC ≠ 0 := by
    intro h; have := congrArg Complex.re h; simp [Cx.toC] at this; linarith
  have hu : (n.toC * w.toC) ^ 2 = n.toC ^ 2 - (s : ℂ) ^ 2 := by
    rw [mul_pow, hw2]; field_simp
  have him := congrArg Complex.im hu
  simp only [pow_two, Cx.toC, Complex.mul_im, Complex.mul_re, Complex.sub_im, Complex.ofReal_re, Complex.ofReal_im] at him
  simp only [cmul, real_mul, real_sub]
  by_contra hneg
  push Not at hneg
  have hui : 0 ≤ n.re * w.im + n.im * w.re := by positivity
  rcases eq_or_lt_of_le hui with h0 | h0
  · have h1 : n.re * w.im = 0 := by nlinarith [mul_nonneg hn.le hwi, mul_nonneg hi hwr]
    have h2 : w.im = 0 := by
      rcases mul_eq_zero.mp h1 with h | h
      · linarith
      · exact h
    rw [h2] at hneg
    nlinarith [mul_nonneg hn.le hwr]
  · nlinarith [mul_nonneg hn.le hi]

theorem ratio_le_one {a b y : ℝ} (h : |a| ≤ |b|) (x z : Cx ℝ) (hx : x = ⟨a, y⟩) (hz : z.re = b) (hz' : z.im ^ 2 = y ^ 2) :
    cabs (cmul x (cinv z)) * cabs (cmul x (cinv z)) ≤ 1 ∧ 0 ≤ cabs (cmul x (cinv z)) * cabs (cmul x (cinv z)) := by
  refine ⟨?_, mul_self_nonneg _⟩
  rw [cabs_toC, cmul_toC, cinv_toC, norm_mul, norm_inv]
  have : ‖x.toC‖ ≤ ‖z.toC‖ := by
    rw [Complex.norm_def, Complex.norm_def]
    apply Real.sqrt_le_sqrt
    simp only [Complex.normSq_apply, Cx.toC, hx]
    rw [hz]
    have := sq_le_sq.mpr h
    nlinarith
  have h1 : ‖x.toC‖ * ‖z.toC‖⁻¹ ≤ 1 := by
    rw [← div_eq_mul_inv]
    exact div_le_one_of_le₀ this (norm_nonneg _)
  have h0 : 0 ≤ ‖x.toC‖ * ‖z.toC‖⁻¹ := by positivity
  nlinarith

/-- both reflectivities are at most 1 -/
theorem reflectivities_le_one (n : Cx ℝ) (s c : ℝ) (hn : 0 < n.re) (hi : 0 ≤ n.im) (hc : 0 ≤ c) :
    (cabs (reflRs n (reflW n s) c) * cabs (reflRs n (reflW n s) c) ≤ 1) ∧
    (cabs (reflRp n (reflW n s) c) * cabs (reflRp n (reflW n s) c) ≤ 1) := by
  have em : ((-1:ℚ):ℝ) = -1 := by norm_num
  have hu := nw_re_nonneg n _ s hn hi rfl
  have hw := (reflW_spec n s).1.2
  have hwr : 0 ≤ (reflW n s).re := hw
  constructor
  · unfold reflRs
    simp only [real_sub, real_add, real_mul, real_lit, em]
    refine (ratio_le_one (a := c - (cmul n (reflW n s)).re) (b := c + (cmul n (reflW n s)).re)
      (y := -1 * (cmul n (reflW n s)).im) ?_ _ _ rfl rfl (by ring)).1
    rw [abs_le, abs_of_nonneg (by linarith : 0 ≤ c + (cmul n (reflW n s)).re)]
    constructor <;> linarith
  · unfold reflRp
    simp only [real_sub, real_add, real_mul, cscale]
    have k1 : 0 ≤ n.re * c := mul_nonneg hn.le hc
    have k2 : 0 ≤ n.im * c := mul_nonneg hi hc
    refine (ratio_le_one (a := (reflW n s).re - n.re * c - n.im * c) (b := (reflW n s).re + n.re * c + n.im * c)
      (y := (reflW n s).im) ?_ _ ⟨(reflW n s).re + n.re * c + n.im * c, (reflW n s).im⟩ rfl rfl rfl).1
    rw [abs_le, abs_of_nonneg (by linarith : 0 ≤ (reflW n s).re + n.re * c + n.im * c)]
    constructor <;> linarith

theorem reflTot_bounds (n : Cx ℝ) (theta fs : ℝ) (hn : 0 < n.re) (hi : 0 ≤ n.im) (hc : 0 ≤ Real.cos theta)
    (hf : 0 ≤ fs ∧ fs ≤ 1) : 0 ≤ reflTot n theta fs ∧ reflTot n theta fs ≤ 1 := by
  have e1 : ((1:ℚ):ℝ) = 1 := by norm_num
  obtain ⟨h1, h2⟩ := reflectivities_le_one n (Real.sin theta) (Real.cos theta) hn hi hc
  simp only [reflTot, real_sin, real_cos, real_add, real_mul, real_sub, real_lit, e1]
  have h3 := mul_self_nonneg (cabs (reflRs n (reflW n (Real.sin theta)) (Real.cos theta)))
  have h4 := mul_self_nonneg (cabs (reflRp n (reflW n (Real.sin theta)) (Real.cos theta)))
  obtain ⟨f0, f1⟩ := hf
  constructor
  · have := mul_nonneg h3 f0
    have := mul_nonneg h4 (by linarith : 0 ≤ 1 - fs)
    linarith
  · have := mul_le_mul_of_nonneg_right h1 f0
    have := mul_le_mul_of_nonneg_right h2 (by linarith : 0 ≤ 1 - fs)
    linarith

theorem vnorm_dot_le (v : V3 ℝ) : dot (vnorm v) (vnorm v) ≤ 1 := by
  by_cases h : dot v v = 0
  · rw [vnorm_zero h]; simp [dot]
  · rw [vnorm_dot v h]

theorem normIfNot1_dot_le (v : V3 ℝ) : dot (normIfNot1 v) (normIfNot1 v) ≤ 1 := by
  unfold normIfNot1
  split
  · exact vnorm_dot_le v
  · rename_i h
    have e1 : ((1:ℚ):ℝ) = 1 := by norm_num
    simp only [CNum.bne, real_beq, real_sqrt, real_add, real_mul, real_lit, e1, Bool.not_eq_true', decide_eq_false_iff_not,
      not_not] at h
    have : dot v v = 1 := by
      have h' := Real.sqrt_eq_one.mp h
      exact h'
    rw [this]

theorem cauchy3 (a b : V3 ℝ) : dot a b ^ 2 ≤ dot a a * dot b b := by
  unfold dot
  nlinarith [sq_nonneg (a.x * b.y - a.y * b.x), sq_nonneg (a.x * b.z - a.z * b.x), sq_nonneg (a.y * b.z - a.z * b.y)]

theorem fracS_bounds (a b : V3 ℝ) (ha : dot a a ≤ 1) (hb : dot b b ≤ 1) : 0 ≤ dot a b * dot a b ∧ dot a b * dot a b ≤ 1 := by
  refine ⟨mul_self_nonneg _, ?_⟩
  have := cauchy3 a b
  have h0 : 0 ≤ dot a a := by unfold dot; nlinarith [sq_nonneg a.x, sq_nonneg a.y, sq_nonneg a.z]
  have h1 : 0 ≤ dot b b := by unfold dot; nlinarith [sq_nonneg b.x, sq_nonneg b.y, sq_nonneg b.z]
  nlinarith

theorem reflBeta_nonneg (e mu : ℝ) (he : 0 < e) (hm : 0 ≤ mu) : 0 ≤ reflBeta e mu := by
  simp only [reflBeta, cHC, mpi, real_mul, real_div, real_lit]
  apply mul_nonneg _ (div_nonneg hm he.le)
  norm_num

/-- **C21.**  For every surface normal, direction and polarisation vector with the photon moving towards the surface
(normal and direction at an acute or right angle), every energy in [1,100] keV, positive density, non-negative
scattering factor and absorption coefficient and refractive index with positive real part, the
reflectivity is in [0,1]. -/
theorem reflectivity_probability (e density scatf mu : ℝ) (norm dir E ev : V3 ℝ)
    (he : 1 ≤ e ∧ e ≤ 100) (hd : 0 < density) (hs : 0 ≤ scatf) (hm : 0 ≤ mu)
    (hn : reflAlfa e density scatf < 1) (ha : 0 ≤ dot norm dir) :
    0 ≤ (reflPolar e density scatf mu norm dir E ev).1 ∧ (reflPolar e density scatf mu norm dir E ev).1 ≤ 1 := by
  have e0 : ((0:ℚ):ℝ) = 0 := by norm_num
  have e1 : ((1:ℚ):ℝ) = 1 := by norm_num
  have e100 : ((100:ℚ):ℝ) = 100 := by norm_num
  have hrej : polarRejects e density scatf mu = false := by
    simp only [polarRejects, gt, real_lt, real_le, real_lit, e0, e1, e100, Bool.or_eq_false_iff, decide_eq_false_iff_not]
    refine ⟨⟨⟨⟨?_, ?_⟩, ?_⟩, ?_⟩, ?_⟩ <;> linarith [he.1, he.2]
  have hpos : 0 ≤ scalar (normIfNot1 norm) dir := by
    rw [scalar_real]
    unfold normIfNot1
    split
    · unfold vnorm dot
      simp only [real_mul, real_add, real_sqrt, real_div]
      have : norm.x / Real.sqrt (norm.x * norm.x + norm.y * norm.y + norm.z * norm.z) * dir.x +
        norm.y / Real.sqrt (norm.x * norm.x + norm.y * norm.y + norm.z * norm.z) * dir.y +
        norm.z / Real.sqrt (norm.x * norm.x + norm.y * norm.y + norm.z * norm.z) * dir.z =
        dot norm dir / Real.sqrt (norm.x * norm.x + norm.y * norm.y + norm.z * norm.z) := by unfold dot; ring
      rw [this]
      exact div_nonneg ha (Real.sqrt_nonneg _)
    · exact ha
  unfold reflPolar
  simp only [hrej, Bool.false_eq_true, if_false]
  have hth : ((acos (scalar (normIfNot1 norm) dir) : ℝ) <. lit 0) = false := by
    simp only [real_acos, real_lt, real_lit, e0, decide_eq_false_iff_not, not_lt]
    exact Real.arccos_nonneg _
  simp only [hth, Bool.false_eq_true, if_false]
  apply reflTot_bounds
  · simp only [reflN, real_sub, real_lit, e1]; linarith
  · exact reflBeta_nonneg e mu (by linarith [he.1]) hm
  · simp only [real_acos]
    apply Real.cos_nonneg_of_mem_Icc
    constructor
    · linarith [Real.arccos_nonneg (scalar (normIfNot1 norm) dir), Real.pi_pos]
    · exact Real.arccos_le_pi_div_two.mpr hpos
  · exact fracS_bounds _ _ (normIfNot1_dot_le E) (vnorm_dot_le _)

/-- borosilicate glass at 10 keV meets the hypotheses, with δ between 10⁻⁶ and 10⁻⁵ -/
example : 0 ≤ dot (⟨1, 0, 0⟩ : V3 ℝ) ⟨1/100, 0, 1⟩ ∧ (1:ℝ)/10^6 < reflAlfa (10:ℝ) (223/100) (1/2) ∧ reflAlfa (10:ℝ) (223/100) (1/2) < 1/10^5 := by
  refine ⟨by norm_num [dot], ?_, ?_⟩ <;>
  · simp only [reflAlfa, cHC, cNAVOG, cR0, mpi, real_lit, real_mul, real_div]
    norm_num

end Polycap
