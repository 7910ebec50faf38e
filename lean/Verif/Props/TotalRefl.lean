import Verif.Props.Straight

/-!
# C102: total reflection

What a wall takes from the light that meets it.  Glass that does not absorb reflects without loss up to the critical angle; glass that absorbs always takes something.
-/
namespace Polycap
open CNum

namespace Total
open Route Polar EInd

/-! ## Specification -/

/-- sine of the critical angle of grazing incidence on a medium whose refractive index has the real part `1 - δ`: the angle whose cosine is the index (Snell's law) -/
noncomputable def critical (δ : ℝ) : ℝ := Real.sqrt (1 - (1 - δ) ^ 2)

/-- the sines of the angles of grazing incidence at the walls that light from `c` in direction `d` meets before its way out is clear -/
inductive Hits (D : Descr ℝ) (capx capy : Nat → ℝ) : V3 ℝ → V3 ℝ → List ℝ → Prop where
  | out {c d : V3 ℝ} : Clear D capx capy c d → Hits D capx capy c d []
  | bounce {c d : V3 ℝ} {j : Nat} {z : ℝ} {L : List ℝ} : Leg D capx capy c d j z →
      Hits D capx capy (lineAt c d z) (mirror d (wallNormal D capx capy j (lineAt c d z))) L →
      Hits D capx capy c d (dot (wallNormal D capx capy j (lineAt c d z)) d :: L)

/-! ## Squared moduli -/

theorem ratio_sq (x z : Cx ℝ) : cabs (cmul x (cinv z)) * cabs (cmul x (cinv z)) = (x.re ^ 2 + x.im ^ 2) / (z.re ^ 2 + z.im ^ 2) := by
  rw [cabs_toC, cmul_toC, cinv_toC, norm_mul, norm_inv, ← div_eq_mul_inv, div_mul_div_comm, ← pow_two, ← pow_two, ← Complex.normSq_eq_norm_sq, ← Complex.normSq_eq_norm_sq]
  simp only [Complex.normSq_apply, Cx.toC]
  ring

theorem rs_sq (n w : Cx ℝ) (c : ℝ) : cabs (reflRs n w c) * cabs (reflRs n w c) =
    ((c - (cmul n w).re) ^ 2 + (cmul n w).im ^ 2) / ((c + (cmul n w).re) ^ 2 + (cmul n w).im ^ 2) := by
  have em : ((-1:ℚ):ℝ) = -1 := by norm_num
  unfold reflRs
  rw [ratio_sq]
  simp only [real_sub, real_add, real_mul, real_lit, em]
  ring

theorem rp_sq (n w : Cx ℝ) (c : ℝ) : cabs (reflRp n w c) * cabs (reflRp n w c) =
    ((w.re - (n.re + n.im) * c) ^ 2 + w.im ^ 2) / ((w.re + (n.re + n.im) * c) ^ 2 + w.im ^ 2) := by
  unfold reflRp
  rw [ratio_sq]
  simp only [real_sub, real_add, real_mul, cscale]
  congr 1 <;> ring

theorem tot_eq (n : Cx ℝ) (θ f : ℝ) : reflTot n θ f =
    ((Real.cos θ - (cmul n (reflW n (Real.sin θ))).re) ^ 2 + (cmul n (reflW n (Real.sin θ))).im ^ 2) /
      ((Real.cos θ + (cmul n (reflW n (Real.sin θ))).re) ^ 2 + (cmul n (reflW n (Real.sin θ))).im ^ 2) * f +
    (((reflW n (Real.sin θ)).re - (n.re + n.im) * Real.cos θ) ^ 2 + (reflW n (Real.sin θ)).im ^ 2) /
      (((reflW n (Real.sin θ)).re + (n.re + n.im) * Real.cos θ) ^ 2 + (reflW n (Real.sin θ)).im ^ 2) * (1 - f) := by
  have e1 : ((1:ℚ):ℝ) = 1 := by norm_num
  simp only [reflTot, real_sin, real_cos, real_add, real_mul, real_sub, real_lit, e1]
  rw [rs_sq, rp_sq]

/-- Snell's law, squared: real and imaginary part of the square of the cosine of the refraction angle -/
theorem w_sq (n : Cx ℝ) (s : ℝ) (hn : 0 < n.re) :
    let t := cmul n (reflW n s)
    t.re ^ 2 - t.im ^ 2 = n.re ^ 2 - n.im ^ 2 - s ^ 2 ∧ t.re * t.im = n.re * n.im := by
  intro t
  have hw2 := (reflW_spec n s).1.1
  have hne : n.toC ≠ 0 := by
    intro h; have := congrArg Complex.re h; simp [Cx.toC] at this; linarith
  have hu : t.toC ^ 2 = n.toC ^ 2 - (s : ℂ) ^ 2 := by
    show (cmul n (reflW n s)).toC ^ 2 = _
    rw [cmul_toC, mul_pow, hw2]; field_simp
  have hr := congrArg Complex.re hu
  have hi := congrArg Complex.im hu
  simp only [pow_two, Cx.toC, Complex.mul_im, Complex.mul_re, Complex.sub_im, Complex.sub_re, Complex.ofReal_re, Complex.ofReal_im] at hr hi
  constructor <;> nlinarith

theorem strict_ratio {a t y : ℝ} (ha : 0 < a) (ht : 0 < t) : ((a - t) ^ 2 + y ^ 2) / ((a + t) ^ 2 + y ^ 2) < 1 := by
  have : 0 < (a + t) ^ 2 + y ^ 2 := by positivity
  rw [div_lt_one this]
  nlinarith [mul_pos ha ht]

theorem mix_lt {a b f : ℝ} (ha : a < 1) (hb : b < 1) (hf : 0 ≤ f ∧ f ≤ 1) : a * f + b * (1 - f) < 1 := by
  rcases hf.1.eq_or_lt with h | h
  · rw [← h]; linarith
  · have := mul_lt_mul_of_pos_right ha h
    have := mul_le_mul_of_nonneg_right hb.le (sub_nonneg.2 hf.2)
    linarith

/-- glass that absorbs never reflects all of the light -/
theorem tot_absorbing (n : Cx ℝ) (θ f : ℝ) (hn : 0 < n.re) (hi : 0 < n.im) (hc : 0 < Real.cos θ) (hf : 0 ≤ f ∧ f ≤ 1) : reflTot n θ f < 1 := by
  have ht := nw_re_nonneg n _ (Real.sin θ) hn hi.le rfl
  obtain ⟨-, h2⟩ := w_sq n (Real.sin θ) hn
  have hw := (reflW_spec n (Real.sin θ))
  have hw0 : 0 ≤ (reflW n (Real.sin θ)).re := hw.1.2
  have hwi := hw.2 hn.le hi.le
  have ht' : 0 < (cmul n (reflW n (Real.sin θ))).re := by
    refine lt_of_le_of_ne ht fun h0 => ?_
    rw [← h0, zero_mul] at h2
    have := mul_pos hn hi
    linarith
  have hw1 : 0 < (reflW n (Real.sin θ)).re := by
    refine lt_of_le_of_ne hw0 fun h0 => ?_
    simp only [cmul, real_mul, real_sub] at ht'
    rw [← h0] at ht'
    nlinarith [mul_nonneg hi.le hwi]
  rw [tot_eq]
  exact mix_lt (strict_ratio hc ht') (strict_ratio hw1 (mul_pos (by linarith) hc)) hf

/-- glass that does not absorb: above the critical angle some light is lost -/
theorem tot_above (n : Cx ℝ) (θ f : ℝ) (hn : 0 < n.re) (hi : n.im = 0) (hc : 0 < Real.cos θ) (hs : Real.sin θ ^ 2 < n.re ^ 2) (hf : 0 ≤ f ∧ f ≤ 1) : reflTot n θ f < 1 := by
  have ht := nw_re_nonneg n _ (Real.sin θ) hn hi.ge rfl
  obtain ⟨h1, h2⟩ := w_sq n (Real.sin θ) hn
  rw [hi, mul_zero] at h2
  rw [hi] at h1
  have ht' : 0 < (cmul n (reflW n (Real.sin θ))).re := by
    refine lt_of_le_of_ne ht fun h0 => ?_
    rw [← h0] at h1
    nlinarith [sq_nonneg (cmul n (reflW n (Real.sin θ))).im]
  have hw1 : 0 < (reflW n (Real.sin θ)).re := by
    simp only [cmul, real_mul, real_sub, hi, zero_mul, sub_zero] at ht'
    exact (mul_pos_iff_of_pos_left hn).1 ht'
  rw [tot_eq]
  exact mix_lt (strict_ratio hc ht') (strict_ratio hw1 (mul_pos (by linarith) hc)) hf

/-- glass that does not absorb: up to the critical angle nothing is lost -/
theorem tot_total (n : Cx ℝ) (θ f : ℝ) (hn : 0 < n.re) (hi : n.im = 0) (hc : 0 < Real.cos θ) (hs : n.re ^ 2 ≤ Real.sin θ ^ 2) : reflTot n θ f = 1 := by
  obtain ⟨h1, h2⟩ := w_sq n (Real.sin θ) hn
  rw [hi, mul_zero] at h2
  rw [hi] at h1
  have ht : (cmul n (reflW n (Real.sin θ))).re = 0 := by
    rcases mul_eq_zero.1 h2 with h | h
    · exact h
    · rw [h] at h1
      have : (cmul n (reflW n (Real.sin θ))).re ^ 2 = 0 := le_antisymm (by linarith) (sq_nonneg _)
      exact pow_eq_zero_iff (two_ne_zero) |>.1 this
  have hw : (reflW n (Real.sin θ)).re = 0 := by
    simp only [cmul, real_mul, real_sub, hi, zero_mul, sub_zero] at ht
    rcases mul_eq_zero.1 ht with h | h
    · linarith
    · exact h
  rw [tot_eq, ht, hw, hi]
  have a1 : 0 < Real.cos θ ^ 2 + (cmul n (reflW n (Real.sin θ))).im ^ 2 := by positivity
  have a2 : 0 < ((n.re + 0) * Real.cos θ) ^ 2 + (reflW n (Real.sin θ)).im ^ 2 := by
    have : 0 < (n.re + 0) * Real.cos θ := by rw [add_zero]; exact mul_pos hn hc
    positivity
  rw [sub_zero, add_zero, zero_sub, zero_add, neg_sq, div_self a1.ne', div_self a2.ne']
  ring

/-! ## Perpendicular polarisation: the closed formula -/

/-- Light polarised along the wall: with the square of the sine of the grazing angle plus the modulus of `n² - cos²` of it as `S` and the square modulus of `1 - n²` as `K`, the reflectivity is
`(S - √(S² - K)) / (S + √(S² - K))`. -/
theorem tot_s (n : Cx ℝ) (θ : ℝ) (hn : 0 < n.re) (hi : 0 ≤ n.im) (hc : 0 ≤ Real.cos θ) :
    let S := Real.cos θ ^ 2 + ‖n.toC ^ 2 - (Real.sin θ : ℂ) ^ 2‖
    let K := ‖1 - n.toC ^ 2‖ ^ 2
    K ≤ S ^ 2 ∧ reflTot n θ 1 = (S - Real.sqrt (S ^ 2 - K)) / (S + Real.sqrt (S ^ 2 - K)) := by
  intro S K
  have ht := nw_re_nonneg n _ (Real.sin θ) hn hi rfl
  obtain ⟨h1, h2⟩ := w_sq n (Real.sin θ) hn
  have hw2 := (reflW_spec n (Real.sin θ)).1.1
  have hne : n.toC ≠ 0 := by
    intro h; have := congrArg Complex.re h; simp [Cx.toC] at this; linarith
  have hu : n.toC ^ 2 - (Real.sin θ : ℂ) ^ 2 = (cmul n (reflW n (Real.sin θ))).toC ^ 2 := by
    rw [cmul_toC, mul_pow, hw2]; field_simp
  have hS : S = Real.cos θ ^ 2 + ((cmul n (reflW n (Real.sin θ))).re ^ 2 + (cmul n (reflW n (Real.sin θ))).im ^ 2) := by
    show Real.cos θ ^ 2 + ‖n.toC ^ 2 - (Real.sin θ : ℂ) ^ 2‖ = _
    rw [hu, norm_pow, ← Complex.normSq_eq_norm_sq]
    simp only [Complex.normSq_apply, Cx.toC]
    ring
  have hK : K = (1 - n.re ^ 2 + n.im ^ 2) ^ 2 + (2 * n.re * n.im) ^ 2 := by
    show ‖1 - n.toC ^ 2‖ ^ 2 = _
    rw [← Complex.normSq_eq_norm_sq]
    simp only [Complex.normSq_apply, Cx.toC, pow_two, Complex.sub_re, Complex.sub_im, Complex.mul_re, Complex.mul_im, Complex.one_re, Complex.one_im]
    ring
  have hcs := Real.sin_sq_add_cos_sq θ
  rw [tot_eq]
  generalize cmul n (reflW n (Real.sin θ)) = t at *
  generalize Real.cos θ = c at *
  have key : S ^ 2 - K = (2 * c * t.re) ^ 2 := by
    rw [hS, hK]
    have e1 : n.re ^ 2 - n.im ^ 2 = t.re ^ 2 - t.im ^ 2 + 1 - c ^ 2 := by linarith
    have e2 : 1 - n.re ^ 2 + n.im ^ 2 = c ^ 2 - t.re ^ 2 + t.im ^ 2 := by linarith
    have e3 : 2 * n.re * n.im = 2 * t.re * t.im := by linarith
    rw [e2, e3]
    ring
  refine ⟨by nlinarith [sq_nonneg (2 * c * t.re)], ?_⟩
  rw [key, Real.sqrt_sq (by positivity), sub_self, mul_zero, add_zero, mul_one, hS]
  congr 1 <;> ring

/-- Light polarised along the wall: the steeper it comes, the less is reflected. -/
theorem tot_s_anti (n : Cx ℝ) (hn : 0 < n.re) (hi : 0 ≤ n.im) (h1 : n.toC ^ 2 ≠ 1) {θ θ' : ℝ} (h0 : 0 ≤ Real.cos θ) (h : Real.cos θ ≤ Real.cos θ') : reflTot n θ' 1 ≤ reflTot n θ 1 := by
  have hc' : 0 ≤ Real.cos θ' := le_trans h0 h
  obtain ⟨a1, a2⟩ := tot_s n θ hn hi h0
  obtain ⟨b1, b2⟩ := tot_s n θ' hn hi hc'
  rw [a2, b2]
  have hS : Real.cos θ ^ 2 + ‖n.toC ^ 2 - (Real.sin θ : ℂ) ^ 2‖ ≤ Real.cos θ' ^ 2 + ‖n.toC ^ 2 - (Real.sin θ' : ℂ) ^ 2‖ := by
    have e : n.toC ^ 2 - (Real.sin θ : ℂ) ^ 2 = (n.toC ^ 2 - (Real.sin θ' : ℂ) ^ 2) + ((Real.cos θ ^ 2 - Real.cos θ' ^ 2 : ℝ) : ℂ) := by
      have k1 : (Real.sin θ : ℂ) ^ 2 = ((1 - Real.cos θ ^ 2 : ℝ) : ℂ) := by rw [← Complex.ofReal_pow, ← Real.sin_sq_add_cos_sq θ]; congr 1; ring
      have k2 : (Real.sin θ' : ℂ) ^ 2 = ((1 - Real.cos θ' ^ 2 : ℝ) : ℂ) := by rw [← Complex.ofReal_pow, ← Real.sin_sq_add_cos_sq θ']; congr 1; ring
      rw [k1, k2]
      push_cast
      ring
    have hle : Real.cos θ ^ 2 ≤ Real.cos θ' ^ 2 := pow_le_pow_left₀ h0 h 2
    have := norm_add_le (n.toC ^ 2 - (Real.sin θ' : ℂ) ^ 2) ((Real.cos θ ^ 2 - Real.cos θ' ^ 2 : ℝ) : ℂ)
    rw [← e, Complex.norm_real, Real.norm_eq_abs, abs_of_nonpos (by linarith)] at this
    linarith
  have hK : 0 < ‖1 - n.toC ^ 2‖ ^ 2 := by
    have : 0 < ‖1 - n.toC ^ 2‖ := norm_pos_iff.2 (sub_ne_zero.2 (Ne.symm h1))
    positivity
  have hS0 : 0 < Real.cos θ ^ 2 + ‖n.toC ^ 2 - (Real.sin θ : ℂ) ^ 2‖ := by
    have p : 0 ≤ Real.cos θ ^ 2 + ‖n.toC ^ 2 - (Real.sin θ : ℂ) ^ 2‖ := by positivity
    refine lt_of_le_of_ne p fun h => ?_
    simp only [← h] at a1
    linarith
  generalize Real.cos θ ^ 2 + ‖n.toC ^ 2 - (Real.sin θ : ℂ) ^ 2‖ = S at *
  generalize Real.cos θ' ^ 2 + ‖n.toC ^ 2 - (Real.sin θ' : ℂ) ^ 2‖ = S' at *
  generalize ‖1 - n.toC ^ 2‖ ^ 2 = K at *
  have q0 := Real.sqrt_nonneg (S ^ 2 - K)
  have q1 := Real.sqrt_nonneg (S' ^ 2 - K)
  have q2 := Real.mul_self_sqrt (show 0 ≤ S ^ 2 - K by linarith)
  have q3 := Real.mul_self_sqrt (show 0 ≤ S' ^ 2 - K by linarith)
  generalize Real.sqrt (S ^ 2 - K) = q at *
  generalize Real.sqrt (S' ^ 2 - K) = q' at *
  have hS' : 0 < S' := lt_of_lt_of_le hS0 hS
  rw [div_le_div_iff₀ (by linarith) (by linarith)]
  have : q * S' ≤ q' * S := by
    refine abs_le_of_sq_le_sq' ?_ (by positivity) |>.2
    have : S ^ 2 ≤ S' ^ 2 := pow_le_pow_left₀ hS0.le hS 2
    nlinarith
  nlinarith

/-! ## Grazing incidence -/

theorem loss_ratio {a t y : ℝ} (ha : 0 ≤ a) (ht : 0 ≤ t) (h : 0 < t ^ 2 + y ^ 2) : 1 - ((a - t) ^ 2 + y ^ 2) / ((a + t) ^ 2 + y ^ 2) ≤ 4 * a / Real.sqrt (t ^ 2 + y ^ 2) := by
  have hd : 0 < (a + t) ^ 2 + y ^ 2 := by nlinarith [mul_nonneg ha ht, sq_nonneg a]
  have hs : 0 < Real.sqrt (t ^ 2 + y ^ 2) := Real.sqrt_pos.2 h
  have hss := Real.mul_self_sqrt h.le
  have hts : t ≤ Real.sqrt (t ^ 2 + y ^ 2) := Real.le_sqrt_of_sq_le (by nlinarith [sq_nonneg y])
  rw [one_sub_div hd.ne', div_le_div_iff₀ hd hs]
  generalize Real.sqrt (t ^ 2 + y ^ 2) = s at *
  have e : (a + t) ^ 2 + y ^ 2 - ((a - t) ^ 2 + y ^ 2) = 4 * a * t := by ring
  rw [e]
  have h1 : 4 * a * t * s ≤ 4 * a * (s * s) := by
    have : t * s ≤ s * s := mul_le_mul_of_nonneg_right hts hs.le
    nlinarith
  have h2 : s * s ≤ (a + t) ^ 2 + y ^ 2 := by nlinarith [mul_nonneg ha ht, sq_nonneg a]
  have h3 : 4 * a * (s * s) ≤ 4 * a * ((a + t) ^ 2 + y ^ 2) := mul_le_mul_of_nonneg_left h2 (by positivity)
  linarith

/-- Grazing incidence: what is lost is at most proportional to the angle, whatever the glass and the polarisation. -/
theorem tot_grazing (n : Cx ℝ) (θ f : ℝ) (hn : 0 < n.re) (hi : 0 ≤ n.im) (h1 : n.toC ^ 2 ≠ 1) (hc : 0 ≤ Real.cos θ) (hg : Real.cos θ ^ 2 ≤ ‖1 - n.toC ^ 2‖ / 2) (hf : 0 ≤ f ∧ f ≤ 1) :
    1 - reflTot n θ f ≤ 4 * (1 + (n.re + n.im) * ‖n.toC‖) / Real.sqrt (‖1 - n.toC ^ 2‖ / 2) * Real.cos θ := by
  have ht := nw_re_nonneg n _ (Real.sin θ) hn hi rfl
  have hw := reflW_spec n (Real.sin θ)
  have hwr : 0 ≤ (reflW n (Real.sin θ)).re := hw.1.2
  have hw2 := hw.1.1
  have hne : n.toC ≠ 0 := by
    intro h; have := congrArg Complex.re h; simp [Cx.toC] at this; linarith
  have hn0 : 0 < ‖n.toC‖ := norm_pos_iff.2 hne
  have hu : (cmul n (reflW n (Real.sin θ))).toC ^ 2 = n.toC ^ 2 - (Real.sin θ : ℂ) ^ 2 := by
    rw [cmul_toC, mul_pow, hw2]; field_simp
  have hK : 0 < ‖1 - n.toC ^ 2‖ := norm_pos_iff.2 (sub_ne_zero.2 (Ne.symm h1))
  have hlow : ‖1 - n.toC ^ 2‖ / 2 ≤ ‖(cmul n (reflW n (Real.sin θ))).toC‖ ^ 2 := by
    rw [← norm_pow, hu]
    have k1 : (Real.sin θ : ℂ) ^ 2 = ((1 - Real.cos θ ^ 2 : ℝ) : ℂ) := by rw [← Complex.ofReal_pow, ← Real.sin_sq_add_cos_sq θ]; congr 1; ring
    have e : 1 - n.toC ^ 2 = -(n.toC ^ 2 - (Real.sin θ : ℂ) ^ 2) + ((Real.cos θ ^ 2 : ℝ) : ℂ) := by rw [k1]; push_cast; ring
    have := norm_add_le (-(n.toC ^ 2 - (Real.sin θ : ℂ) ^ 2)) ((Real.cos θ ^ 2 : ℝ) : ℂ)
    rw [← e, Complex.norm_real, Real.norm_eq_abs, abs_of_nonneg (sq_nonneg _), norm_neg] at this
    linarith
  have tn : ‖(cmul n (reflW n (Real.sin θ))).toC‖ = ‖n.toC‖ * ‖(reflW n (Real.sin θ)).toC‖ := by rw [cmul_toC, norm_mul]
  have sq : ∀ a : Cx ℝ, a.re ^ 2 + a.im ^ 2 = ‖a.toC‖ ^ 2 := by
    intro a
    rw [← Complex.normSq_eq_norm_sq]
    simp only [Complex.normSq_apply, Cx.toC]; ring
  set m := Real.sqrt (‖1 - n.toC ^ 2‖ / 2) with hm
  have hm0 : 0 < m := Real.sqrt_pos.2 (by linarith)
  have hmt : m ≤ ‖(cmul n (reflW n (Real.sin θ))).toC‖ := by
    rw [hm, Real.sqrt_le_left (norm_nonneg _)]; exact hlow
  have hT : 0 < ‖(cmul n (reflW n (Real.sin θ))).toC‖ := lt_of_lt_of_le hm0 hmt
  have hW : 0 < ‖(reflW n (Real.sin θ)).toC‖ := by
    rw [tn] at hT
    exact (mul_pos_iff_of_pos_left hn0).1 hT
  have hk : 0 ≤ (n.re + n.im) * Real.cos θ := mul_nonneg (by linarith) hc
  have l1 := loss_ratio (a := Real.cos θ) (t := (cmul n (reflW n (Real.sin θ))).re) (y := (cmul n (reflW n (Real.sin θ))).im) hc ht (by rw [sq]; positivity)
  have l2 := loss_ratio (a := (n.re + n.im) * Real.cos θ) (t := (reflW n (Real.sin θ)).re) (y := (reflW n (Real.sin θ)).im) hk hwr (by rw [sq]; positivity)
  rw [sq, Real.sqrt_sq (norm_nonneg _)] at l1 l2
  rw [show ((n.re + n.im) * Real.cos θ - (reflW n (Real.sin θ)).re) ^ 2 = ((reflW n (Real.sin θ)).re - (n.re + n.im) * Real.cos θ) ^ 2 by ring,
    show (n.re + n.im) * Real.cos θ + (reflW n (Real.sin θ)).re = (reflW n (Real.sin θ)).re + (n.re + n.im) * Real.cos θ by ring] at l2
  have g1 : 4 * Real.cos θ / ‖(cmul n (reflW n (Real.sin θ))).toC‖ ≤ 4 * Real.cos θ / m := div_le_div_of_nonneg_left (by positivity) hm0 hmt
  have g2 : 4 * ((n.re + n.im) * Real.cos θ) / ‖(reflW n (Real.sin θ)).toC‖ ≤ 4 * ((n.re + n.im) * ‖n.toC‖ * Real.cos θ) / m := by
    rw [div_le_div_iff₀ hW hm0]
    have : (4 * ((n.re + n.im) * Real.cos θ)) * m ≤ (4 * ((n.re + n.im) * Real.cos θ)) * (‖n.toC‖ * ‖(reflW n (Real.sin θ)).toC‖) := by
      rw [← tn]
      exact mul_le_mul_of_nonneg_left hmt (by positivity)
    linarith
  rw [tot_eq]
  generalize (((Real.cos θ - (cmul n (reflW n (Real.sin θ))).re) ^ 2 + (cmul n (reflW n (Real.sin θ))).im ^ 2) /
      ((Real.cos θ + (cmul n (reflW n (Real.sin θ))).re) ^ 2 + (cmul n (reflW n (Real.sin θ))).im ^ 2)) = A at *
  generalize ((((reflW n (Real.sin θ)).re - (n.re + n.im) * Real.cos θ) ^ 2 + (reflW n (Real.sin θ)).im ^ 2) /
      (((reflW n (Real.sin θ)).re + (n.re + n.im) * Real.cos θ) ^ 2 + (reflW n (Real.sin θ)).im ^ 2)) = B at *
  have e : 4 * (1 + (n.re + n.im) * ‖n.toC‖) / m * Real.cos θ = 4 * Real.cos θ / m + 4 * ((n.re + n.im) * ‖n.toC‖ * Real.cos θ) / m := by
    field_simp
  rw [e]
  have p1 : 0 ≤ 4 * Real.cos θ / m := by positivity
  have p2 : 0 ≤ 4 * ((n.re + n.im) * ‖n.toC‖ * Real.cos θ) / m := by
    have : 0 ≤ n.re + n.im := by linarith
    positivity
  have e2 : 1 - (A * f + B * (1 - f)) = (1 - A) * f + (1 - B) * (1 - f) := by ring
  rw [e2]
  have r1 : (1 - A) * f ≤ 4 * Real.cos θ / m * 1 := le_trans (mul_le_mul_of_nonneg_right (le_trans l1 g1) hf.1) (mul_le_mul_of_nonneg_left hf.2 p1)
  have r2 : (1 - B) * (1 - f) ≤ 4 * ((n.re + n.im) * ‖n.toC‖ * Real.cos θ) / m * 1 :=
    le_trans (mul_le_mul_of_nonneg_right (le_trans l2 g2) (by linarith [hf.2])) (mul_le_mul_of_nonneg_left (by linarith [hf.1]) p2)
  linarith

/-! ## Launches -/

/-- a channel the wall can treat: energy in range, index of refraction with positive real part -/
structure Fit (D : Descr ℝ) (c : Chan ℝ) : Prop where
  e : 1 ≤ c.e ∧ c.e ≤ 100
  density : 0 < D.density
  scatf : 0 ≤ c.scatf
  amu : 0 ≤ c.amu
  index : reflAlfa c.e D.density c.scatf < 1

theorem alfa_nonneg {e density scatf : ℝ} (hd : 0 < density) (hs : 0 ≤ scatf) : 0 ≤ reflAlfa e density scatf := by
  simp only [reflAlfa, cHC, cNAVOG, cR0, mpi, real_mul, real_div, real_lit]
  refine mul_nonneg (mul_nonneg (mul_self_nonneg _) (div_nonneg (mul_nonneg ?_ hd.le) ?_)) hs <;> norm_num

theorem beta_iff {e mu : ℝ} (he : 1 ≤ e) : (reflBeta e mu = 0 ↔ mu = 0) ∧ (0 < mu → 0 < reflBeta e mu) := by
  simp only [reflBeta, cHC, mpi, real_mul, real_div, real_lit]
  have h : (0:ℝ) < ((((1239841875/10^18 : ℚ)) : ℝ)) := by norm_num
  constructor
  · constructor
    · intro h0
      rcases mul_eq_zero.1 h0 with h1 | h1
      · norm_num at h1
      · rcases div_eq_zero_iff.1 h1 with h2 | h2
        · exact h2
        · linarith
    · intro h0; rw [h0]; simp
  · intro h0
    refine mul_pos (by norm_num) (div_pos h0 (by linarith))

/-- factor of one reflection -/
noncomputable def factor (D : Descr ℝ) (n d E : V3 ℝ) (c : Chan ℝ) : ℝ :=
  reflTot (reflN c.e D.density c.scatf c.amu) (Real.arccos (dot n d)) (dot (vnorm E) (sDir n d) ^ 2) * roughFactor D.sig_rough c.e (dot n d)

theorem fs_bounds (E n d : V3 ℝ) : 0 ≤ dot (vnorm E) (sDir n d) ^ 2 ∧ dot (vnorm E) (sDir n d) ^ 2 ≤ 1 := by
  rw [pow_two]
  exact fracS_bounds _ _ (vnorm_dot_le _) (vnorm_dot_le _)

theorem factor_facts {D : Descr ℝ} {n d E : V3 ℝ} {c : Chan ℝ} (f : Fit D c) (h0 : 0 < dot n d) (h1 : dot n d < 1) :
    (0 ≤ factor D n d E c ∧ factor D n d E c ≤ 1) ∧
    (0 < c.amu → factor D n d E c < 1) ∧
    (c.amu = 0 → critical (reflAlfa c.e D.density c.scatf) < dot n d → factor D n d E c < 1) ∧
    (c.amu = 0 → D.sig_rough = 0 → dot n d ≤ critical (reflAlfa c.e D.density c.scatf) → factor D n d E c = 1) := by
  have e1 : ((1:ℚ):ℝ) = 1 := by norm_num
  have hfs := fs_bounds E n d
  obtain ⟨r0, r1⟩ := roughFactor_bounds D.sig_rough c.e (dot n d)
  have hcos : Real.cos (Real.arccos (dot n d)) = dot n d := Real.cos_arccos (by linarith) h1.le
  have hre : (reflN c.e D.density c.scatf c.amu).re = 1 - reflAlfa c.e D.density c.scatf := by
    simp only [reflN, real_sub, real_lit, e1]
  have him : (reflN c.e D.density c.scatf c.amu).im = reflBeta c.e c.amu := rfl
  have hn : 0 < (reflN c.e D.density c.scatf c.amu).re := by rw [hre]; linarith [f.index]
  have hi : 0 ≤ (reflN c.e D.density c.scatf c.amu).im := reflBeta_nonneg _ _ (by linarith [f.e.1]) f.amu
  have hsin := Real.sin_sq_add_cos_sq (Real.arccos (dot n d))
  rw [hcos] at hsin
  obtain ⟨t0, t1⟩ := reflTot_bounds _ (Real.arccos (dot n d)) _ hn hi (by rw [hcos]; exact h0.le) hfs
  have hal := alfa_nonneg (e := c.e) f.density f.scatf
  have hcr : 0 ≤ 1 - (1 - reflAlfa c.e D.density c.scatf) ^ 2 := by nlinarith [f.index]
  unfold factor
  refine ⟨⟨mul_nonneg t0 r0, ?_⟩, fun ha => ?_, fun ha hb => ?_, fun ha hs hb => ?_⟩
  · calc _ ≤ 1 * 1 := mul_le_mul t1 r1 r0 (by norm_num)
      _ = 1 := one_mul 1
  · have := tot_absorbing _ (Real.arccos (dot n d)) _ hn (by rw [him]; exact (beta_iff f.e.1).2 ha) (by rw [hcos]; exact h0) hfs
    nlinarith
  · have := tot_above _ (Real.arccos (dot n d)) _ hn (by rw [him]; exact (beta_iff f.e.1).1.2 ha) (by rw [hcos]; exact h0) (by
      rw [hre]
      unfold critical at hb
      have := (Real.sqrt_lt' h0).1 hb
      linarith) hfs
    nlinarith
  · rw [tot_total _ (Real.arccos (dot n d)) _ hn (by rw [him]; exact (beta_iff f.e.1).1.2 ha) (by rw [hcos]; exact h0) (by
      rw [hre]
      unfold critical at hb
      have := (Real.le_sqrt h0.le hcr).1 hb
      linarith)]
    have em : ((-1:ℚ):ℝ) = -1 := by norm_num
    simp only [roughFactor, real_exp, real_mul, real_lit, em, hs, mul_zero, Real.exp_zero]
    norm_num

/-- what a channel has gone through after the reflections `L` -/
structure After (D : Descr ℝ) (L : List ℝ) (c c' : Chan ℝ) : Prop where
  static : c'.e = c.e ∧ c'.amu = c.amu ∧ c'.scatf = c.scatf
  range : 0 ≤ c'.w ∧ c'.w ≤ c.w
  absorbing : 0 < c.amu → L ≠ [] → 0 < c.w → c'.w < c.w
  above : c.amu = 0 → (∃ g ∈ L, critical (reflAlfa c.e D.density c.scatf) < g) → 0 < c.w → c'.w < c.w
  total : c.amu = 0 → D.sig_rough = 0 → (∀ g ∈ L, g ≤ critical (reflAlfa c.e D.density c.scatf)) → c'.w = c.w
  unhit : L = [] → c'.w = c.w

theorem weaker_w (D : Descr ℝ) (n d E : V3 ℝ) (c : Chan ℝ) : (weaker D n d E c).w = c.w * factor D n d E c := by
  unfold weaker factor; ring

theorem way_hits {D : Descr ℝ} {capx capy : Nat → ℝ} {c d E : V3 ℝ} {cs : List (Chan ℝ)} {f : End} {m : Nat} {len : ℝ} {c' d' E' : V3 ℝ} {cs' : List (Chan ℝ)}
    (w : Way D capx capy c d E cs f m len c' d' E' cs') : f = .out →
    ∃ L, Hits D capx capy c d L ∧ L.length = m ∧ List.Forall₂ (fun a b => Fit D a → 0 ≤ a.w → After D L a b) cs cs' := by
  induction w with
  | out o cl =>
    intro _
    refine ⟨[], .out cl, rfl, List.forall₂_same.2 fun a _ _ h => ⟨⟨rfl, rfl, rfl⟩, ⟨h, le_refl _⟩, fun _ h => absurd rfl h, fun _ ⟨g, hg, _⟩ => by simp at hg, fun _ _ _ => rfl, fun _ => rfl⟩⟩
  | absorbed => intro h; cases h
  | @bounce c d E cs j z f m len c' d' E' cs' o lg al w ih =>
    intro hf
    obtain ⟨L, h1, h2, h3⟩ := ih hf
    refine ⟨_, .bounce lg h1, by simp [h2], ?_⟩
    rw [List.forall₂_map_left_iff] at h3
    refine h3.imp fun a b h fa ha => ?_
    have h0 : 0 < dot (wallNormal D capx capy j (lineAt c d z)) d := lt_of_lt_of_le (by norm_num) lg.steep
    obtain ⟨⟨k0, k1⟩, k2, k3, k4⟩ := factor_facts (E := E) fa h0 lg.grazing
    have A := h ⟨fa.e, fa.density, fa.scatf, fa.amu, fa.index⟩ (by rw [weaker_w]; exact mul_nonneg ha k0)
    have hw := weaker_w D (wallNormal D capx capy j (lineAt c d z)) d E a
    obtain ⟨s1, s2, s3⟩ := A.static
    have hle : a.w * factor D (wallNormal D capx capy j (lineAt c d z)) d E a ≤ a.w := mul_le_of_le_one_right ha k1
    refine ⟨⟨s1, s2, s3⟩, ⟨A.range.1, le_trans A.range.2 (by rw [hw]; exact hle)⟩, ?_, ?_, ?_, fun h => by cases h⟩
    · intro hm _ hp
      refine lt_of_le_of_lt A.range.2 ?_
      rw [hw]
      exact mul_lt_of_lt_one_right hp (k2 hm)
    · rintro hm ⟨g, hg, hgt⟩ hp
      rcases List.mem_cons.1 hg with rfl | hg
      · refine lt_of_le_of_lt A.range.2 ?_
        rw [hw]
        exact mul_lt_of_lt_one_right hp (k3 hm hgt)
      · rcases (mul_nonneg ha k0).eq_or_lt with hz | hz
        · refine lt_of_le_of_lt A.range.2 ?_
          rw [hw, ← hz]
          exact hp
        · refine lt_of_lt_of_le (A.above hm ⟨g, hg, hgt⟩ (by rw [hw]; exact hz)) (by rw [hw]; exact hle)
    · intro hm hs hall
      rw [A.total hm hs fun g hg => hall g (List.mem_cons_of_mem _ hg), hw, k4 hm hs (hall _ List.mem_cons_self), mul_one]

/-- **C102.** A photon whose way through its capillary (C91) gets out, after the reflections at angles whose sines are `L`: at an energy at which smooth glass does not absorb it is
transmitted without loss exactly if all these angles are at most the critical angle of that energy; at an energy at which the glass absorbs, exactly if it was not reflected at all. -/
theorem total_reflection (lib : Xray ℝ) (D : Descr ℝ) (fuel k : Nat) (P : Photon ℝ) (es : List ℝ) (hes : es ≠ []) (hb : ∀ e ∈ es, 1 ≤ e ∧ e ≤ 100)
    (hg : Refracts lib D es) (hsc : scatfRejects D es = false) {qr : Int × Int} (s : Sound D (axX D qr) (axY D qr))
    (hcap : launchCap D P.startC = some qr) (hopen : startsInWall D qr P.startC = false) (hz : 0 ≤ P.startC.z) (hE : dot P.exitE P.exitE ≠ 0)
    (hd : dot P.startD P.startD ≠ 0) {m : Nat} {len : ℝ} {c' d' E' : V3 ℝ} {cs' : List (Chan ℝ)}
    (w : Way D (axX D qr) (axY D qr) P.startC (vnorm P.startD) P.exitE (freshChans lib D es) .out m len c' d' E' cs') (hm : m ≤ D.prof.nmax + 1) :
    ∃ ws P' L, launch lib (some D) false fuel (k + 1) (some P) (some es) true = .ok (1, .filled ws, some P') ∧
      Hits D (axX D qr) (axY D qr) P.startC (vnorm P.startD) L ∧ P'.i_refl = L.length ∧
      List.Forall₂ (fun e w => 0 ≤ w ∧ w ≤ 1 ∧
        (amuOf lib D e = 0 → D.sig_rough = 0 → (w = 1 ↔ ∀ g ∈ L, g ≤ critical (reflAlfa e D.density (scatfOf lib D e)))) ∧
        (0 < amuOf lib D e → (w = 1 ↔ L = []))) es ws := by
  obtain ⟨P', h1, -, -, -, h5, -⟩ := launch_goes_way lib D fuel k P es hes hb hg hsc s hcap hopen hz hE hd w hm (by intro h; cases h)
  obtain ⟨L, k1, k2, k3⟩ := way_hits w rfl
  refine ⟨_, P', L, h1, k1, by rw [h5, k2], ?_⟩
  unfold freshChans at k3
  rw [List.forall₂_map_left_iff] at k3
  rw [List.forall₂_map_right_iff]
  have hmem : List.Forall₂ (fun e (_ : Chan ℝ) => e ∈ es) es cs' := by
    have : es.length = cs'.length := k3.length_eq
    rw [List.forall₂_iff_get]
    exact ⟨this, fun i h _ => List.get_mem es ⟨i, h⟩⟩
  have both : List.Forall₂ (fun e b => (Fit D ⟨e, 1, amuOf lib D e, scatfOf lib D e⟩ → (0:ℝ) ≤ 1 → After D L ⟨e, 1, amuOf lib D e, scatfOf lib D e⟩ b) ∧ e ∈ es) es cs' := by
    rw [List.forall₂_iff_get] at k3 hmem ⊢
    exact ⟨k3.1, fun i a b => ⟨k3.2 i a b, hmem.2 i a b⟩⟩
  refine both.imp ?_
  rintro e b ⟨h, he⟩
  have A := h ⟨hb e he, hg.density, hg.scatf e he, hg.amu e he, hg.index e he⟩ zero_le_one
  refine ⟨A.range.1, A.range.2, fun ha hs => ⟨fun hw g hgL => ?_, fun hall => A.total ha hs hall⟩, fun ha => ⟨fun hw => ?_, fun hL => ?_⟩⟩
  · by_contra hlt
    have := A.above ha ⟨g, hgL, not_le.1 hlt⟩ one_pos
    simp only at this
    linarith
  · by_contra hne
    have := A.absorbing ha hne one_pos
    simp only at this
    linarith
  · exact A.unhit hL

/-- one reflection on smooth glass that does not absorb, at most at the critical angle, takes nothing -/
theorem once {D : Descr ℝ} {e scatf mu q : ℝ} (hs : D.sig_rough = 0) (he : 1 ≤ e ∧ e ≤ 100) (hd : 0 < D.density) (hsc : 0 ≤ scatf) (hm : mu = 0)
    (hi : reflAlfa e D.density scatf < 1) (h0 : 0 < q) (hq : q ≤ critical (reflAlfa e D.density scatf)) (φ : ℝ) :
    reflTot (reflN e D.density scatf mu) (Real.arccos q) φ * roughFactor D.sig_rough e q = 1 := by
  have e1 : ((1:ℚ):ℝ) = 1 := by norm_num
  have hal := alfa_nonneg (e := e) hd hsc
  have hcr : 0 ≤ 1 - (1 - reflAlfa e D.density scatf) ^ 2 := by nlinarith
  have hq2 := (Real.le_sqrt h0.le hcr).1 hq
  have hq1 : q ≤ 1 := by nlinarith [sq_nonneg (1 - reflAlfa e D.density scatf)]
  have hcos : Real.cos (Real.arccos q) = q := Real.cos_arccos (by linarith) hq1
  have hsin := Real.sin_sq_add_cos_sq (Real.arccos q)
  rw [hcos] at hsin
  have hre : (reflN e D.density scatf mu).re = 1 - reflAlfa e D.density scatf := by simp only [reflN, real_sub, real_lit, e1]
  have him : (reflN e D.density scatf mu).im = reflBeta e mu := rfl
  rw [tot_total _ (Real.arccos q) _ (by rw [hre]; linarith) (by rw [him]; exact (beta_iff he.1).1.2 hm) (by rw [hcos]; exact h0) (by rw [hre]; linarith)]
  have em : ((-1:ℚ):ℝ) = -1 := by norm_num
  simp only [roughFactor, real_exp, real_mul, real_lit, em, hs, mul_zero, Real.exp_zero]
  norm_num

/-- **C102, straight capillaries.** A photon that meets the wall of one straight capillary of smooth glass that does not absorb `N` times, at an angle at most the
critical one: it is transmitted, with its full weight. -/
theorem straight_total (lib : Xray ℝ) (D : Descr ℝ) (fuel k : Nat) (P : Photon ℝ) (es : List ℝ) (hes : es ≠ []) (hb : ∀ e ∈ es, 1 ≤ e ∧ e ≤ 100)
    (hg : Refracts lib D es) (hsc : scatfRejects D es = false) (h1 : 1 ≤ D.n_cap) (h3 : D.n_cap ≤ 3) (g : Grid D.prof) {r X Δ : ℝ} (hr : 0 < r)
    (hcap : ∀ i ≤ D.prof.nmax, D.prof.cap i = r) (hext : ∀ i ≤ D.prof.nmax, D.prof.ext i = X)
    (hΔ : ∀ i < D.prof.nmax, D.prof.z (i + 1) - D.prof.z i ≤ Δ)
    (hX : 0 < X) (hroom : r + Δ * Real.sqrt (Bore.lateral (vnorm P.startD)) / (vnorm P.startD).z ≤ Real.sqrt 3 / 2 * X) (hX2 : r ^ 2 < X)
    (hin : P.startC.x ^ 2 + P.startC.y ^ 2 ≤ r ^ 2) (hz : 0 ≤ P.startC.z) (hzL : P.startC.z ≤ D.prof.z D.prof.nmax)
    (hdown : 0 < P.startD.z) (htilt : 0 < Bore.lateral P.startD) (hE : dot P.exitE P.exitE ≠ 0)
    {N : Nat} (h : Bore.Hits D r 0 0 P.startC (vnorm P.startD) N) (hN : N ≤ D.prof.nmax + 1)
    (hsmooth : D.sig_rough = 0) (hclear : ∀ e ∈ es, amuOf lib D e = 0)
    (hcrit : ∀ e ∈ es, Bore.chord r 0 0 P.startC (vnorm P.startD) / r ≤ critical (reflAlfa e D.density (scatfOf lib D e))) :
    ∃ P', launch lib (some D) false fuel (k + 1) (some P) (some es) true = .ok (1, .filled (es.map fun _ => 1), some P') ∧ P'.i_refl = N := by
  obtain ⟨rc, ws, P', a, b, -⟩ := Bore.launch_straight lib D fuel k P es hes hb hg hsc h1 h3 g hr hcap hext hΔ hX hroom hX2 hin hz hzL hdown htilt hE h hN
  have hk : ∀ n ≤ N, ∀ e ∈ es, Bore.kept lib D (Bore.chord r 0 0 P.startC (vnorm P.startD) / r) (Bore.share r 0 0 P.exitE P.startC (vnorm P.startD)) n e = 1 := by
    intro n hn e he
    rcases Nat.eq_zero_or_pos n with rfl | hn0
    · simp [Bore.kept]
    · refine Finset.prod_eq_one fun i _ => ?_
      exact once hsmooth (hb e he) hg.density (hg.scatf e he) (hclear e he) (hg.index e he) (lt_of_lt_of_le (by norm_num) (h.steep (by omega))) (hcrit e he) _
  have hz0 : ∃ e, e ∈ es := List.exists_mem_of_ne_nil _ hes
  obtain ⟨e0, he0⟩ := hz0
  generalize hi : P'.i_refl = i at b
  generalize P'.exitC.z = zz at b
  cases b with
  | out _ =>
    refine ⟨P', ?_, hi⟩
    rw [a, List.map_congr_left (hk N (le_refl _))]
  | absorbed m hm hl =>
    have := hl e0 he0
    rw [hk (m + 1) hm e0 he0] at this
    norm_num at this

/-- at 10 keV the critical angle of the glass of the examples is above 2 mrad -/
theorem ex_critical : zs ≤ critical (reflAlfa 10 (223 / 100) (1 / 2)) := by
  unfold critical
  apply Real.le_sqrt_of_sq_le
  have ha : (4 / 10 ^ 6 : ℝ) ≤ reflAlfa 10 (223 / 100) (1 / 2) := by
    simp only [reflAlfa, cHC, cNAVOG, cR0, mpi, real_mul, real_div, real_lit]
    norm_num
  have hb : reflAlfa (10:ℝ) (223 / 100) (1 / 2) ≤ 1 := by
    simp only [reflAlfa, cHC, cNAVOG, cR0, mpi, real_mul, real_div, real_lit]
    norm_num
  have hz : zs ^ 2 ≤ 5 / 10 ^ 6 := by norm_num [zs]
  nlinarith

open Polycap.Tube RoughTube Bore in
/-- two reflections at 2 mrad, at 10 keV, where the critical angle is 3 mrad -/
example (E : V3 ℝ) (hE : dot E E ≠ 0) :
    ∃ P', launch zLib (some (tD (zs / zc) 4 1)) false 0 1 (some { exP ⟨0, 0, 0⟩ ⟨zs, 0, zc⟩ 0 with exitE := E }) (some [10]) true = .ok (1, .filled [1], some P') ∧ P'.i_refl = 2 := by
  have hc : 0 < zc := by norm_num [zc]
  have hs : 0 < zs := by norm_num [zs]
  have hr : 0 < zs / zc := by positivity
  have hu : dot (⟨zs, 0, zc⟩ : V3 ℝ) ⟨zs, 0, zc⟩ = 1 := by have := zUnit; unfold dot; nlinarith
  have hv : vnorm (⟨zs, 0, zc⟩ : V3 ℝ) = ⟨zs, 0, zc⟩ := vnorm_unit _ hu
  have hl : lateral ⟨zs, 0, zc⟩ = zs ^ 2 := by simp [lateral]
  have hch : chord (zs / zc) 0 0 ⟨0, 0, 0⟩ ⟨zs, 0, zc⟩ = zs * (zs / zc) := by
    unfold chord
    rw [hl]
    simp only [drift, off]
    rw [show ((0 - 0) * zs + (0 - 0) * 0) ^ 2 + zs ^ 2 * ((zs / zc) ^ 2 - ((0 - 0) ^ 2 + (0 - 0) ^ 2)) = (zs * (zs / zc)) ^ 2 by ring, Real.sqrt_sq (by positivity)]
  have hh : hitZ (zs / zc) 0 0 ⟨0, 0, 0⟩ ⟨zs, 0, zc⟩ = fun k : Nat => 2 * (k : ℝ) + 1 := by
    funext k
    unfold hitZ
    rw [hch, hl]
    simp only [drift]
    field_simp
    ring
  have hq : chord (zs / zc) 0 0 ⟨0, 0, 0⟩ ⟨zs, 0, zc⟩ / (zs / zc) = zs := by rw [hch, mul_div_assoc, div_self hr.ne', mul_one]
  have hgl : ∀ e, scatfOf zLib (tD (zs / zc) 4 1) e = 1/2 ∧ amuOf zLib (tD (zs / zc) 4 1) e = 0 := by
    intro e
    simp [amuOf, scatfOf, tD, zLib]
    norm_num
  have gg := r_glass (cs := [rCh 10 1]) (by intro c hc; simp at hc; subst hc; simp [rCh]; norm_num)
  have h := straight_total zLib (tD (zs / zc) 4 1) 0 0 { exP ⟨0, 0, 0⟩ ⟨zs, 0, zc⟩ 0 with exitE := E } [10] (by simp) (by simp; norm_num)
    ⟨by norm_num [tD], fun e _ => by rw [(hgl e).1]; norm_num, fun e _ => by rw [(hgl e).2], fun e he => by
      rw [(hgl e).1]; simp at he; subst he; exact (gg.chan (rCh 10 1) (by simp)).2.2.2.2⟩
    (t_scatf _ _ _) (by simp [tD]) (by simp [tD]) (tGrid (by norm_num)) (r := zs / zc) (X := 1) (Δ := 4) hr (fun _ _ => rfl) (fun _ _ => rfl)
    (by intro i hi; simp [tD] at hi ⊢; linarith) (by norm_num) (by
      show zs / zc + 4 * Real.sqrt (lateral (vnorm ⟨zs, 0, zc⟩)) / (vnorm ⟨zs, 0, zc⟩).z ≤ _
      rw [hv, hl, Real.sqrt_sq hs.le]
      have h3 : (1:ℝ) ≤ Real.sqrt 3 := by rw [show (1:ℝ) = Real.sqrt 1 by simp]; exact Real.sqrt_le_sqrt (by norm_num)
      have : zs / zc + 4 * zs / zc ≤ 1 / 2 := by norm_num [zs, zc]
      linarith) (by norm_num [zs, zc]) (by simp [exP]; positivity) (by simp [exP]) (by simp [exP, tD]) (by simpa [exP] using hc) (by
      show 0 < lateral ⟨zs, 0, zc⟩
      rw [hl]; positivity) hE (N := 2) (by
      show Bore.Hits _ _ 0 0 ⟨0, 0, 0⟩ (vnorm ⟨zs, 0, zc⟩) 2
      rw [hv]
      refine ⟨?_, ?_, ?_, ?_, ?_, ?_⟩
      · intro _; rw [hh]; norm_num
      · intro _; rw [hch, hl]; norm_num [zs, zc]
      · intro _; rw [hq]; norm_num [zs]
      · intro k hk i hi
        rw [hh]
        simp only [tD] at hi ⊢
        interval_cases k <;> interval_cases i <;> norm_num
      · intro k hk
        rw [hh]
        simp only [tD]
        interval_cases k <;> norm_num
      · rw [hh]; simp only [tD]; norm_num) (by simp [tD]) rfl (fun e _ => (hgl e).2) (by
      intro e he
      simp only [List.mem_singleton] at he
      subst he
      show chord (zs / zc) 0 0 ⟨0, 0, 0⟩ (vnorm ⟨zs, 0, zc⟩) / (zs / zc) ≤ _
      rw [hv, hq, (hgl 10).1]
      exact ex_critical)
  exact h

open Polycap.Tube RoughTube Bore in
/-- the way that `total_reflection` is about: out of a tube after two reflections -/
example (E : V3 ℝ) : ∃ len c' d' E' cs', Way (tD (zs / zc) 4 1) (axX (tD (zs / zc) 4 1) (0, 0)) (axY (tD (zs / zc) 4 1) (0, 0)) ⟨0, 0, 0⟩ (vnorm ⟨zs, 0, zc⟩) E
    (freshChans zLib (tD (zs / zc) 4 1) [10]) .out 2 len c' d' E' cs' := by
  have hc : 0 < zc := by norm_num [zc]
  have hs : 0 < zs := by norm_num [zs]
  have hr : 0 < zs / zc := by positivity
  have hu : dot (⟨zs, 0, zc⟩ : V3 ℝ) ⟨zs, 0, zc⟩ = 1 := by have := zUnit; unfold dot; nlinarith
  have hv : vnorm (⟨zs, 0, zc⟩ : V3 ℝ) = ⟨zs, 0, zc⟩ := vnorm_unit _ hu
  have hl : lateral ⟨zs, 0, zc⟩ = zs ^ 2 := by simp [lateral]
  have hch : chord (zs / zc) 0 0 ⟨0, 0, 0⟩ ⟨zs, 0, zc⟩ = zs * (zs / zc) := by
    unfold chord
    rw [hl]
    simp only [drift, off]
    rw [show ((0 - 0) * zs + (0 - 0) * 0) ^ 2 + zs ^ 2 * ((zs / zc) ^ 2 - ((0 - 0) ^ 2 + (0 - 0) ^ 2)) = (zs * (zs / zc)) ^ 2 by ring, Real.sqrt_sq (by positivity)]
  have hh : hitZ (zs / zc) 0 0 ⟨0, 0, 0⟩ ⟨zs, 0, zc⟩ = fun k : Nat => 2 * (k : ℝ) + 1 := by
    funext k
    unfold hitZ
    rw [hch, hl]
    simp only [drift]
    field_simp
    ring
  have hq : chord (zs / zc) 0 0 ⟨0, 0, 0⟩ ⟨zs, 0, zc⟩ / (zs / zc) = zs := by rw [hch, mul_div_assoc, div_self hr.ne', mul_one]
  have h34 : (Real.sqrt 3 / 2 * 1) ^ 2 = 3 / 4 * (1:ℝ) ^ 2 := by
    rw [mul_pow, div_pow, Real.sq_sqrt (by norm_num)]; ring
  have h3 : (1:ℝ) ≤ Real.sqrt 3 := by rw [show (1:ℝ) = Real.sqrt 1 by simp]; exact Real.sqrt_le_sqrt (by norm_num)
  have hhex : ∀ x y : ℝ, (x - 0) ^ 2 + (y - 0) ^ 2 ≤ (Real.sqrt 3 / 2 * 1) ^ 2 → InHex 1 x y := by
    intro x y hxy
    rw [h34, sub_zero, sub_zero] at hxy
    exact ((boundary_one_iff 1 x y).mp (boundary_contains_disc 1 x y one_pos hxy)).2
  have sd : Sound (tD (zs / zc) 4 1) (axX (tD (zs / zc) 4 1) (0, 0)) (axY (tD (zs / zc) 4 1) (0, 0)) := by
    refine ⟨by simp [tD], tGrid (by norm_num), fun i _ => hr, fun i _ => one_pos, ?_⟩
    intro i _
    rw [tX, tY]
    exact hhex 0 0 (by simp; positivity)
  have hsm : zs / zc + 4 * zs / zc ≤ 1 / 2 := by norm_num [zs, zc]
  have hsmall : zs / zc ≤ 1 / 2 := by norm_num [zs, zc]
  obtain ⟨f, m, len, c', d', E', cs', w, z⟩ := ways (D := tD (zs / zc) 4 1) (r := zs / zc) (ax := 0) (ay := 0) (X := 1) sd ⟨fun _ _ => rfl, fun _ _ => rfl, fun i _ => tX _ _ _ i, fun i _ => tY _ _ _ i, hr⟩
    (ρ := Real.sqrt 3 / 2 * 1) (Δ := 4) ⟨one_pos, by linarith, hhex, fun _ x y hxy => by
      rw [sub_zero, sub_zero] at hxy
      have : (zs / zc) ^ 2 ≤ (1/2) ^ 2 := pow_le_pow_left₀ hr.le hsmall 2
      constructor <;> linarith⟩ (by intro i hi; simp [tD] at hi ⊢; linarith) 2 ⟨0, 0, 0⟩ ⟨zs, 0, zc⟩ E (freshChans zLib (tD (zs / zc) 4 1) [10])
    ⟨hu, hc, by rw [hl]; positivity, by simp [off]; positivity⟩ (by rw [hl, Real.sqrt_sq hs.le]; show zs / zc + 4 * zs / zc ≤ _; linarith) (le_refl _) (by simp [tD])
    (by intro _; rw [hh]; norm_num) (by intro _; rw [hch, hl]; norm_num [zs, zc]) (by intro _; rw [hq]; norm_num [zs])
    (by intro k hk i hi
        rw [hh]
        simp only [tD] at hi ⊢
        interval_cases k <;> interval_cases i <;> norm_num)
    (by intro k hk
        rw [hh]
        simp only [tD]
        interval_cases k <;> norm_num) (by rw [hh]; simp only [tD]; norm_num)
  rw [hv]
  cases f with
  | out =>
    obtain ⟨rfl, -⟩ := z.out rfl
    exact ⟨len, c', d', E', cs', w⟩
  | absorbed =>
    exfalso
    obtain ⟨-, b, -, e⟩ := z.absorbed rfl
    refine e ?_
    have hk := after_kept zLib (tD (zs / zc) 4 1) (chord (zs / zc) 0 0 ⟨0, 0, 0⟩ ⟨zs, 0, zc⟩ / (zs / zc)) (share (zs / zc) 0 0 E ⟨0, 0, 0⟩ ⟨zs, 0, zc⟩) (m + 1) [10]
    rw [← b] at hk
    have h1 : (1:ℝ) ∈ cs'.map (·.w) := by
      rw [hk, List.map_singleton, List.mem_singleton, hq]
      refine (Finset.prod_eq_one fun i _ => ?_).symm
      have gg := r_glass (cs := [rCh 10 1]) (by intro c hc; simp at hc; subst hc; simp [rCh]; norm_num)
      have hg1 : scatfOf zLib (tD (zs / zc) 4 1) 10 = 1/2 := by simp [scatfOf, tD, zLib]; norm_num
      have hg2 : amuOf zLib (tD (zs / zc) 4 1) 10 = 0 := by simp [amuOf, tD, zLib]
      rw [hg1, hg2]
      exact once (D := tD (zs / zc) 4 1) (e := 10) (scatf := 1 / 2) rfl (by norm_num) (by norm_num [tD]) (by norm_num) rfl (gg.chan (rCh 10 1) (by simp)).2.2.2.2 hs ex_critical _
    obtain ⟨ch, c1, c2⟩ := List.mem_map.1 h1
    exact ⟨ch, c1, by rw [c2]; norm_num⟩

end Total
end Polycap
