import Verif.Props.Fresnel
import Verif.Props.LaunchExamples

/-!
# C59: the refractive index and the reflectivity of the glass

Specification: the textbook complex refractive index `1 - δ + i β` of a compound for X-rays of a given energy, from the mass fractions, atomic numbers, atomic weights,
anomalous scattering factors and mass absorption coefficients of its elements and its density.
-/
namespace Polycap
open CNum

namespace Glass

/-! ## Specification -/

/-- wavelength [cm] of a photon of energy `e` [keV]: `h c = 1.23984193·10⁻⁷ keV cm` -/
noncomputable def wavelength (e : ℝ) : ℝ := 1.23984193e-7 / e
/-- classical electron radius [cm] -/
noncomputable def electronRadius : ℝ := 2.8179403227e-13
/-- Avogadro's number, as used by the library -/
noncomputable def avogadro : ℝ := 6.022098e23

/-- effective number of electrons per cm³: each element contributes its mass per cm³, in mol, times Avogadro's number times `Z + f'` -/
noncomputable def electrons (lib : Xray ℝ) (D : Descr ℝ) (e : ℝ) : ℝ :=
  ((D.iz.zip D.wi).map fun zw => D.density * zw.2 / lib.aw zw.1 * avogadro * (zw.1 + lib.fi zw.1 e)).sum

/-- linear absorption coefficient [1/cm]: each element contributes its mass per cm³ times its mass absorption coefficient -/
noncomputable def absorption (lib : Xray ℝ) (D : Descr ℝ) (e : ℝ) : ℝ :=
  ((D.iz.zip D.wi).map fun zw => D.density * zw.2 * lib.csTotal zw.1 e).sum

/-- the number `M_PI` of the C library: π to 20 decimals -/
noncomputable def cPi : ℝ := 3.14159265358979323846

theorem cPi_pi : |cPi - Real.pi| < 1 / 10 ^ 19 := by
  have h1 := Real.pi_gt_d20
  have h2 := Real.pi_lt_d20
  unfold cPi
  rw [abs_lt]
  constructor <;> norm_num at * <;> linarith

/-- `n = 1 - r_e λ² N / (2 π) + i λ μ / (4 π)` -/
noncomputable def index (lib : Xray ℝ) (D : Descr ℝ) (e : ℝ) : ℂ :=
  1 - ((electronRadius * wavelength e ^ 2 * electrons lib D e / (2 * cPi) : ℝ) : ℂ) + Complex.I * ((wavelength e * absorption lib D e / (4 * cPi) : ℝ) : ℂ)

/-! ## The model -/

theorem foldl_sum {β : Type} (f : β → ℝ) (l : List β) : ∀ t : ℝ, l.foldl (fun t x => t + f x) t = t + (l.map f).sum := by
  induction l with
  | nil => intro t; simp
  | cons a l ih => intro t; rw [List.foldl_cons, ih, List.map_cons, List.sum_cons]; ring

theorem sum_mul {β : Type} (f : β → ℝ) (k : ℝ) (l : List β) : (l.map f).sum * k = (l.map fun x => k * f x).sum := by
  induction l with
  | nil => simp
  | cons a l ih => rw [List.map_cons, List.sum_cons, List.map_cons, List.sum_cons, ← ih]; ring

theorem amu_eq (lib : Xray ℝ) (D : Descr ℝ) (e : ℝ) : amuOf lib D e = absorption lib D e := by
  have e0 : ((0:ℚ):ℝ) = 0 := by norm_num
  unfold amuOf absorption
  simp only [real_mul, real_add, real_lit, e0]
  rw [foldl_sum, zero_add, sum_mul]
  congr 1
  apply List.map_congr_left
  intro x _
  ring

theorem scatf_eq (lib : Xray ℝ) (D : Descr ℝ) (e : ℝ) : avogadro * D.density * scatfOf lib D e = electrons lib D e := by
  have e0 : ((0:ℚ):ℝ) = 0 := by norm_num
  unfold scatfOf electrons
  simp only [real_mul, real_add, real_div, real_lit, e0, real_ofInt]
  rw [foldl_sum, zero_add, mul_comm, sum_mul]
  congr 1
  apply List.map_congr_left
  intro x _
  ring

/-- **C59.** The refractive index used at a reflection is the textbook refractive index of the glass. -/
theorem index_used (lib : Xray ℝ) (D : Descr ℝ) (e : ℝ) : (reflN e D.density (scatfOf lib D e) (amuOf lib D e)).toC = index lib D e := by
  have e1 : ((1:ℚ):ℝ) = 1 := by norm_num
  have h := scatf_eq lib D e
  unfold index
  rw [← h, ← amu_eq]
  apply Complex.ext
  · simp only [Cx.toC, reflN, reflAlfa, cHC, cNAVOG, cR0, mpi, real_mul, real_div, real_sub, real_lit, avogadro, wavelength, electronRadius, cPi]
    simp [-Complex.ofReal_div, -Complex.ofReal_mul, -Complex.ofReal_pow]
    norm_num
    ring
  · simp only [Cx.toC, reflN, reflBeta, cHC, mpi, real_mul, real_div, real_lit, wavelength, cPi]
    simp [-Complex.ofReal_div, -Complex.ofReal_mul, -Complex.ofReal_pow]
    norm_num
    ring

/-! ## The reflectivity -/

theorem cross_real (a b : V3 ℝ) : cross a b = ⟨a.y * b.z - b.y * a.z, a.z * b.x - b.z * a.x, a.x * b.y - b.x * a.y⟩ := by
  simp only [cross, real_mul, real_sub]

theorem dot_vnorm (E v : V3 ℝ) : dot E (vnorm v) * dot E (vnorm v) = dot E v * dot E v / dot v v := by
  have h0 : 0 ≤ dot v v := by unfold dot; nlinarith [sq_nonneg v.x, sq_nonneg v.y, sq_nonneg v.z]
  have e : dot E (vnorm v) = dot E v / Real.sqrt (dot v v) := by
    unfold vnorm dot
    simp only [real_mul, real_add, real_sqrt, real_div]
    ring
  rw [e, div_mul_div_comm, Real.mul_self_sqrt h0]

/-- the direction perpendicular to the plane of incidence, and the share of the intensity polarised along it -/
theorem share_s {n d s E : V3 ℝ} (h : dot (cross n d) (cross n d) ≠ 0) (s1 : dot s s = 1) (sn : dot s n = 0) (sd : dot s d = 0) :
    dot E (vnorm (cross n d)) * dot E (vnorm (cross n d)) = dot E s ^ 2 := by
  rw [dot_vnorm]
  have hv := cross_real n d
  generalize cross n d = v at *
  -- s is along v
  have k : ∀ (a b c : ℝ), a = s.y * v.z - s.z * v.y → b = s.z * v.x - s.x * v.z → c = s.x * v.y - s.y * v.x → a = 0 ∧ b = 0 ∧ c = 0 := by
    intro a b c ha hb hc
    rw [hv] at ha hb hc
    simp only at ha hb hc
    unfold dot at sn sd
    refine ⟨?_, ?_, ?_⟩
    · rw [ha]; linear_combination n.x * sd - d.x * sn
    · rw [hb]; linear_combination n.y * sd - d.y * sn
    · rw [hc]; linear_combination n.z * sd - d.z * sn
  obtain ⟨k1, k2, k3⟩ := k _ _ _ rfl rfl rfl
  rw [div_eq_iff h]
  unfold dot at *
  have p1 : (E.x * v.x + E.y * v.y + E.z * v.z) * s.x = (E.x * s.x + E.y * s.y + E.z * s.z) * v.x := by linear_combination E.y * k3 - E.z * k2
  have p2 : (E.x * v.x + E.y * v.y + E.z * v.z) * s.y = (E.x * s.x + E.y * s.y + E.z * s.z) * v.y := by linear_combination E.z * k1 - E.x * k3
  have p3 : (E.x * v.x + E.y * v.y + E.z * v.z) * s.z = (E.x * s.x + E.y * s.y + E.z * s.z) * v.z := by linear_combination E.x * k2 - E.y * k1
  generalize E.x * v.x + E.y * v.y + E.z * v.z = A at *
  generalize E.x * s.x + E.y * s.y + E.z * s.z = B at *
  have : A * A * (s.x * s.x + s.y * s.y + s.z * s.z) = B * B * (v.x * v.x + v.y * v.y + v.z * v.z) := by
    linear_combination (A * s.x + B * v.x) * p1 + (A * s.y + B * v.y) * p2 + (A * s.z + B * v.z) * p3
  rw [s1, mul_one] at this
  rw [this, pow_two]

theorem normIfNot1_unit {v : V3 ℝ} (h : dot v v = 1) : normIfNot1 v = v := by
  unfold normIfNot1
  split
  · exact vnorm_unit v h
  · rfl

/-- **C59.** Light of energy `e` that hits the glass in direction `d` (wall normal `n`, `s` perpendicular to the plane of incidence, electric vector `E`) is reflected with the
intensity given by the Fresnel formulas for the textbook refractive index of the glass: when it is polarised perpendicularly to the plane of incidence, and for every polarisation
when the glass does not absorb.  `w` is the cosine of the angle of refraction. -/
theorem reflectivity_glass_partial (lib : Xray ℝ) (D : Descr ℝ) (e : ℝ) (n d s E ev : V3 ℝ) (he : 1 ≤ e ∧ e ≤ 100) (hD : 0 < D.density) (hs : 0 ≤ scatfOf lib D e)
    (hm : 0 ≤ absorption lib D e) (hn : 0 < (index lib D e).re) (n1 : dot n n = 1) (d1 : dot d d = 1) (E1 : dot E E = 1) (s1 : dot s s = 1)
    (sn : dot s n = 0) (sd : dot s d = 0) (hnd : 0 ≤ dot n d) (hnd1 : dot n d < 1) :
    ∃ w : ℂ, IsCosRefr (index lib D e) (Real.sqrt (1 - dot n d ^ 2)) w ∧ 0 ≤ w.im ∧
      (dot E s ^ 2 = 1 → (reflPolar e D.density (scatfOf lib D e) (amuOf lib D e) n d E ev).1 = ‖fresnelS (index lib D e) (dot n d) w‖ ^ 2) ∧
      (absorption lib D e = 0 → (reflPolar e D.density (scatfOf lib D e) (amuOf lib D e) n d E ev).1 =
        ‖fresnelS (index lib D e) (dot n d) w‖ ^ 2 * dot E s ^ 2 + ‖fresnelP (index lib D e) (dot n d) w‖ ^ 2 * (1 - dot E s ^ 2)) := by
  have e0 : ((0:ℚ):ℝ) = 0 := by norm_num
  have e1 : ((1:ℚ):ℝ) = 1 := by norm_num
  have e100 : ((100:ℚ):ℝ) = 100 := by norm_num
  have hi := index_used lib D e
  have hm' : 0 ≤ amuOf lib D e := by rw [amu_eq]; exact hm
  have hrej : polarRejects e D.density (scatfOf lib D e) (amuOf lib D e) = false := by
    simp only [polarRejects, gt, real_lt, real_le, real_lit, e0, e1, e100, Bool.or_eq_false_iff, decide_eq_false_iff_not]
    refine ⟨⟨⟨⟨?_, ?_⟩, ?_⟩, ?_⟩, ?_⟩ <;> linarith [he.1, he.2]
  have hth : ((acos (scalar n d) : ℝ) <. lit 0) = false := by
    simp only [real_acos, real_lt, real_lit, e0, decide_eq_false_iff_not, not_lt]
    exact Real.arccos_nonneg _
  have hc : Real.cos (Real.arccos (dot n d)) = dot n d := Real.cos_arccos (by linarith) hnd1.le
  have hsn : Real.sin (Real.arccos (dot n d)) = Real.sqrt (1 - dot n d ^ 2) := Real.sin_arccos _
  have hx : dot (cross n d) (cross n d) ≠ 0 := by
    have : dot (cross n d) (cross n d) = dot n n * dot d d - dot n d ^ 2 := by rw [cross_real]; unfold dot; ring
    rw [this, n1, d1]
    nlinarith
  have hval : (reflPolar e D.density (scatfOf lib D e) (amuOf lib D e) n d E ev).1 =
      reflTot (reflN e D.density (scatfOf lib D e) (amuOf lib D e)) (Real.arccos (dot n d)) (dot E s ^ 2) := by
    unfold reflPolar
    simp only [hrej, Bool.false_eq_true, if_false, normIfNot1_unit n1, normIfNot1_unit E1]
    rw [hth]
    simp only [Bool.false_eq_true, if_false]
    rw [← share_s hx s1 sn sd]
    rfl
  generalize hN : reflN e D.density (scatfOf lib D e) (amuOf lib D e) = N at *
  obtain ⟨w1, w2⟩ := reflW_spec N (Real.sqrt (1 - dot n d ^ 2))
  have hre : 0 ≤ N.re := by
    have : N.re = (index lib D e).re := by rw [← hi]; rfl
    linarith
  have him : 0 ≤ N.im := by
    rw [← hN]; exact reflBeta_nonneg e _ (by linarith [he.1]) hm'
  rw [hi] at w1
  refine ⟨_, w1, w2 hre him, ?_, ?_⟩
  · intro hE
    rw [hval, hE]
    simp only [reflTot, real_sin, real_cos, hc, hsn, real_add, real_mul, real_sub, real_lit, e1]
    rw [cabs_toC, cabs_toC, reflRs_fresnel, hi]
    ring
  · intro ha
    have hN0 : N.im = 0 := by
      rw [← hN]
      simp only [reflN, reflBeta, amu_eq, ha, real_mul, real_div]
      simp
    rw [hval]
    simp only [reflTot, real_sin, real_cos, hc, hsn, real_add, real_mul, real_sub, real_lit, e1]
    rw [cabs_toC, cabs_toC, reflRs_fresnel, reflRp_fresnel_partial _ _ _ hN0, hi]
    ring

/-- absorbing glass and a photon polarised perpendicularly to the plane of incidence meet the hypotheses -/
example : 0 < absorption exLib exD 10 ∧ ∃ w : ℂ, IsCosRefr (index exLib exD 10) (Real.sqrt (1 - (3/5) ^ 2)) w ∧
    (reflPolar 10 exD.density (scatfOf exLib exD 10) (amuOf exLib exD 10) ⟨1, 0, 0⟩ ⟨3/5, 0, 4/5⟩ ⟨0, 1, 0⟩ ⟨0, 0, 0⟩).1 = ‖fresnelS (index exLib exD 10) (3/5) w‖ ^ 2 := by
  have h1 : scatfOf exLib exD 10 = 1 / 2 := by
    simp [scatfOf, exD, exLib]
    norm_num
  have h2 : absorption exLib exD 10 = 223 / 100 := by
    simp [absorption, exD, exLib]
  have h3 : dot (⟨1, 0, 0⟩ : V3 ℝ) ⟨3/5, 0, 4/5⟩ = 3 / 5 := by norm_num [dot]
  have h4 : 0 < (index exLib exD 10).re := by
    rw [← index_used, h1]
    simp only [Cx.toC, reflN, reflAlfa, cHC, cNAVOG, cR0, mpi, exD, real_mul, real_div, real_sub, real_lit]
    norm_num
  obtain ⟨w, a, -, b, -⟩ := reflectivity_glass_partial exLib exD 10 ⟨1, 0, 0⟩ ⟨3/5, 0, 4/5⟩ ⟨0, 1, 0⟩ ⟨0, 1, 0⟩ ⟨0, 0, 0⟩ (by norm_num) (by norm_num [exD]) (by rw [h1]; norm_num)
    (by rw [h2]; norm_num) h4 (by norm_num [dot]) (by norm_num [dot]) (by norm_num [dot]) (by norm_num [dot]) (by norm_num [dot]) (by norm_num [dot])
    (by rw [h3]; norm_num) (by rw [h3]; norm_num)
  rw [h3] at a b
  exact ⟨by rw [h2]; norm_num, w, a, b (by norm_num [dot])⟩

end Glass
end Polycap
