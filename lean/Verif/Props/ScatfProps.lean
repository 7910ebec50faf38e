import Verif.Photon

/-!
# C46: absorption coefficients and scattering factors

Exact reals.  The xraylib tables are a parameter `lib`.
-/
namespace Polycap
open CNum

/-- Specification: linear absorption coefficient of a material given as (Z, weight fraction) pairs. -/
noncomputable def specMu (cs : Int → ℝ → ℝ) (material : List (Int × ℝ)) (density e : ℝ) : ℝ :=
  density * (material.map (fun zw => zw.2 * cs zw.1 e)).sum

/-- Specification: `Σ w_i (Z_i + f'_i(e)) / A_i`. -/
noncomputable def specScatf (fi : Int → ℝ → ℝ) (aw : Int → ℝ) (material : List (Int × ℝ)) (e : ℝ) : ℝ :=
  (material.map (fun zw => zw.2 * ((zw.1 : ℝ) + fi zw.1 e) / aw zw.1)).sum

theorem foldl_add_sum {A : Type} (f : A → ℝ) (l : List A) (t : ℝ) :
    l.foldl (fun t a => t + f a) t = t + (l.map f).sum := by
  induction l generalizing t with
  | nil => simp
  | cons a l ih => rw [List.foldl_cons, ih]; simp; ring

/-- **C46.** The absorption coefficient is density times the weighted sum of cross sections. -/
theorem amu_spec (lib : Xray ℝ) (D : Descr ℝ) (e : ℝ) :
    amuOf lib D e = specMu lib.csTotal (D.iz.zip D.wi) D.density e := by
  simp only [amuOf, real_add, real_mul, real_lit, specMu]
  rw [foldl_add_sum (fun zw : Int × ℝ => lib.csTotal zw.1 e * zw.2)]
  simp only [Rat.cast_zero, zero_add]
  rw [mul_comm]
  congr 3
  funext zw; ring

/-- **C46.** The same for the scattering factor. -/
theorem scatf_spec (lib : Xray ℝ) (D : Descr ℝ) (e : ℝ) :
    scatfOf lib D e = specScatf lib.fi lib.aw (D.iz.zip D.wi) e := by
  simp only [scatfOf, real_add, real_mul, real_div, real_lit, real_ofInt, specScatf]
  rw [foldl_add_sum (fun zw : Int × ℝ => ((zw.1 : ℝ) + lib.fi zw.1 e) * (zw.2 / lib.aw zw.1))]
  simp only [Rat.cast_zero, zero_add]
  congr 2
  funext zw; ring

theorem elemBad_false (zw : Int × ℝ) : elemBad zw = false ↔ 0 ≤ zw.2 ∧ zw.2 ≤ 1 ∧ 1 ≤ zw.1 ∧ zw.1 ≤ 111 := by
  have e0 : ((0:ℚ):ℝ) = 0 := by norm_num
  have e1 : ((1:ℚ):ℝ) = 1 := by norm_num
  simp only [elemBad, gt, real_lt, real_lit, e0, e1, Bool.or_eq_false_iff, decide_eq_false_iff_not, not_lt, not_or]
  constructor
  · rintro ⟨⟨a, b⟩, c, d⟩; exact ⟨a, b, by omega, by omega⟩
  · rintro ⟨a, b, c, d⟩; exact ⟨⟨a, b⟩, by omega, by omega⟩

theorem energyBad_false (e : ℝ) : energyBad e = false ↔ 1 ≤ e ∧ e ≤ 100 := by
  have e100 : ((100:ℚ):ℝ) = 100 := by norm_num
  have e1 : ((1:ℚ):ℝ) = 1 := by norm_num
  simp only [energyBad, gt, real_lt, real_lit, e100, e1, Bool.or_eq_false_iff, decide_eq_false_iff_not, not_lt]

/-- The compositions and energies for which coefficients are computed at all. -/
theorem scatf_accepts_iff (D : Descr ℝ) (es : List ℝ) : scatfRejects D es = false ↔
    0 < D.density ∧ D.iz ≠ [] ∧ es ≠ [] ∧ (∀ e ∈ es, 1 ≤ e ∧ e ≤ 100) ∧
    ∀ zw ∈ D.iz.zip D.wi, 0 ≤ zw.2 ∧ zw.2 ≤ 1 ∧ 1 ≤ zw.1 ∧ zw.1 ≤ 111 := by
  have e0 : ((0:ℚ):ℝ) = 0 := by norm_num
  simp only [scatfRejects, real_le, real_lit, e0, Bool.or_eq_false_iff, decide_eq_false_iff_not, not_le, List.any_eq_false,
    List.isEmpty_eq_false_iff, Bool.not_eq_true, energyBad_false, elemBad_false]
  tauto

/-- **C46.** Non-negative for an accepted composition and non-negative cross sections. -/
theorem amu_nonneg (lib : Xray ℝ) (D : Descr ℝ) (es : List ℝ) (h : scatfRejects D es = false)
    (hcs : ∀ z e, 0 ≤ lib.csTotal z e) (e : ℝ) : 0 ≤ amuOf lib D e := by
  obtain ⟨hd, -, -, -, hw⟩ := (scatf_accepts_iff D es).mp h
  rw [amu_spec]
  apply mul_nonneg hd.le
  apply List.sum_nonneg
  intro x hx
  obtain ⟨zw, hzw, rfl⟩ := List.mem_map.mp hx
  exact mul_nonneg (hw zw hzw).1 (hcs _ _)

/-- **C46.** Independent of the order of the elements. -/
theorem amu_order (lib : Xray ℝ) (D D' : Descr ℝ) (hd : D'.density = D.density) (e : ℝ)
    (hp : (D'.iz.zip D'.wi).Perm (D.iz.zip D.wi)) :
    amuOf lib D' e = amuOf lib D e ∧ scatfOf lib D' e = scatfOf lib D e := by
  rw [amu_spec, amu_spec, scatf_spec, scatf_spec]
  constructor
  · rw [specMu, specMu, hd, (hp.map _).sum_eq]
  · rw [specScatf, specScatf, (hp.map _).sum_eq]

theorem sum_lin (f : Int → ℝ) (iz : List Int) (u v : List ℝ) (a b : ℝ) (hu : u.length = iz.length) (hv : v.length = iz.length) :
    (((iz.zip (List.zipWith (fun x y => a * x + b * y) u v))).map (fun zw => zw.2 * f zw.1)).sum =
    a * ((iz.zip u).map (fun zw => zw.2 * f zw.1)).sum + b * ((iz.zip v).map (fun zw => zw.2 * f zw.1)).sum := by
  induction iz generalizing u v with
  | nil => simp
  | cons z iz ih =>
    cases u with
    | nil => simp at hu
    | cons x u => cases v with
      | nil => simp at hv
      | cons y v =>
        have := ih u v (by simpa using hu) (by simpa using hv)
        simp only [List.zipWith_cons_cons, List.zip_cons_cons, List.map_cons, List.sum_cons, this]
        ring

/-- **C46.** Linear in the composition (weight fractions of the same elements). -/
theorem amu_linear (lib : Xray ℝ) (D : Descr ℝ) (u v : List ℝ) (a b e : ℝ) (hu : u.length = D.iz.length)
    (hv : v.length = D.iz.length) :
    amuOf lib { D with wi := List.zipWith (fun x y => a * x + b * y) u v } e =
      a * amuOf lib { D with wi := u } e + b * amuOf lib { D with wi := v } e := by
  rw [amu_spec, amu_spec, amu_spec]
  simp only [specMu]
  rw [sum_lin (fun z => lib.csTotal z e) D.iz u v a b hu hv]
  ring

/-- a borosilicate-like composition is accepted -/
example (p : Profile ℝ) : scatfRejects (⟨0, 7, [8, 14], [53/100, 47/100], 223/100, p⟩ : Descr ℝ) [10, 20] = false := by
  rw [scatf_accepts_iff]
  simp
  norm_num

end Polycap
