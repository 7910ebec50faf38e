import Verif.Props.ProfileGeom

/-!
# C05: when an ellipsoidal profile has the requested end radii, exactly

At `XR` (exact reals with IEEE infinities and NaN), because outside the feasible domain the code takes
square roots of negative numbers and divides by zero.
-/
namespace Polycap
open CNum

/-- Finite real arguments as C doubles. -/
def ProfArgs.xr (a : ProfArgs ℝ) : ProfArgs XR :=
  ⟨a.type, .fin a.length, .fin a.rad_ext_upstream, .fin a.rad_ext_downstream,
    .fin a.rad_int_upstream, .fin a.rad_int_downstream, .fin a.focal_dist_upstream,
    .fin a.focal_dist_downstream⟩

/-- What `polycap_profile_new` returns for finite arguments, read back through the object (memory
permitting); the returned values may be NaN or infinite. -/
def ProfileResultX (fit : Fit XR) (a : ProfArgs ℝ) (zs cs es : List XR) : Prop :=
  ∀ (h : Heap (Block XR)) (e : EArg), AllocOk h → ∃ b h',
    (profileNew fit a.xr e).run h = some ((some b, e), h') ∧
    readProfile h' (some b) = some (999, zs, cs, es)

theorem profileResultX_of (fit : Fit XR) (a : ProfArgs ℝ) (d : ProfDomain a) {f : Nat → XR}
    (hp : profExt fit a.xr = some f) :
    ProfileResultX fit a (arr profNmax (profZ a.xr)) (arr profNmax (profCap a.xr)) (arr profNmax f) := by
  intro h e ok
  have hr : profRejects a.xr = false := by
    simp [profRejects, CNum.ge, ProfArgs.xr, d.len, d.iu, d.id, d.eu, d.ed, d.fu, d.fd,
      d.iu.trans d.eu, d.id.trans d.ed]
  obtain ⟨h', r, rd⟩ := profile_new_run fit a.xr e h ok hr hp
  exact ⟨_, h', r, rd⟩

theorem profZ_xr (a : ProfArgs ℝ) (i : ℕ) : profZ a.xr i = .fin (profZ a i) := by
  simp only [profZ, ProfArgs.xr, xr_ofInt]
  rw [xr_div _ _ (by simp [profNmax])]
  simp

/-- The ellipse of polycap-profile.c:173-179 and 183-193 as a function of the slope, length, small and
large radius and the distance from the large end; `ab` is the identity or `fabs`. -/
noncomputable def ellVal (ab : XR → XR) (s L r0 r1 x : XR) : XR :=
  let b := ellB s L r0 r1
  let k := r1 -. b
  let aa := sqrt (ab ((b *. b *. L) /. (s *. (r0 -. k))))
  sqrt (b *. b -. (b *. b *. x *. x) /. (aa *. aa)) +. k

theorem foc_val (a : ProfArgs ℝ) (d : ProfDomain a) (i : ℕ) :
    profExtEllFoc a.xr i = ellVal id (.fin (a.rad_ext_downstream / a.focal_dist_downstream))
      (.fin a.length) (.fin a.rad_ext_downstream) (.fin a.rad_ext_upstream) (.fin (profZ a i)) := by
  rw [← profZ_xr, ← xr_div _ _ d.fd.ne']; rfl

theorem conf_val (a : ProfArgs ℝ) (d : ProfDomain a) (i : ℕ) :
    profExtEllConf a.xr i = ellVal CNum.fabs (.fin (a.rad_ext_upstream / a.focal_dist_upstream))
      (.fin a.length) (.fin a.rad_ext_upstream) (.fin a.rad_ext_downstream) (.fin (profZ a (999 - i))) := by
  rw [← profZ_xr, ← xr_div _ _ d.fu.ne']; rfl

section
variable (L r0 r1 s : ℝ)

/-- Feasible: the value is the real ellipse. -/
theorem ellVal_feasible (hL : 0 < L) (hr : r0 < r1) (hs : 0 < s) (hc : 2 * (r1 - r0) < s * L)
    (x : ℝ) (hx0 : 0 ≤ x) (hx1 : x ≤ L) (ab : XR → XR) (hab : ∀ y : ℝ, 0 < y → ab (.fin y) = .fin y) :
    ∃ e : ℝ, ellVal ab (.fin s) (.fin L) (.fin r0) (.fin r1) (.fin x) = .fin e ∧
      r0 ≤ e ∧ e ≤ r1 ∧ (x = 0 → e = r1) ∧ (x = L → e = r0) := by
  have core := ell_core L r0 r1 s hL hr hs hc x hx0 hx1
  have hD : s * L + 2 * (r0 - r1) ≠ 0 := by have : 0 < s * L + 2 * (r0 - r1) := by linarith
                                            exact this.ne'
  have hb : ellB (XR.fin s) (.fin L) (.fin r0) (.fin r1) =
      .fin ((-1 * (r0 - r1) * (r0 - r1) - s * L * (r0 - r1)) / (s * L + 2 * (r0 - r1))) := by
    simp only [ellB, xr_lit, xr_sub, xr_mul, xr_add]
    push_cast
    rw [xr_div _ _ hD]
  simp only [ellVal, hb]
  generalize (-1 * (r0 - r1) * (r0 - r1) - s * L * (r0 - r1)) / (s * L + 2 * (r0 - r1)) = b at core
  simp only at core
  obtain ⟨_, hq, hnn, h0, h1, h2, h3⟩ := core
  have hden : s * (r0 - (r1 - b)) ≠ 0 := by
    intro h; rw [h, div_zero] at hq; exact lt_irrefl _ hq
  have hss : Real.sqrt (b * b * L / (s * (r0 - (r1 - b)))) * Real.sqrt (b * b * L / (s * (r0 - (r1 - b)))) =
      b * b * L / (s * (r0 - (r1 - b))) := Real.mul_self_sqrt hq.le
  simp only [xr_sub, xr_mul]
  rw [xr_div _ _ hden, hab _ hq, xr_sqrt _ hq.le, xr_mul, hss, xr_div _ _ hq.ne', xr_sub,
    xr_sqrt _ hnn, xr_add]
  refine ⟨_, rfl, h2, h3, ?_, ?_⟩
  · rintro rfl; exact h0
  · rintro rfl; exact h1

/-- On the boundary of feasibility (`s·L = 2·(r1-r0)`): ∞/∞. -/
theorem ellVal_boundary (hr : r0 < r1) (hL : 0 < L) (hs : 0 < s) (hc : s * L = 2 * (r1 - r0)) (x : XR) (ab : XR → XR)
    (hab : ab .nan = .nan) :
    ellVal ab (.fin s) (.fin L) (.fin r0) (.fin r1) x = .nan := by
  have hb : ellB (XR.fin s) (.fin L) (.fin r0) (.fin r1) = .inf false := by
    simp only [ellB, xr_lit, xr_sub, xr_mul, xr_add]
    push_cast
    have h1 : s * L + 2 * (r0 - r1) = 0 := by rw [hc]; ring
    have h2 : -1 * (r0 - r1) * (r0 - r1) - s * L * (r0 - r1) = (r1 - r0) ^ 2 := by rw [hc]; ring
    have h3 : 0 < (r1 - r0) ^ 2 := by have := sub_pos.mpr hr; positivity
    rw [h1, h2, xr_div_zero _ h3.ne']
    simp [XR.isNeg, h3.le]
  have k1 : (CNum.sub (XR.fin r1) (.inf false)) = .inf true := rfl
  have k2 : (CNum.sub (XR.fin r0) (.inf true)) = .inf false := rfl
  have k3 : (CNum.mul (XR.fin s) (.inf false)) = .inf false := by
    show XR.mul _ _ = _
    simp [XR.mul, hs.ne', XR.isNeg, hs.le]
  have k4 : (CNum.mul (XR.inf false) (.inf false)) = .inf false := rfl
  have k5 : (CNum.mul (XR.inf false) (.fin L)) = .inf false := by
    show XR.mul _ _ = _
    simp [XR.mul, hL.ne', XR.isNeg, hL.le]
  have k6 : (CNum.div (XR.inf false) (.inf false)) = .nan := rfl
  simp only [ellVal, hb, k1, k2, k3, k4, k5, k6, hab, xr_sqrt_nan, xr_mul_nan, xr_div_nan, xr_sub_nan,
    xr_nan_add]

/-- The half axis `b` and `r0 - k` beyond the boundary. -/
theorem ell_infeasible (hr : r0 < r1) (hc : s * L < 2 * (r1 - r0)) :
    ∃ b : ℝ, ellB (XR.fin s) (.fin L) (.fin r0) (.fin r1) = .fin b ∧ r0 - (r1 - b) < 0 ∧
      (0 < b ↔ s * L < r1 - r0) ∧ (b = 0 ↔ s * L = r1 - r0) := by
  have hD : s * L + 2 * (r0 - r1) < 0 := by linarith
  have hd : 0 < r1 - r0 := by linarith
  refine ⟨(-1 * (r0 - r1) * (r0 - r1) - s * L * (r0 - r1)) / (s * L + 2 * (r0 - r1)), ?_, ?_, ?_, ?_⟩
  · simp only [ellB, xr_lit, xr_sub, xr_mul, xr_add]
    push_cast
    rw [xr_div _ _ hD.ne]
  · have : r0 - (r1 - (-1 * (r0 - r1) * (r0 - r1) - s * L * (r0 - r1)) / (s * L + 2 * (r0 - r1))) =
        (r1 - r0) ^ 2 / (s * L + 2 * (r0 - r1)) := by
      rw [eq_div_iff hD.ne]
      have := div_mul_cancel₀ (-1 * (r0 - r1) * (r0 - r1) - s * L * (r0 - r1)) hD.ne
      linear_combination this
    rw [this]
    exact div_neg_of_pos_of_neg (by positivity) hD
  · have e : -1 * (r0 - r1) * (r0 - r1) - s * L * (r0 - r1) = (r1 - r0) * (s * L - (r1 - r0)) := by ring
    rw [e]
    constructor
    · intro h
      by_contra hn
      have : (r1 - r0) * (s * L - (r1 - r0)) / (s * L + 2 * (r0 - r1)) ≤ 0 :=
        div_nonpos_of_nonneg_of_nonpos (mul_nonneg hd.le (by linarith)) hD.le
      linarith
    · intro h
      exact div_pos_of_neg_of_neg (mul_neg_of_pos_of_neg hd (by linarith)) hD
  · have e : -1 * (r0 - r1) * (r0 - r1) - s * L * (r0 - r1) = (r1 - r0) * (s * L - (r1 - r0)) := by ring
    rw [e, div_eq_zero_iff, mul_eq_zero]
    constructor
    · rintro ((h | h) | h)
      · linarith
      · linarith
      · linarith
    · intro h; left; right; linarith

/-- Beyond the boundary, focusing branch (no `fabs`): NaN. -/
theorem ellVal_foc_nan (hr : r0 < r1) (hL : 0 < L) (hs : 0 < s) (hc : s * L < 2 * (r1 - r0)) (x : ℝ) :
    ellVal id (.fin s) (.fin L) (.fin r0) (.fin r1) (.fin x) = .nan := by
  obtain ⟨b, hb, hk, _, _⟩ := ell_infeasible L r0 r1 s hr hc
  have hden : s * (r0 - (r1 - b)) < 0 := mul_neg_of_pos_of_neg hs hk
  simp only [ellVal, hb, xr_sub, xr_mul, xr_div _ _ hden.ne, id]
  rcases eq_or_ne b 0 with rfl | hb0
  · simp only [mul_zero, zero_mul, zero_div, xr_sqrt _ le_rfl, Real.sqrt_zero, xr_mul,
      xr_div_zero_zero, xr_sub_nan, xr_sqrt_nan, xr_nan_add]
  · have : b * b * L / (s * (r0 - (r1 - b))) < 0 :=
      div_neg_of_pos_of_neg (by have := mul_self_pos.mpr hb0; positivity) hden
    rw [xr_sqrt_neg _ this]
    simp

/-- Beyond the boundary, confocal branch (`fabs`): the small end is never right, the large end is right
iff `s·L < r1 - r0`. -/
theorem ellVal_conf_infeasible (hr : r0 < r1) (hL : 0 < L) (hs : 0 < s) (hc : s * L < 2 * (r1 - r0)) :
    ellVal CNum.fabs (.fin s) (.fin L) (.fin r0) (.fin r1) (.fin L) ≠ .fin r0 ∧
    (ellVal CNum.fabs (.fin s) (.fin L) (.fin r0) (.fin r1) (.fin 0) = .fin r1 ↔ s * L < r1 - r0) := by
  obtain ⟨b, hb, hk, hpos, hzero⟩ := ell_infeasible L r0 r1 s hr hc
  have hden : s * (r0 - (r1 - b)) < 0 := mul_neg_of_pos_of_neg hs hk
  simp only [ellVal, hb, xr_sub, xr_mul, xr_div _ _ hden.ne, xr_fabs]
  rcases eq_or_ne b 0 with rfl | hb0
  · have : s * L = r1 - r0 := hzero.mp rfl
    simp only [mul_zero, zero_mul, zero_div, abs_zero, xr_sqrt _ le_rfl, Real.sqrt_zero, xr_mul,
      xr_div_zero_zero, xr_sub_nan, xr_sqrt_nan, xr_nan_add]
    refine ⟨by simp, ?_⟩
    constructor
    · intro h; cases h
    · intro h; linarith
  · have hq : b * b * L / (s * (r0 - (r1 - b))) < 0 :=
      div_neg_of_pos_of_neg (by have := mul_self_pos.mpr hb0; positivity) hden
    have hq' : 0 < |b * b * L / (s * (r0 - (r1 - b)))| := abs_pos.mpr hq.ne
    simp only [xr_sqrt _ hq'.le, xr_mul, Real.mul_self_sqrt hq'.le, xr_div _ _ hq'.ne', xr_sub]
    constructor
    · intro h
      by_cases hn : b * b - b * b * L * L / |b * b * L / (s * (r0 - (r1 - b)))| < 0
      · rw [xr_sqrt_neg _ hn] at h; simp at h
      · rw [xr_sqrt _ (not_lt.mp hn), xr_add] at h
        have h := XR.fin.inj h
        have := Real.sqrt_nonneg (b * b - b * b * L * L / |b * b * L / (s * (r0 - (r1 - b)))|)
        linarith
    · simp only [mul_zero, zero_div, sub_zero]
      rw [xr_sqrt _ (mul_self_nonneg b), xr_add, Real.sqrt_mul_self_eq_abs, ← hpos]
      constructor
      · intro h
        have h := XR.fin.inj h
        have : 0 ≤ b := by rw [← abs_eq_self]; linarith
        exact lt_of_le_of_ne this (Ne.symm hb0)
      · intro h
        rw [abs_of_pos h]; congr 1; ring

end

theorem arr_keyX (f : ℕ → XR) (i : ℕ) (x : XR) (hx : (arr profNmax f)[i]? = some x) :
    i ≤ 999 ∧ x = f i := by
  by_cases hi : i ≤ profNmax
  · rw [arr_get _ _ _ hi] at hx; exact ⟨hi, (Option.some.inj hx).symm⟩
  · rw [List.getElem?_eq_none (by simp; omega)] at hx; cases hx

theorem arr_replicate (f : ℕ → XR) (v : XR) (h : ∀ i, f i = v) :
    arr profNmax f = List.replicate 1000 v := by
  rw [List.eq_replicate_iff]
  refine ⟨by simp [profNmax], ?_⟩
  intro b hb
  simp only [arr, List.mem_map] at hb
  obtain ⟨i, _, rfl⟩ := hb
  exact h i

theorem nan_replicate (n i : ℕ) (x : ℝ) : (List.replicate n XR.nan)[i]? ≠ some (.fin x) := by
  rw [List.getElem?_replicate]
  split <;> simp

theorem profExt_xr (fit : Fit XR) (a : ProfArgs ℝ) (ht : a.type = 2) :
    profExt fit a.xr = some (if a.rad_ext_downstream < a.rad_ext_upstream then profExtEllFoc a.xr
      else profExtEllConf a.xr) := by
  have : a.xr.type = 2 := ht
  simp only [profExt, this]
  simp [ProfArgs.xr]

/-- **C05, exactly.**  For every accepted ellipsoidal profile the external radius at the entrance is the
requested one iff the ellipse exists (`EllFeasible`); at the exit iff it exists or the optic widens and
`ru/fu·L < rd - ru`; both ends are right iff it exists, and then every radius is a real number between
the two requested ones.  An infeasible narrowing optic, or equal radii, make *every* external radius
NaN.  No error is reported in any of these cases. -/
theorem ellipsoidal_ends_iff (fit : Fit XR) (a : ProfArgs ℝ) (d : ProfDomain a) (ht : a.type = 2) :
    ∃ zs cs es, ProfileResultX fit a zs cs es ∧ es.length = 1000 ∧
      (es[0]? = some (.fin a.rad_ext_upstream) ↔ EllFeasible a) ∧
      (es[999]? = some (.fin a.rad_ext_downstream) ↔ EllFeasible a ∨
        (a.rad_ext_upstream < a.rad_ext_downstream ∧
          a.rad_ext_upstream / a.focal_dist_upstream * a.length <
            a.rad_ext_downstream - a.rad_ext_upstream)) ∧
      (EllFeasible a → ∀ (i : ℕ) (v : XR), es[i]? = some v → ∃ e : ℝ, v = .fin e ∧
        min a.rad_ext_upstream a.rad_ext_downstream ≤ e ∧
        e ≤ max a.rad_ext_upstream a.rad_ext_downstream) ∧
      (¬ EllFeasible a → a.rad_ext_downstream ≤ a.rad_ext_upstream →
        es = List.replicate 1000 .nan) := by
  have hl := d.len
  have hz : ∀ i : ℕ, i ≤ 999 → 0 ≤ profZ a i ∧ profZ a i ≤ a.length := by
    intro i hi
    have hi' : (i : ℝ) ≤ 999 := by exact_mod_cast hi
    simp only [profZ, profNmax, real_mul, real_div, real_ofInt]
    push_cast
    constructor
    · positivity
    · rw [div_mul_eq_mul_div, div_le_iff₀ (by norm_num)]; nlinarith
  have z0 : profZ a 0 = 0 := by simp [profZ]
  have z999 : profZ a 999 = a.length := by simp [profZ, profNmax]
  have su : 0 < a.rad_ext_upstream / a.focal_dist_upstream := div_pos (d.iu.trans d.eu) d.fu
  have sd : 0 < a.rad_ext_downstream / a.focal_dist_downstream := div_pos (d.id.trans d.ed) d.fd
  refine ⟨_, _, _, profileResultX_of fit a d (profExt_xr fit a ht), by simp [profNmax], ?_⟩
  rcases lt_trichotomy a.rad_ext_downstream a.rad_ext_upstream with hr | hr | hr
  · -- focusing
    rw [if_pos hr]
    have nf : ¬ a.rad_ext_upstream < a.rad_ext_downstream := not_lt.mpr hr.le
    by_cases hf : 2 * (a.rad_ext_upstream - a.rad_ext_downstream) <
        a.rad_ext_downstream / a.focal_dist_downstream * a.length
    · have F : EllFeasible a := Or.inl ⟨hr, hf⟩
      have val := fun x h0 h1 => ellVal_feasible a.length _ _ _ hl hr sd hf x h0 h1 id (fun _ _ => rfl)
      refine ⟨iff_of_true ?_ F, iff_of_true ?_ (Or.inl F), ?_, fun h => absurd F h⟩
      · obtain ⟨e, h1, _, _, h2, _⟩ := val 0 le_rfl hl.le
        rw [arr_get _ _ _ (by simp), foc_val a d, z0, h1, h2 rfl]
      · obtain ⟨e, h1, _, _, _, h2⟩ := val a.length hl.le le_rfl
        rw [arr_get _ _ _ (by simp [profNmax]), foc_val a d, z999, h1, h2 rfl]
      · intro _ i v hv
        obtain ⟨hi, rfl⟩ := arr_keyX _ _ _ hv
        obtain ⟨h0, h1⟩ := hz i hi
        obtain ⟨e, h2, h3, h4, _⟩ := val _ h0 h1
        rw [foc_val a d, min_eq_right hr.le, max_eq_left hr.le]
        exact ⟨e, h2, h3, h4⟩
    · have F : ¬ EllFeasible a := by
        rintro (⟨_, h⟩ | ⟨h, _⟩)
        · exact hf h
        · exact nf h
      have all : ∀ i, profExtEllFoc a.xr i = .nan := by
        intro i
        rw [foc_val a d]
        rcases eq_or_lt_of_le (not_lt.mp hf) with h | h
        · exact ellVal_boundary _ _ _ _ hr hl sd h _ _ rfl
        · exact ellVal_foc_nan _ _ _ _ hr hl sd h _
      rw [arr_replicate _ _ all]
      refine ⟨iff_of_false ?_ F, iff_of_false ?_ ?_, fun h => absurd h F, fun _ _ => rfl⟩
      · exact nan_replicate _ _ _
      · exact nan_replicate _ _ _
      · rintro (h | h)
        · exact F h
        · exact nf h.1
  · -- equal
    rw [if_neg (by rw [hr]; exact lt_irrefl _)]
    have F : ¬ EllFeasible a := by
      rintro (⟨h, _⟩ | ⟨h, _⟩)
      · exact absurd hr h.ne
      · exact absurd hr.symm h.ne
    have all : ∀ i, profExtEllConf a.xr i = .nan := by
      intro i
      rw [conf_val a d, ← hr] 
      have hs : a.rad_ext_downstream / a.focal_dist_upstream * a.length ≠ 0 := by
        rw [← hr] at su; positivity
      simp only [ellVal, ellB, xr_sub, xr_lit, xr_mul, xr_add, sub_self,
        mul_zero, add_zero, xr_div _ _ hs, zero_div, zero_mul, xr_div_zero_zero, sub_zero, xr_fabs_nan,
        xr_sqrt_nan, xr_mul_nan, xr_div_nan, xr_sub_nan, xr_nan_add]
    rw [arr_replicate _ _ all]
    refine ⟨iff_of_false (nan_replicate _ _ _) F, iff_of_false (nan_replicate _ _ _) ?_, fun h => absurd h F, fun _ _ => rfl⟩
    rintro (h | h)
    · exact F h
    · exact absurd hr.symm h.1.ne
  · -- widening
    rw [if_neg (not_lt.mpr hr.le)]
    have nf : ¬ a.rad_ext_downstream < a.rad_ext_upstream := not_lt.mpr hr.le
    have fa : ∀ y : ℝ, 0 < y → CNum.fabs (XR.fin y) = .fin y := by
      intro y hy; rw [xr_fabs, abs_of_pos hy]
    by_cases hf : 2 * (a.rad_ext_downstream - a.rad_ext_upstream) <
        a.rad_ext_upstream / a.focal_dist_upstream * a.length
    · have F : EllFeasible a := Or.inr ⟨hr, hf⟩
      have val := fun x h0 h1 => ellVal_feasible a.length _ _ _ hl hr su hf x h0 h1 CNum.fabs fa
      refine ⟨iff_of_true ?_ F, iff_of_true ?_ (Or.inl F), ?_, fun h => absurd F h⟩
      · obtain ⟨e, h1, _, _, _, h2⟩ := val a.length hl.le le_rfl
        rw [arr_get _ _ _ (by simp), conf_val a d, show (999 - 0 : ℕ) = 999 from rfl, z999, h1, h2 rfl]
      · obtain ⟨e, h1, _, _, h2, _⟩ := val 0 le_rfl hl.le
        rw [arr_get _ _ _ (by simp [profNmax]), conf_val a d, show (999 - 999 : ℕ) = 0 from rfl, z0, h1,
          h2 rfl]
      · intro _ i v hv
        obtain ⟨hi, rfl⟩ := arr_keyX _ _ _ hv
        obtain ⟨h0, h1⟩ := hz (999 - i) (by omega)
        obtain ⟨e, h2, h3, h4, _⟩ := val _ h0 h1
        rw [conf_val a d, min_eq_left hr.le, max_eq_right hr.le]
        exact ⟨e, h2, h3, h4⟩
    · have F : ¬ EllFeasible a := by
        rintro (⟨h, _⟩ | ⟨_, h⟩)
        · exact nf h
        · exact hf h
      rw [arr_get _ _ _ (by simp), arr_get _ _ _ (by simp [profNmax]), conf_val a d, conf_val a d,
        show (999 - 0 : ℕ) = 999 from rfl, show (999 - 999 : ℕ) = 0 from rfl, z0, z999]
      refine ⟨iff_of_false ?_ F, ?_, fun h => absurd h F, fun _ h => absurd hr (not_lt.mpr h)⟩
      · rcases eq_or_lt_of_le (not_lt.mp hf) with h | h
        · rw [ellVal_boundary _ _ _ _ hr hl su h _ _ rfl]; simp
        · intro h'
          exact (ellVal_conf_infeasible _ _ _ _ hr hl su h).1 (Option.some.inj h')
      · rw [or_iff_right F, and_iff_right hr]
        rcases eq_or_lt_of_le (not_lt.mp hf) with h | h
        · rw [ellVal_boundary _ _ _ _ hr hl su h _ _ rfl]
          refine iff_of_false (by simp) ?_
          linarith
        · rw [Option.some.injEq]
          exact (ellVal_conf_infeasible _ _ _ _ hr hl su h).2

/-- The hypotheses can be met on both sides of the condition: a usual focusing optic is feasible, the
same optic with a long focal distance is not. -/
example : (∃ a : ProfArgs ℝ, ProfDomain a ∧ a.type = 2 ∧ EllFeasible a) ∧
    ∃ a : ProfArgs ℝ, ProfDomain a ∧ a.type = 2 ∧ ¬ EllFeasible a ∧
      a.rad_ext_downstream ≤ a.rad_ext_upstream :=
  ⟨⟨⟨2, 9, 0.2065, 0.0585, 0.00035, 0.000099, 1000, 0.5⟩, by constructor <;> norm_num, rfl,
    Or.inl (by norm_num)⟩,
   ⟨⟨2, 9, 0.2065, 0.0585, 0.00035, 0.000099, 1000, 5⟩, by constructor <;> norm_num, rfl,
    by norm_num [EllFeasible], by norm_num⟩⟩

/-- Finding (C05): the usual optic above with a focal distance of 5 cm is accepted, and the profile
returned, with no error, has NaN as every external radius. -/
theorem ellipsoidal_infeasible_nan (fit : Fit XR) :
    ∃ a : ProfArgs ℝ, ProfDomain a ∧ a.type = 2 ∧ a.focal_dist_downstream = 5 ∧
      ∃ zs cs, ProfileResultX fit a zs cs (List.replicate 1000 .nan) := by
  have dom : ProfDomain ⟨2, 9, 0.2065, 0.0585, 0.00035, 0.000099, 1000, 5⟩ := by
    constructor <;> norm_num
  obtain ⟨zs, cs, es, h, _, _, _, _, hn⟩ := ellipsoidal_ends_iff fit _ dom rfl
  refine ⟨_, dom, rfl, rfl, zs, cs, ?_⟩
  rw [← hn (by norm_num [EllFeasible]) (by norm_num)]
  exact h

/-- Finding (C05): a widening optic (length 1, external radii 1 → 2, focal distance 2/3) is returned with
the exit radius 4 instead of 2. -/
theorem ellipsoidal_exit_wrong (fit : Fit XR) :
    ∃ a : ProfArgs ℝ, ProfDomain a ∧ a.type = 2 ∧ a.rad_ext_downstream = 2 ∧
      ∃ zs cs es, ProfileResultX fit a zs cs es ∧ es[999]? = some (.fin 4) := by
  have dom : ProfDomain ⟨2, 1, 1, 2, 1/2, 1/2, 2/3, 1⟩ := by constructor <;> norm_num
  refine ⟨_, dom, rfl, rfl, _, _, _, profileResultX_of fit _ dom (profExt_xr fit _ rfl), ?_⟩
  rw [if_neg (by norm_num), arr_get _ _ _ (by simp [profNmax]), conf_val _ dom]
  have z0 : profZ (⟨2, 1, 1, 2, 1/2, 1/2, 2/3, 1⟩ : ProfArgs ℝ) (999 - 999) = 0 := by simp [profZ]
  have hb : ellB (XR.fin (1 / (2 / 3))) (.fin 1) (.fin 1) (.fin 2) = .fin (-1) := by
    simp only [ellB, xr_lit, xr_sub, xr_mul, xr_add]
    rw [xr_div _ _ (by norm_num)]
    norm_num
  rw [z0]
  simp only [ellVal, hb, xr_sub, xr_mul, xr_add]
  rw [xr_div _ _ (by norm_num), xr_fabs, xr_sqrt _ (abs_nonneg _), xr_mul,
    Real.mul_self_sqrt (abs_nonneg _), xr_div _ _ (by norm_num), xr_sub, xr_sqrt _ (by norm_num), xr_add]
  norm_num

end Polycap
