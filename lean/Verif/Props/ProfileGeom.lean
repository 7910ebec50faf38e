import Verif.Props.ProfileHeap
import Mathlib.Tactic.LinearCombination
import Mathlib.Tactic.FieldSimp
import Mathlib.Tactic.Linarith

/-!
# C04, C05: shape of the profiles
-/
namespace Polycap
open CNum

/-- What `polycap_profile_new` returns, read back through the object (memory permitting). -/
def ProfileResult (fit : Fit ℝ) (a : ProfArgs ℝ) (zs cs es : List ℝ) : Prop :=
  ∀ (h : Heap (Block ℝ)) (e : EArg), AllocOk h → ∃ b h',
    (profileNew fit a e).run h = some ((some b, e), h') ∧
    readProfile h' (some b) = some (999, zs, cs, es)

theorem profileResult_of (fit : Fit ℝ) (a : ProfArgs ℝ) (d : ProfDomain a) {f : Nat → ℝ}
    (hp : profExt fit a = some f) :
    ProfileResult fit a (arr profNmax (profZ a)) (arr profNmax (profCap a)) (arr profNmax f) := by
  intro h e ok
  have hr := (profRejects_real a).mpr ⟨d.len, d.iu, d.id, d.eu, d.ed, d.fu, d.fd⟩
  obtain ⟨h', r, rd⟩ := profile_new_run fit a e h ok hr hp
  exact ⟨_, h', r, rd⟩

theorem convex_pos {t u v : ℝ} (t0 : 0 ≤ t) (t1 : t ≤ 1) (hu : 0 < u) (hv : 0 < v) :
    0 < u + (v - u) * t := by
  rcases eq_or_lt_of_le t0 with rfl | h
  · simpa using hu
  · nlinarith [mul_pos h hv, mul_nonneg (sub_nonneg.mpr t1) hu.le]

/-- **C04.**  Every accepted conical profile: 1000 points, `z` starts at 0, ends at `length` and is
strictly increasing; both radii are the linear interpolation between the given end radii in `z`;
at every point `0 < cap < ext`. -/
theorem conical_profile_sound (fit : Fit ℝ) (a : ProfArgs ℝ) (d : ProfDomain a) (ht : a.type = 0) :
    ∃ zs cs es, ProfileResult fit a zs cs es ∧
      zs.length = 1000 ∧ cs.length = 1000 ∧ es.length = 1000 ∧
      zs[0]? = some 0 ∧ zs[999]? = some a.length ∧
      (∀ i j : ℕ, i < j → ∀ (x y : ℝ), zs[i]? = some x → zs[j]? = some y → x < y) ∧
      (∀ (i : ℕ) (z c e : ℝ), zs[i]? = some z → cs[i]? = some c → es[i]? = some e →
        c = a.rad_int_upstream + (a.rad_int_downstream - a.rad_int_upstream) * (z / a.length) ∧
        e = a.rad_ext_upstream + (a.rad_ext_downstream - a.rad_ext_upstream) * (z / a.length) ∧
        0 < c ∧ c < e) := by
  have hl := d.len
  have key : ∀ (f : ℕ → ℝ) (i : ℕ) (x : ℝ), (arr profNmax f)[i]? = some x → i ≤ 999 ∧ x = f i := by
    intro f i x hx
    by_cases hi : i ≤ profNmax
    · rw [arr_get _ _ _ hi] at hx; exact ⟨hi, (Option.some.inj hx).symm⟩
    · rw [List.getElem?_eq_none (by simp; omega)] at hx; cases hx
  refine ⟨_, _, _, profileResult_of fit a d (f := profExtConical a) (by simp [profExt, ht]),
    by simp [profNmax], by simp [profNmax], by simp [profNmax], ?_, ?_, ?_, ?_⟩
  · rw [arr_get _ _ _ (by simp)]; simp [profZ]
  · rw [arr_get _ _ _ (by simp [profNmax])]; simp [profZ, profNmax]
  · intro i j hij x y hx hy
    obtain ⟨_, rfl⟩ := key _ _ _ hx
    obtain ⟨_, rfl⟩ := key _ _ _ hy
    simp only [profZ, real_mul, real_div, real_ofInt]
    have : (i : ℝ) < j := by exact_mod_cast hij
    apply mul_lt_mul_of_pos_left
    · simpa using this
    · simp [profNmax]; positivity
  · intro i z c e hz hc he
    obtain ⟨hi, rfl⟩ := key _ _ _ hz
    obtain ⟨_, rfl⟩ := key _ _ _ hc
    obtain ⟨_, rfl⟩ := key _ _ _ he
    have hi' : (i : ℝ) ≤ 999 := by exact_mod_cast hi
    have hi0 : (0 : ℝ) ≤ i := by positivity
    set t : ℝ := (i : ℝ) / 999 with ht'
    have t0 : 0 ≤ t := by positivity
    have t1 : t ≤ 1 := by rw [ht', div_le_one (by norm_num)]; exact hi'
    have hzt : profZ a i = a.length * t := by simp [profZ, profNmax, ht']; ring
    have hc' : profCap a i = a.rad_int_upstream + (a.rad_int_downstream - a.rad_int_upstream) * t := by
      simp only [profCap, real_add, real_mul, real_div, real_sub, hzt]; field_simp; ring
    have he' : profExtConical a i = a.rad_ext_upstream + (a.rad_ext_downstream - a.rad_ext_upstream) * t := by
      simp only [profExtConical, real_add, real_mul, real_div, real_sub, hzt]; field_simp; ring
    have hz' : profZ a i / a.length = t := by rw [hzt]; field_simp
    rw [hz', hc', he']
    refine ⟨rfl, rfl, ?_, ?_⟩
    · have := convex_pos t0 t1 d.iu d.id; linarith
    · have := convex_pos t0 t1 (sub_pos.mpr d.eu) (sub_pos.mpr d.ed); linarith

/-! ## C05: ellipsoidal profiles -/

/-- Real-number core: with `r0 < r1` (small and large end radius), `s = r0/f > 0`, and
`s·L > 2(r1 - r0)`, the ellipse used by the code runs from `r1` (horizontal tangent) to `r0`. -/
theorem ell_core (L r0 r1 s : ℝ) (hL : 0 < L) (hr : r0 < r1) (hs : 0 < s)
    (hc : 2 * (r1 - r0) < s * L) (x : ℝ) (hx0 : 0 ≤ x) (hx1 : x ≤ L) :
    let b := (-1 * (r0 - r1) * (r0 - r1) - s * L * (r0 - r1)) / (s * L + 2 * (r0 - r1))
    let k := r1 - b
    let q := (b * b * L) / (s * (r0 - k))
    0 < b ∧ 0 < q ∧ 0 ≤ b * b - (b * b * x * x) / q ∧
    (Real.sqrt (b * b - (b * b * 0 * 0) / q) + k = r1) ∧
    (Real.sqrt (b * b - (b * b * L * L) / q) + k = r0) ∧
    r0 ≤ Real.sqrt (b * b - (b * b * x * x) / q) + k ∧
    Real.sqrt (b * b - (b * b * x * x) / q) + k ≤ r1 := by
  intro b k q
  set D := s * L + 2 * (r0 - r1) with hD
  have hDp : 0 < D := by rw [hD]; linarith
  set d := r1 - r0 with hd
  have hdp : 0 < d := by rw [hd]; linarith
  have hb : b = d * (s * L - d) / D := by
    show (-1 * (r0 - r1) * (r0 - r1) - s * L * (r0 - r1)) / D = _
    congr 1; rw [hd]; ring
  have hsl : d < s * L := by linarith
  have hbp : 0 < b := by rw [hb]; apply div_pos (mul_pos hdp (by linarith)) hDp
  have hrk : r0 - k = d * d / D := by
    show r0 - (r1 - b) = _
    rw [hb]; field_simp; rw [hD, hd]; ring
  have hrkp : 0 < r0 - k := by rw [hrk]; positivity
  have hq : 0 < q := by
    show 0 < (b * b * L) / (s * (r0 - k))
    positivity
  have hbq : ∀ y : ℝ, b * b * y * y / q = s * (r0 - k) * (y * y) / L := by
    intro y
    show b * b * y * y / ((b * b * L) / (s * (r0 - k))) = _
    field_simp
  -- s (r0-k) L = b² - (r0-k)²
  have hend : s * (r0 - k) * (L * L) / L = b * b - (r0 - k) * (r0 - k) := by
    have : s * (r0 - k) * (L * L) / L = s * (r0 - k) * L := by field_simp
    rw [this, hrk, hb]
    have hs' : s * L = D + 2 * d := by rw [hD, hd]; ring
    field_simp
    rw [mul_right_comm, hs']
    ring
  have hmono : s * (r0 - k) * (x * x) / L ≤ s * (r0 - k) * (L * L) / L := by
    apply div_le_div_of_nonneg_right _ hL.le
    apply mul_le_mul_of_nonneg_left _ (by positivity)
    nlinarith
  have hnn : 0 ≤ b * b - (b * b * x * x) / q := by
    rw [hbq]; nlinarith [mul_self_nonneg (r0 - k)]
  have hxnn : 0 ≤ s * (r0 - k) * (x * x) / L := by positivity
  refine ⟨hbp, hq, hnn, ?_, ?_, ?_, ?_⟩
  · rw [hbq]; simp only [mul_zero, zero_div, sub_zero]
    rw [Real.sqrt_mul_self hbp.le]; show b + (r1 - b) = r1; ring
  · rw [hbq, hend, sub_sub_cancel, Real.sqrt_mul_self hrkp.le]; ring
  · rw [hbq]
    have : r0 - k ≤ Real.sqrt (b * b - s * (r0 - k) * (x * x) / L) := by
      apply Real.le_sqrt_of_sq_le
      nlinarith
    linarith
  · rw [hbq]
    have : Real.sqrt (b * b - s * (r0 - k) * (x * x) / L) ≤ b := by
      rw [Real.sqrt_le_left hbp.le]
      nlinarith
    show _ + (r1 - b) ≤ r1
    linarith

/-- The condition on the focal distance under which the ellipse exists: with `r0` the smaller external
radius and `f` the corresponding focal distance, `r0·L/f > 2·(difference of the radii)`. -/
def EllFeasible (a : ProfArgs ℝ) : Prop :=
  (a.rad_ext_downstream < a.rad_ext_upstream ∧
    2 * (a.rad_ext_upstream - a.rad_ext_downstream) <
      a.rad_ext_downstream / a.focal_dist_downstream * a.length) ∨
  (a.rad_ext_upstream < a.rad_ext_downstream ∧
    2 * (a.rad_ext_downstream - a.rad_ext_upstream) <
      a.rad_ext_upstream / a.focal_dist_upstream * a.length)

/-- **C05 (partial: feasible focal distances).**  On the documented domain and if the ellipse exists
(`EllFeasible`), the ellipsoidal profile has the requested external radius at both ends, and all
radii in between lie between the two.  Missing from the full property: `polycap_profile_new` does not
check feasibility, and without it the statement is false (`ellipsoidal_ends_iff` in
`Props/ProfileEll.lean`, which is exact, `ellipsoidal_infeasible_nan`, `ellipsoidal_exit_wrong`,
`ellipsoidal_equal_radii_nan`). -/
theorem ellipsoidal_ends_partial (fit : Fit ℝ) (a : ProfArgs ℝ) (d : ProfDomain a) (ht : a.type = 2)
    (hf : EllFeasible a) :
    ∃ zs cs es, ProfileResult fit a zs cs es ∧ es.length = 1000 ∧
      es[0]? = some a.rad_ext_upstream ∧ es[999]? = some a.rad_ext_downstream ∧
      (∀ (i : ℕ) (e : ℝ), es[i]? = some e →
        min a.rad_ext_upstream a.rad_ext_downstream ≤ e ∧
        e ≤ max a.rad_ext_upstream a.rad_ext_downstream) := by
  have hl := d.len
  have key : ∀ (f : ℕ → ℝ) (i : ℕ) (x : ℝ), (arr profNmax f)[i]? = some x → i ≤ 999 ∧ x = f i := by
    intro f i x hx
    by_cases hi : i ≤ profNmax
    · rw [arr_get _ _ _ hi] at hx; exact ⟨hi, (Option.some.inj hx).symm⟩
    · rw [List.getElem?_eq_none (by simp; omega)] at hx; cases hx
  have hz : ∀ i : ℕ, i ≤ 999 → 0 ≤ profZ a i ∧ profZ a i ≤ a.length := by
    intro i hi
    have hi' : (i : ℝ) ≤ 999 := by exact_mod_cast hi
    simp only [profZ, profNmax, real_mul, real_div, real_ofInt]
    push_cast
    constructor
    · positivity
    · rw [div_mul_eq_mul_div, div_le_iff₀ (by norm_num)]; nlinarith
  have z0 : profZ a 0 = 0 := by simp [profZ]
  have z999 : profZ a 999 = a.length := by simp [profZ, profNmax]
  rcases hf with ⟨hr, hc⟩ | ⟨hr, hc⟩
  · have hs : 0 < a.rad_ext_downstream / a.focal_dist_downstream :=
      div_pos (d.id.trans d.ed) d.fd
    have core := fun x h0 h1 => ell_core a.length a.rad_ext_downstream a.rad_ext_upstream _ hl hr hs hc x h0 h1
    have form : ∀ i, profExtEllFoc a i =
        (let b := (-1 * (a.rad_ext_downstream - a.rad_ext_upstream) * (a.rad_ext_downstream - a.rad_ext_upstream) - a.rad_ext_downstream / a.focal_dist_downstream * a.length * (a.rad_ext_downstream - a.rad_ext_upstream)) / (a.rad_ext_downstream / a.focal_dist_downstream * a.length + 2 * (a.rad_ext_downstream - a.rad_ext_upstream))
         let k := a.rad_ext_upstream - b
         let q := (b * b * a.length) / (a.rad_ext_downstream / a.focal_dist_downstream * (a.rad_ext_downstream - k))
         Real.sqrt (b * b - (b * b * profZ a i * profZ a i) / q) + k) := by
      intro i
      obtain ⟨_, hq, _⟩ := core 0 (le_refl _) hl.le
      simp only [profExtEllFoc, ellB, real_add, real_sub, real_mul, real_div, real_sqrt, real_lit]
      push_cast
      rw [Real.mul_self_sqrt hq.le]
    refine ⟨_, _, _, profileResult_of fit a d (f := profExtEllFoc a) (by simp [profExt, ht, hr]),
      by simp [profNmax], ?_, ?_, ?_⟩
    · rw [arr_get _ _ _ (by simp), form, z0]
      exact congrArg some (core 0 (le_refl _) hl.le).2.2.2.1
    · rw [arr_get _ _ _ (by simp [profNmax]), form, z999]
      exact congrArg some (core 0 (le_refl _) hl.le).2.2.2.2.1
    · intro i e he
      obtain ⟨hi, rfl⟩ := key _ _ _ he
      obtain ⟨h0, h1⟩ := hz i hi
      rw [form, min_eq_right hr.le, max_eq_left hr.le]
      exact (core _ h0 h1).2.2.2.2.2
  · have hs : 0 < a.rad_ext_upstream / a.focal_dist_upstream :=
      div_pos (d.iu.trans d.eu) d.fu
    have core := fun x h0 h1 => ell_core a.length a.rad_ext_upstream a.rad_ext_downstream _ hl hr hs hc x h0 h1
    have form : ∀ i, profExtEllConf a i =
        (let b := (-1 * (a.rad_ext_upstream - a.rad_ext_downstream) * (a.rad_ext_upstream - a.rad_ext_downstream) - a.rad_ext_upstream / a.focal_dist_upstream * a.length * (a.rad_ext_upstream - a.rad_ext_downstream)) / (a.rad_ext_upstream / a.focal_dist_upstream * a.length + 2 * (a.rad_ext_upstream - a.rad_ext_downstream))
         let k := a.rad_ext_downstream - b
         let q := (b * b * a.length) / (a.rad_ext_upstream / a.focal_dist_upstream * (a.rad_ext_upstream - k))
         Real.sqrt (b * b - (b * b * profZ a (999 - i) * profZ a (999 - i)) / q) + k) := by
      intro i
      obtain ⟨_, hq, _⟩ := core 0 (le_refl _) hl.le
      simp only [profExtEllConf, ellB, real_add, real_sub, real_mul, real_div, real_sqrt, real_lit,
        real_fabs, profNmax]
      push_cast
      rw [abs_of_pos hq, Real.mul_self_sqrt hq.le]
    refine ⟨_, _, _, profileResult_of fit a d (f := profExtEllConf a) (by simp [profExt, ht, hr.le]),
      by simp [profNmax], ?_, ?_, ?_⟩
    · rw [arr_get _ _ _ (by simp), form, show (999 - 0 : ℕ) = 999 from rfl, z999]
      exact congrArg some (core 0 (le_refl _) hl.le).2.2.2.2.1
    · rw [arr_get _ _ _ (by simp [profNmax]), form, show (999 - 999 : ℕ) = 0 from rfl, z0]
      exact congrArg some (core 0 (le_refl _) hl.le).2.2.2.1
    · intro i e he
      obtain ⟨hi, rfl⟩ := key _ _ _ he
      obtain ⟨h0, h1⟩ := hz (999 - i) (by omega)
      rw [form, min_eq_left hr.le, max_eq_right hr.le]
      exact (core _ h0 h1).2.2.2.2.2

example : ∃ a : ProfArgs ℝ, ProfDomain a ∧ a.type = 2 ∧ EllFeasible a :=
  ⟨⟨2, 9, 0.2065, 0.0585, 0.00035, 0.000099, 1000, 0.5⟩, by constructor <;> norm_num, rfl,
    Or.inl (by norm_num)⟩

/-- Finding (C05): equal external radii make every external radius NaN (0/0) with no error reported,
for every accepted length, internal radii and focal distances. -/
theorem ellipsoidal_equal_radii_nan (fit : Fit XR) (L r ru rd fu fd : ℝ) (hL : 0 < L) (hu : 0 < ru)
    (hd : 0 < rd) (hur : ru < r) (hdr : rd < r) (hfu : 0 < fu) (hfd : 0 < fd)
    (e : EArg) (h : Heap (Block XR)) (ok : AllocOk h) :
    ∃ b h' zs cs, (profileNew fit ⟨2, .fin L, .fin r, .fin r, .fin ru, .fin rd, .fin fu, .fin fd⟩ e).run h
        = some ((some b, e), h') ∧
      readProfile h' (some b) = some (999, zs, cs, List.replicate 1000 XR.nan) := by
  have hr : 0 < r := hu.trans hur
  obtain ⟨h', r1, rd1⟩ := profile_new_run fit
    ⟨2, .fin L, .fin r, .fin r, .fin ru, .fin rd, .fin fu, .fin fd⟩ e h ok
    (by simp [profRejects, CNum.ge, hL, hr, hu, hd, hur, hdr, hfu, hfd])
    (f := profExtEllConf ⟨2, .fin L, .fin r, .fin r, .fin ru, .fin rd, .fin fu, .fin fd⟩) (by simp [profExt])
  have hs : r / fu * L ≠ 0 := by positivity
  have : ∀ i, profExtEllConf (⟨2, .fin L, .fin r, .fin r, .fin ru, .fin rd, .fin fu, .fin fd⟩ : ProfArgs XR) i = .nan := by
    intro i
    simp only [profExtEllConf, ellB, xr_sub, xr_lit, xr_mul, xr_add, xr_div _ _ hfu.ne', sub_self,
      mul_zero, add_zero, xr_div _ _ hs, zero_div, zero_mul, xr_div_zero_zero, sub_zero, xr_fabs_nan,
      xr_sqrt_nan, xr_mul_nan, xr_div_nan, xr_sub_nan, xr_nan_add]
  have : arr profNmax (profExtEllConf (⟨2, .fin L, .fin r, .fin r, .fin ru, .fin rd, .fin fu, .fin fd⟩ : ProfArgs XR)) = List.replicate 1000 .nan := by
    rw [List.eq_replicate_iff]
    refine ⟨by simp [profNmax], ?_⟩
    intro b hb
    simp only [arr, List.mem_map] at hb
    obtain ⟨i, _, rfl⟩ := hb
    exact this i
  rw [this] at rd1
  exact ⟨_, h', _, _, r1, rd1⟩

end Polycap
