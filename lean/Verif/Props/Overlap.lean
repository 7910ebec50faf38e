import Verif.Props.Validate
import Verif.Props.CapSelect
import Verif.Props.LaunchProps

/-!
# C51: how much a validated stacking may overlap
-/
namespace Polycap
open CNum

/-- The circles of radius `cap` around the axes of any two different capillaries of a stacking of `n` shells
do not overlap, in a cross section of external radius `ext`. -/
def Apart (n : ℤ) (ext cap : ℝ) : Prop :=
  ∀ q r q' r' : ℤ, InStack n q r → InStack n q' r' → (q, r) ≠ (q', r') →
    (2 * cap) ^ 2 ≤ (centreX n ext q r - centreX n ext q' r') ^ 2 + (centreY n ext r - centreY n ext r') ^ 2

/-- two axes are at least one pitch `ext/(n+1)` apart -/
theorem centre_dist (n : ℤ) (hn : 0 ≤ n) (ext : ℝ) (q r q' r' : ℤ) (hne : (q, r) ≠ (q', r')) :
    (ext / (n + 1)) ^ 2 ≤ (centreX n ext q r - centreX n ext q' r') ^ 2 + (centreY n ext r - centreY n ext r') ^ 2 := by
  have hc := cospi6_pos
  have hlt := cospi6_sq_lt
  have hn1 : (0:ℝ) < n + 1 := by exact_mod_cast Int.lt_add_one_of_le hn
  have hx : centreX n ext q r - centreX n ext q' r' = (ext / (n + 1)) * ((2 * (q - q') + (r - r')) / 2) := by
    simp only [centreX]; field_simp; ring
  have hy : centreY n ext r - centreY n ext r' = (ext / (n + 1)) * ((r - r') * (3 / (4 * cospi6))) := by
    simp only [centreY]; field_simp
  rw [hx, hy, mul_pow, mul_pow, ← mul_add]
  have hk : (3:ℝ) / 4 ≤ (3 / (4 * cospi6)) ^ 2 := by
    rw [div_pow, le_div_iff₀ (by positivity)]; nlinarith
  have h1 : (1:ℤ) ≤ (q - q') ^ 2 + (q - q') * (r - r') + (r - r') ^ 2 := by
    by_contra h
    have h0 : (2 * (q - q') + (r - r')) ^ 2 + 3 * (r - r') ^ 2 ≤ 0 := by nlinarith
    have hr : r - r' = 0 := by
      have : (r - r') ^ 2 = 0 := by nlinarith [sq_nonneg (2 * (q - q') + (r - r')), sq_nonneg (r - r')]
      exact pow_eq_zero_iff (two_ne_zero) |>.mp this
    have hq : q - q' = 0 := by
      rw [hr] at h0
      have : (q - q') ^ 2 = 0 := by nlinarith [sq_nonneg (q - q')]
      exact pow_eq_zero_iff (two_ne_zero) |>.mp this
    exact hne (by rw [show q = q' by omega, show r = r' by omega])
  have h1' : (1:ℝ) ≤ ((q:ℝ) - q') ^ 2 + (q - q') * (r - r') + (r - r') ^ 2 := by exact_mod_cast h1
  have h2 : (1:ℝ) ≤ ((2 * ((q:ℝ) - q') + (r - r')) / 2) ^ 2 + (((r:ℝ) - r') * (3 / (4 * cospi6))) ^ 2 := by
    rw [mul_pow]
    have := mul_le_mul_of_nonneg_left hk (sq_nonneg ((r:ℝ) - r'))
    nlinarith
  nlinarith [sq_nonneg (ext / ((n:ℝ) + 1)), mul_le_mul_of_nonneg_left h2 (sq_nonneg (ext / ((n:ℝ) + 1)))]

/-- Capillaries of a stacking of at least one shell are apart exactly when their diameter is at most the
pitch. -/
theorem apart_iff (n : ℤ) (hn : 1 ≤ n) (ext cap : ℝ) (he : 0 < ext) (hcap : 0 ≤ cap) :
    Apart n ext cap ↔ 2 * cap ≤ ext / (n + 1) := by
  have hn1 : (0:ℝ) < n + 1 := by exact_mod_cast (by omega : (0:ℤ) < n + 1)
  have hp : 0 < ext / ((n:ℝ) + 1) := by positivity
  constructor
  · intro h
    have := h 0 0 1 0 ⟨by simp; omega, by simp; omega, by simp; omega⟩ ⟨by simp; omega, by simp; omega, by simp; omega⟩ (by simp)
    have e : (centreX n ext 0 0 - centreX n ext 1 0) ^ 2 + (centreY n ext 0 - centreY n ext 0) ^ 2 = (ext / ((n:ℝ) + 1)) ^ 2 := by
      simp only [centreX, centreY]; push_cast; field_simp; ring
    rw [e] at this
    exact abs_le_of_sq_le_sq' this hp.le |>.2
  · intro h q r q' r' _ _ hne
    refine le_trans ?_ (centre_dist n (by omega) ext q r q' r' hne)
    exact pow_le_pow_left₀ (by linarith) h 2

/-- an inequality between interpolated values follows from the ends of the segment -/
theorem linAt_scaled (k : ℝ) (z0 z1 u0 u1 v0 v1 z : ℝ) (hz : z0 < z1) (h0 : z0 ≤ z) (h1 : z ≤ z1)
    (a0 : k * u0 ≤ v0) (a1 : k * u1 ≤ v1) : k * linAt z0 z1 u0 u1 z ≤ linAt z0 z1 v0 v1 z := by
  have hd : 0 < z1 - z0 := by linarith
  set t := (z - z0) / (z1 - z0) with ht
  have ht0 : 0 ≤ t := div_nonneg (by linarith) hd.le
  have ht1 : t ≤ 1 := by rw [ht, div_le_one hd]; linarith
  have hu : ∀ a b, linAt z0 z1 a b z = a + (b - a) * t := by
    intro a b; simp only [linAt, ht]
  rw [hu, hu]
  nlinarith [mul_nonneg ht0 (sub_nonneg.mpr a1), mul_nonneg (sub_nonneg.mpr ht1) (sub_nonneg.mpr a0)]

/-- the value at a profile point is the stored one -/
theorem valueAt_point {p : Profile ℝ} (g : Grid p) (v : Nat → ℝ) {i : Nat} (hi : i ≤ p.nmax) : ValueAt p v (p.z i) (v i) := by
  rcases Nat.lt_or_ge i p.nmax with h | h
  · exact ⟨i, h, le_refl _, (g.inc i h).le, by unfold linAt; simp⟩
  · have h2 := g.two
    obtain ⟨j, rfl⟩ : ∃ j, i = j + 1 := ⟨i - 1, by omega⟩
    have hz := g.inc j (by omega)
    exact ⟨j, by omega, hz.le, le_refl _, by unfold linAt; rw [div_self (by linarith)]; ring⟩

/-- **C51 (exact).**  In a stacking of at least one shell no two capillaries overlap anywhere along the optic
if and only if at every profile point the capillary diameter is at most the pitch. -/
theorem no_overlap_iff (p : Profile ℝ) (g : Grid p) (n : ℤ) (hn : 1 ≤ n)
    (hext : ∀ i ≤ p.nmax, 0 < p.ext i) (hcap : ∀ i ≤ p.nmax, 0 ≤ p.cap i) :
    (∀ z R rad, ValueAt p p.ext z R → ValueAt p p.cap z rad → Apart n R rad) ↔
      ∀ i ≤ p.nmax, 2 * p.cap i ≤ p.ext i / (n + 1) := by
  have hn1 : (0:ℝ) < n + 1 := by exact_mod_cast (by omega : (0:ℤ) < n + 1)
  constructor
  · intro h i hi
    exact (apart_iff n hn _ _ (hext i hi) (hcap i hi)).mp (h (p.z i) _ _ (valueAt_point g p.ext hi) (valueAt_point g p.cap hi))
  · intro h z R rad hR hrad
    obtain ⟨i, hi, a, b, rfl⟩ := hR
    have hr' := ValueAt.unique g hrad ⟨i, hi, a, b, rfl⟩
    rw [hr']
    have hz := g.inc i hi
    have e0 : 0 < linAt (p.z i) (p.z (i + 1)) (p.ext i) (p.ext (i + 1)) z := by
      set t := (z - p.z i) / (p.z (i + 1) - p.z i) with ht
      have hd : 0 < p.z (i + 1) - p.z i := by linarith
      have ht0 : 0 ≤ t := div_nonneg (by linarith) hd.le
      have ht1 : t ≤ 1 := by rw [ht, div_le_one hd]; linarith
      have : linAt (p.z i) (p.z (i + 1)) (p.ext i) (p.ext (i + 1)) z = p.ext i * (1 - t) + p.ext (i + 1) * t := by
        simp only [linAt, ht]; field_simp; ring
      rw [this]
      rcases eq_or_lt_of_le ht0 with h0 | h0
      · rw [← h0]; simpa using hext i (by omega)
      · nlinarith [mul_pos (hext (i + 1) (by omega)) h0, mul_nonneg (hext i (by omega)).le (sub_nonneg.mpr ht1)]
    have c0 : 0 ≤ linAt (p.z i) (p.z (i + 1)) (p.cap i) (p.cap (i + 1)) z := by
      have := linAt_scaled 0 (p.z i) (p.z (i + 1)) (p.cap i) (p.cap (i + 1)) (p.cap i) (p.cap (i + 1)) z hz a b
        (by simpa using hcap i (by omega)) (by simpa using hcap (i + 1) (by omega))
      simpa using this
    rw [apart_iff n hn _ _ e0 c0, le_div_iff₀ hn1]
    have := linAt_scaled (2 * ((n:ℝ) + 1)) (p.z i) (p.z (i + 1)) (p.cap i) (p.cap (i + 1)) (p.ext i) (p.ext (i + 1)) z hz a b
      (by have := h i (by omega); rw [le_div_iff₀ hn1] at this; linarith)
      (by have := h (i + 1) (by omega); rw [le_div_iff₀ hn1] at this; linarith)
    linarith

/-- what validation does imply about one profile point: the capillary radius is at most the pitch -/
theorem validated_radius (n : ℤ) (hn : 1 ≤ n) (ext cap : ℝ) (he : 0 < ext) (hcap : 0 ≤ cap)
    (h : withinPcBoundary ext (outerPoint n ext cap 0 n).1 (outerPoint n ext cap 0 n).2 = 1) : cap ≤ ext / (n + 1) := by
  have hc := cospi6_pos
  have hn0 : (1:ℝ) ≤ n := by exact_mod_cast hn
  have hn1 : (0:ℝ) < n + 1 := by linarith
  have h3 := Real.sq_sqrt (show (0:ℝ) ≤ 3 by norm_num)
  have hnear := cospi6_near.1
  set hh := Real.sqrt 3 / 2 with hhd
  have hhp : 0 < hh := by rw [hhd]; positivity
  have hsq : hh ^ 2 = 3 / 4 := by rw [hhd, div_pow, h3]; norm_num
  have hy := ((boundary_one_iff _ _ _).mp h).2.1
  simp only [outerPoint] at hy
  set s := n * ext / ((n:ℝ) + 1) with hs
  have hsp : 0 < s := by rw [hs]; positivity
  have hX : centreX n ext 0 n = s / 2 := by simp only [centreX, hs]; push_cast; field_simp; ring
  have hY : centreY n ext n = 3 / (4 * cospi6) * s := by simp only [centreY, hs]; field_simp
  have hY1 : hh * s ≤ centreY n ext n := by
    rw [hY]
    apply mul_le_mul_of_nonneg_right _ hsp.le
    rw [le_div_iff₀ (by positivity)]
    nlinarith
  have hYp : 0 < centreY n ext n := lt_of_lt_of_le (by positivity) hY1
  set R := centreR n ext 0 n with hR
  have hR2 : R ^ 2 = centreX n ext 0 n ^ 2 + centreY n ext n ^ 2 := by
    rw [hR, centreR, Real.sq_sqrt (by positivity)]
  have hRp : 0 < R := by rw [hR, centreR]; apply Real.sqrt_pos.mpr; positivity
  have hYR : hh * R ≤ centreY n ext n := by
    apply abs_le_of_sq_le_sq' _ hYp.le |>.2
    rw [mul_pow, hsq, hR2, hX]
    have : (hh * s) ^ 2 ≤ centreY n ext n ^ 2 := pow_le_pow_left₀ (by positivity) hY1 2
    rw [mul_pow, hsq] at this
    nlinarith
  have h4 := (abs_le.mp hy).2
  have h5 : hh * cap ≤ centreY n ext n * (cap / R) := by
    rw [mul_div_assoc', le_div_iff₀ hRp]
    nlinarith
  have h6 : hh * (s + cap) ≤ hh * ext := by nlinarith
  have h7 : s + cap ≤ ext := le_of_mul_le_mul_left h6 hhp
  have h8 : ext / ((n:ℝ) + 1) = ext - s := by rw [hs]; field_simp; ring
  rw [h8]; linarith

/-- **C51 (what holds).**  In a polycapillary optic accepted by `polycap_profile_validate` the capillaries may overlap
(`validate_accepts_overlap`), but never by more than half: at every height the axis of a capillary is outside every
other capillary.  Missing from the full property: a factor 2 between the radius and the pitch. -/
theorem validated_overlap_partial (p : Profile ℝ) (g : Grid p) (n_cap : ℤ) (hn : 4 ≤ n_cap)
    (hext : ∀ i ≤ p.nmax, 0 < p.ext i) (hcap : ∀ i ≤ p.nmax, 0 ≤ p.cap i) (hv : validate p.toXR n_cap = 1)
    (z R rad : ℝ) (hR : ValueAt p p.ext z R) (hrad : ValueAt p p.cap z rad) (q r q' r' : ℤ) (hne : (q, r) ≠ (q', r')) :
    rad ^ 2 ≤ (centreX (nShells (α := ℝ) n_cap) R q r - centreX (nShells (α := ℝ) n_cap) R q' r') ^ 2 +
      (centreY (nShells (α := ℝ) n_cap) R r - centreY (nShells (α := ℝ) n_cap) R r') ^ 2 := by
  have key := validate_poly_iff p n_cap hn hext hcap
  have hN0 : 0 ≤ nShells (α := ℝ) n_cap := (nShells_spec n_cap (by omega)).1
  have hN1 : 1 ≤ nShells (α := ℝ) n_cap := by
    have : nShells (α := ℝ) n_cap ≠ 0 := fun h => by have := (nShells_zero_iff n_cap (by omega)).mp h; omega
    omega
  generalize nShells (α := ℝ) n_cap = N at *
  simp only at key
  have good := not_imp_comm.mp key.2 (by rw [hv]; norm_num)
  have hN1' : (0:ℝ) < N + 1 := by exact_mod_cast (by omega : (0:ℤ) < N + 1)
  have pt : ∀ i ≤ p.nmax, ((N:ℝ) + 1) * p.cap i ≤ p.ext i := fun i hi => by
    have hs : OnShell N 0 N := ⟨by simp; omega, by rw [abs_of_nonneg hN0], by rw [zero_add, abs_of_nonneg hN0], by simp [abs_of_nonneg hN0]⟩
    have := validated_radius N hN1 _ _ (hext i hi) (hcap i hi) (good 0 N hs i hi)
    rw [le_div_iff₀ hN1'] at this
    linarith
  obtain ⟨i, hi, a, b, rfl⟩ := hR
  have hr' := ValueAt.unique g hrad ⟨i, hi, a, b, rfl⟩
  have hz := g.inc i hi
  have c0 : 0 ≤ rad := by
    rw [hr']
    have := linAt_scaled 0 (p.z i) (p.z (i + 1)) (p.cap i) (p.cap (i + 1)) (p.cap i) (p.cap (i + 1)) z hz a b
      (by simpa using hcap i (by omega)) (by simpa using hcap (i + 1) (by omega))
    simpa using this
  refine le_trans (pow_le_pow_left₀ c0 ?_ 2) (centre_dist N (by omega) _ q r q' r' hne)
  rw [le_div_iff₀ hN1', hr']
  have := linAt_scaled ((N:ℝ) + 1) (p.z i) (p.z (i + 1)) (p.cap i) (p.cap (i + 1)) (p.ext i) (p.ext (i + 1)) z hz a b
    (pt i (by omega)) (pt (i + 1) (by omega))
  linarith

/-- the overlapping stacking of `validate_accepts_overlap` meets the hypotheses -/
example : Grid (straight 0.4 1) ∧ (∀ i ≤ (straight 0.4 1).nmax, 0 < (straight 0.4 1).ext i) ∧
    (∀ i ≤ (straight 0.4 1).nmax, 0 ≤ (straight 0.4 1).cap i) ∧ validate (straight 0.4 1).toXR 7 = 1 :=
  ⟨⟨by norm_num [straight], by norm_num [straight], fun i _ => by norm_num [straight]⟩, fun i _ => by norm_num [straight],
    fun i _ => by norm_num [straight], validate_accepts_overlap.1⟩

/-- a stacking without overlaps: 7 capillaries of radius 0.2 in an optic of radius 1 -/
example : ∀ z R rad, ValueAt (straight 0.2 1) (straight 0.2 1).ext z R → ValueAt (straight 0.2 1) (straight 0.2 1).cap z rad → Apart 1 R rad :=
  (no_overlap_iff (straight 0.2 1) ⟨by norm_num [straight], by norm_num [straight], fun i _ => by norm_num [straight]⟩ 1 le_rfl
    (fun i _ => by norm_num [straight]) (fun i _ => by norm_num [straight])).mpr (fun i _ => by norm_num [straight])

end Polycap
