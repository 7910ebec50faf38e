import Verif.Props.LeakOff
import Verif.Props.LaunchReports

/-!
# C87: a photon that stays in its capillary is not thrown away

`polycap_photon_launch` returns -1 without an error for a photon "found outside the optic" (C79).  A user expects this of photons that have left
the optic only.  `launch_reports_partial` says what the code checks: whether *somewhere on the photon's present line*, from the profile point it has
passed last, the line is outside the optic.  That place may be behind the photon (`launch_discards_inside`), and for up to three capillaries the
square of the distance from the axis is compared with the radius (`launch_discards_wide`).
-/
namespace Polycap
open CNum
namespace Tube

/-- a straight tube of glass: inner radius `r`, length `L`, outer radius `X` -/
noncomputable def tD (r L X : ℝ) : Descr ℝ := ⟨0, 1, [14], [1], 223/100, ⟨1, fun i => L * i, fun _ => r, fun _ => X⟩⟩

theorem tGrid {r L X : ℝ} (hL : 0 < L) : Grid (tD r L X).prof := ⟨le_refl _, by simp [tD], by
  intro i hi; simp only [tD]; push_cast; nlinarith⟩
theorem tX (r L X : ℝ) (i : Nat) : axX (tD r L X) (0, 0) i = 0 := by
  rw [axX_eq (tD r L X) (by simp [tD]) (0, 0) i]; simp [centreX]
theorem tY (r L X : ℝ) (i : Nat) : axY (tD r L X) (0, 0) i = 0 := by
  rw [axY_eq (tD r L X) (by simp [tD]) (0, 0) i]; simp [centreY]

theorem t_scatf (r L X : ℝ) : scatfRejects (tD r L X) [10] = false := by
  rw [scatf_accepts_iff]
  simp [tD]
  norm_num

theorem t_chan (r L X : ℝ) (P : Photon ℝ) : (launchInit zLib (tD r L X) [10] P).chans = [⟨10, 1, 0, 1/2⟩] ∧
    (launchInit zLib (tD r L X) [10] P).coef = true := by
  constructor
  · simp [launchInit, amuOf, scatfOf, tD, zLib]
    norm_num
  · show (!scatfRejects (tD r L X) [10]) = true
    rw [t_scatf]; rfl

theorem t_reflect (r L X : ℝ) (leak : Bool) (hl : leak = false) (fuel k : Nat) (e : ℝ) (he : e ^ 2 = 1) (P : Photon ℝ) (hD : P.exitD = ⟨e * zs, 0, zc⟩)
    (hch : P.chans = [⟨10, 1, 0, 1/2⟩]) (hco : P.coef = true) :
    ∃ E', reflect (tD r L X) leak fuel (k + 1) ⟨e, 0, 0⟩ P = .ok (1, { P with exitE := E' }) := by
  subst hl
  have e0 : ((0:ℚ):ℝ) = 0 := by norm_num
  have e1 : ((1:ℚ):ℝ) = 1 := by norm_num
  have e4 : ((1/10^4:ℚ):ℝ) = 1/10^4 := by norm_num
  have hu : vnorm (⟨e * zs, 0, zc⟩ : V3 ℝ) = ⟨e * zs, 0, zc⟩ := vnorm_unit _ (by unfold dot; nlinarith [zUnit])
  have hn : vnorm (⟨e, 0, 0⟩ : V3 ℝ) = ⟨e, 0, 0⟩ := vnorm_unit _ (by unfold dot; nlinarith)
  have hsc : scalar (⟨e * zs, 0, zc⟩ : V3 ℝ) ⟨e, 0, 0⟩ = zs := by
    rw [scalar_real]; unfold dot; simp only; linear_combination zs * he
  have hneg : ((zs : ℝ) <. lit 0) = false := by
    simp only [real_lt, real_lit, e0, decide_eq_false_iff_not]; norm_num [zs]
  have hrough : roughFactor (0:ℝ) 10 zs = 1 := by simp [roughFactor]
  have hx := z_polar e he P.exitE P.exitE
  refine ⟨(reflPolar (10:ℝ) (223/100) (1/2) 0 ⟨e, 0, 0⟩ ⟨e * zs, 0, zc⟩ P.exitE P.exitE).2.1, ?_⟩
  have hcoef : (!P.coef && !P.chans.isEmpty) = false := by rw [hco]; rfl
  unfold reflect reflectBody
  simp only [hD, hu, hn, hsc, hneg, Bool.false_eq_true, if_false, wallOf, renorm, Out.bind_ok]
  unfold reflectRest
  rw [if_neg (by simp)]
  rw [if_neg (by simpa using hcoef)]
  simp only [hch, reflEnergies]
  have hz : (tD r L X).density = 223/100 := rfl
  have hg : (tD r L X).sig_rough = 0 := rfl
  have hr1 : ((1:ℝ) <. lit 0 || (1:ℝ) >. lit 1) = false := by
    simp only [gt, real_lt, real_lit, e0, e1]; norm_num
  simp only [hz, hg, hx, hr1, hrough, Bool.false_eq_true, if_false, real_mul, mul_one, Bool.false_and, Bool.or_false]
  have h4 : ((1:ℝ) >=. lit (1/10^4)) = true := by
    simp only [ge, real_le, real_lit, e4, decide_eq_true_eq]; norm_num
  simp only [h4, Bool.not_true, Bool.false_eq_true, if_false, if_true]


theorem t_at {r h L X e z0 : ℝ} (hk : zs / zc = r / h) (P : Photon ℝ) (hD : P.exitD = ⟨e * zs, 0, zc⟩)
    (hC : P.exitC = ⟨e * (r / h) * (P.exitC.z - z0), 0, P.exitC.z⟩) (i : Nat) :
    atGrid (tD r L X).prof P.exitC P.exitD i = ⟨e * (r / h) * (L * i - z0), 0, L * i⟩ := by
  rw [atGrid_eq, hD, hC]
  have : (tD r L X).prof.z i = L * i := rfl
  simp only [this, ← hk]
  congr 1
  · field_simp; ring
  · simp

theorem zs_gate : ((acos zs : ℝ) >. mpi /. lit 2 || (acos zs : ℝ) <. lit 0) = false := by
  have e2 : ((2:ℚ):ℝ) = 2 := by norm_num
  have e0 : ((0:ℚ):ℝ) = 0 := by norm_num
  simp only [real_acos, real_div, real_lit, e2, e0, gt, real_lt, Bool.or_eq_false_iff, decide_eq_false_iff_not, not_lt]
  refine ⟨?_, Real.arccos_nonneg _⟩
  rw [Real.arccos_eq_pi_div_two_sub_arcsin]
  have hm : Real.pi / 2 - (mpi:ℝ) / 2 ≤ zs := by
    have := Real.pi_lt_d20
    simp only [mpi, real_lit, zs]
    norm_num at this ⊢
    linarith
  have hz1 : zs ≤ Real.arcsin zs := by
    have h1 := Real.sin_arcsin (x := zs) (by norm_num [zs]) (by norm_num [zs])
    calc zs = Real.sin (Real.arcsin zs) := h1.symm
      _ ≤ Real.arcsin zs := Real.sin_le (Real.arcsin_nonneg.mpr (by norm_num [zs]))
  linarith

/-- the search finds the wall -/
theorem t_search {r h L X e z0 : ℝ} (hr : 0 < r) (hh : 0 < h) (hL : 0 < L) (hX : r < X) (hk : zs / zc = r / h) (he : e ^ 2 = 1) (P : Photon ℝ)
    (hD : P.exitD = ⟨e * zs, 0, zc⟩) (hC : P.exitC = ⟨e * (r / h) * (P.exitC.z - z0), 0, P.exitC.z⟩)
    (hb : z0 - h < P.exitC.z + 1 / 10 ^ 5) (ha : P.exitC.z + 1 / 10 ^ 5 ≤ z0 + h) (h3 : z0 + h ≤ L) (h0 : 1 / 10 ^ 10 ≤ z0 + h) (nrm : V3 ℝ) :
    traceSearch (tD r L X) (axX (tD r L X) (0, 0)) (axY (tD r L X) (0, 0)) P 1 0 P.exitC nrm = .hit 0 ⟨e * r, 0, z0 + h⟩ ⟨e, 0, 0⟩ zs := by
  have hbd : withinPcBoundary X 0 0 = 1 := boundary_axis (hr.trans hX)
  have hseg := cyl_segment (L := L) (r := r) (h := h) (z0 := z0) (s := zs) (c := zc) (e := e) (cur := P.exitC) (nrm := nrm)
    (p0 := ⟨e * (r / h) * (0 - z0), 0, 0⟩) (p1 := ⟨e * (r / h) * (L - z0), 0, L⟩) hr hh hL
    (by norm_num [zs]) (by norm_num [zc]) hk zUnit he rfl rfl hb ha h3 h0
  have hg0 := t_at (L := L) (X := X) hk P hD hC 0
  have hg1 := t_at (L := L) (X := X) hk P hD hC (0 + 1)
  simp only [Nat.cast_zero, mul_zero, zero_add, Nat.cast_one, mul_one] at hg0 hg1
  have hsc : scalar (⟨e, 0, 0⟩ : V3 ℝ) ⟨e * zs, 0, zc⟩ = zs := by
    rw [scalar_real]; unfold dot; simp only; linear_combination zs * he
  have hrad : (sqrt ((e * r) *. (e * r) +. (0:ℝ) *. 0) >=. interp ((tD r L X).prof.z (0 + 1)) ((tD r L X).prof.z 0) ((tD r L X).prof.ext (0 + 1)) ((tD r L X).prof.ext 0) (z0 + h)) = false := by
    have : interp ((tD r L X).prof.z (0 + 1)) ((tD r L X).prof.z 0) ((tD r L X).prof.ext (0 + 1)) ((tD r L X).prof.ext 0) (z0 + h) = X := by
      rw [linAt_interp]; simp [linAt, tD]
    rw [this]
    simp only [real_sqrt, real_mul, real_add, ge, real_le, decide_eq_false_iff_not, not_le]
    rw [show e * r * (e * r) + 0 * 0 = e ^ 2 * r ^ 2 by ring, he, one_mul, Real.sqrt_sq hr.le]
    exact hX
  have hns : nShells (α := ℝ) (tD r L X).n_cap = 0 := nShells_one
  unfold traceSearch
  simp only [tX, tY]
  rw [show (tD r L X).prof.ext 0 = X from rfl, show (tD r L X).prof.ext (0 + 1) = X from rfl, hbd, if_neg (by decide)]
  rw [show (tD r L X).prof.ext 0 = X from rfl, show (tD r L X).prof.ext (0 + 1) = X from rfl] at hrad
  have hz0 : (tD r L X).prof.z 0 = 0 := by simp [tD]
  have hz1 : (tD r L X).prof.z (0 + 1) = L := by simp [tD]
  rw [hz0, hz1] at hrad ⊢
  rw [hg0, hg1, show (tD r L X).prof.cap 0 = r from rfl, show (tD r L X).prof.cap (0 + 1) = r from rfl, hD, hseg]
  simp only [hsc, zs_gate, Bool.false_eq_true, if_false, if_true, hns, hrad]

/-- the line leaves the tube by its exit -/
theorem t_segment_miss {r h L z0 e : ℝ} {cur nrm p1 : V3 ℝ} (hr : 0 < r) (hh : 0 < h) (hk : zs / zc = r / h) (he : e ^ 2 = 1)
    (hcur : z0 - h < cur.z + 1 / 10 ^ 5) (hout : L < z0 + h) :
    (segment ⟨0, 0, 0⟩ ⟨0, 0, L⟩ r r ⟨e * (r / h) * (0 - z0), 0, 0⟩ p1 ⟨e * zs, 0, zc⟩ cur nrm).1 ≠ 1 := by
  have hc : 0 < zc := by norm_num [zc]
  have hgen : genCoeff ⟨0, 0, 0⟩ ⟨0, 0, L⟩ r r ⟨e * zs, 0, zc⟩ ≠ 0 := by
    unfold genCoeff
    simp only [sub_self, zero_div, sub_zero]
    have : (e * zs / zc) ^ 2 = (zs / zc) ^ 2 := by
      rw [mul_div_assoc, mul_pow, he, one_mul]
    rw [this]
    have : 0 < (zs / zc) ^ 2 := by rw [hk]; positivity
    simp only [ne_eq, OfNat.ofNat_ne_zero, not_false_eq_true, zero_pow, add_zero, sub_zero]
    exact this.ne'
  have hx : ∀ z, e * (r / h) * (0 - z0) + z / zc * (e * zs) = e * (r / h) * (z - z0) := by
    intro z; rw [← hk]; field_simp; ring
  intro h1
  generalize hres : segment ⟨0, 0, 0⟩ ⟨0, 0, L⟩ r r ⟨e * (r / h) * (0 - z0), 0, 0⟩ p1 ⟨e * zs, 0, zc⟩ cur nrm = res at h1
  obtain ⟨code, v, n⟩ := res
  simp only at h1
  subst h1
  obtain ⟨l, l1, l2, l3, l4, w, -⟩ := segment_sound _ _ _ _ _ _ _ _ _ _ _ hc hgen hres
  rw [l] at w
  simp only [OnWall, lineAt, linAt, sub_zero] at w
  rw [hx] at w
  simp only [sub_self, zero_mul, add_zero, sub_zero, mul_zero, ne_eq, OfNat.ofNat_ne_zero, not_false_eq_true, zero_pow] at w
  have e1 : (e * (r / h) * (v.z - z0)) ^ 2 = (r / h) ^ 2 * (v.z - z0) ^ 2 := by
    rw [mul_pow, mul_pow, he, one_mul]
  rw [e1] at w
  have : (v.z - z0) ^ 2 = h ^ 2 := by
    field_simp at w; nlinarith
  rcases sq_eq_sq_iff_eq_or_eq_neg.mp this with h' | h' <;> linarith

/-- …and the search gives up because its line, prolonged backwards, is outside the hexagon at the entrance -/
theorem t_search_back {r h L X e z0 : ℝ} (hr : 0 < r) (hh : 0 < h) (hX : r < X) (hk : zs / zc = r / h) (he : e ^ 2 = 1) (P : Photon ℝ)
    (hD : P.exitD = ⟨e * zs, 0, zc⟩) (hC : P.exitC = ⟨e * (r / h) * (P.exitC.z - z0), 0, P.exitC.z⟩)
    (hb : z0 - h < P.exitC.z + 1 / 10 ^ 5) (hout : L < z0 + h) (hbig : 101 / 100 * X < (r / h) * z0) (nrm : V3 ℝ) :
    traceSearch (tD r L X) (axX (tD r L X) (0, 0)) (axY (tD r L X) (0, 0)) P 1 0 P.exitC nrm = .ret (-3) := by
  have hbd : withinPcBoundary X 0 0 = 1 := boundary_axis (hr.trans hX)
  have hg0 := t_at (L := L) (X := X) hk P hD hC 0
  simp only [Nat.cast_zero, mul_zero] at hg0
  have hseg := t_segment_miss (L := L) (r := r) (h := h) (z0 := z0) (e := e) (cur := P.exitC) (nrm := nrm)
    (p1 := atGrid (tD r L X).prof P.exitC P.exitD (0 + 1)) hr hh hk he hb hout
  have hout : withinPcBoundary X (e * (r / h) * (0 - z0)) 0 = 0 := by
    refine (boundary_spec _ _ _).2.2 (hr.trans hX) ?_
    rintro ⟨-, h2, -⟩
    simp only [zero_div, add_zero] at h2
    have hx : |(cospi6 : ℝ) * (e * (r / h) * (0 - z0))| = cospi6 * ((r / h) * z0) := by
      have ha : |e| = 1 := by rw [← sq_eq_sq₀ (abs_nonneg e) zero_le_one, sq_abs, he, one_pow]
      have hpos : 0 < (r / h) * z0 := by have := hr.trans hX; linarith
      rw [show (cospi6 : ℝ) * (e * (r / h) * (0 - z0)) = -(e * (cospi6 * ((r / h) * z0))) by ring, abs_neg, abs_mul, ha, one_mul, abs_of_nonneg]
      refine mul_nonneg ?_ hpos.le
      simp only [cospi6, real_lit]; norm_num
    rw [hx] at h2
    have hXp := hr.trans hX
    have hc : Real.sqrt 3 / 2 * X ≤ 867 / 1000 * X := by
      refine mul_le_mul_of_nonneg_right ?_ hXp.le
      have : Real.sqrt 3 ≤ 1734 / 1000 := by rw [Real.sqrt_le_left (by norm_num)]; norm_num
      linarith
    have : (866 / 1000 : ℝ) * (101 / 100 * X) < cospi6 * ((r / h) * z0) := by
      refine mul_lt_mul' ?_ hbig (by positivity) ?_
      · simp only [cospi6, real_lit]; norm_num
      · simp only [cospi6, real_lit]; norm_num
    nlinarith
  unfold traceSearch
  simp only [tX, tY]
  rw [show (tD r L X).prof.ext 0 = X from rfl, show (tD r L X).prof.ext (0 + 1) = X from rfl, hbd, if_neg (by decide)]
  have hz0 : (tD r L X).prof.z 0 = 0 := by simp [tD]
  have hz1 : (tD r L X).prof.z (0 + 1) = L := by simp [tD]
  rw [hz0, hz1, hg0, show (tD r L X).prof.cap 0 = r from rfl, show (tD r L X).prof.cap (0 + 1) = r from rfl, hD]
  rw [hD] at hseg
  generalize hS : segment (⟨0, 0, 0⟩ : V3 ℝ) ⟨0, 0, L⟩ r r ⟨e * (r / h) * (0 - z0), 0, 0⟩
    (atGrid (tD r L X).prof P.exitC ⟨e * zs, 0, zc⟩ (0 + 1)) ⟨e * zs, 0, zc⟩ P.exitC nrm = S at hseg ⊢
  have hne : ∀ b : Bool, (if b = true then (-5 : Int) else S.1) ≠ 1 := by
    intro b; cases b
    · simpa using hseg
    · simp
  rw [if_neg (hne _), hout]
  rfl

theorem t_cap {r L X : ℝ} (hL : 0 < L) (hX : 0 < X) : launchCap (tD r L X) ⟨0, 0, 0⟩ = some (0, 0) := by
  have hv : launchExt (tD r L X).prof 0 = X :=
    (launchExt_value (p := (tD r L X).prof) (tGrid hL) (le_refl _) (by simpa [tD] using hL.le)).unique (p := (tD r L X).prof) (tGrid hL)
      ⟨0, by simp [tD], by simp [tD], by simpa [tD] using hL.le, by simp [tD, linAt]⟩
  have hN : ¬ launchCap (tD r L X) ⟨0, 0, 0⟩ = none := by
    rw [launchCap_none (by simp [tD]) (by simpa only [hv] using hX)]
    rw [hv]
    simp only [Outside, tD, show ((1:ℤ) ≤ 3) from by norm_num, if_true, not_lt]
    simpa using hX.le
  obtain ⟨qr, hq⟩ := Option.ne_none_iff_exists'.mp hN
  rcases launchCap_some hq with ⟨-, h⟩ | ⟨h, -⟩
  · rw [hq, h]
  · exact absurd nShells_one h

theorem t_open {r L X : ℝ} (hr : 0 < r) (hL : 0 < L) (hX : 0 < X) : startsInWall (tD r L X) (0, 0) ⟨0, 0, 0⟩ = false := by
  rw [← Bool.not_eq_true, startsInWall_iff (D := tD r L X) (tGrid hL) (by simp [tD]) (c := ⟨0, 0, 0⟩) (le_refl _) (by simpa [tD] using hL.le) (R := X) (rad := r)
    ⟨0, by simp [tD], by simp [tD], by simpa [tD] using hL.le, by simp [tD, linAt]⟩
    ⟨0, by simp [tD], by simp [tD], by simpa [tD] using hL.le, by simp [tD, linAt]⟩ (t_cap hL hX)]
  simp only [InGlass, tD, show ((1:ℤ) ≤ 3) from by norm_num, if_true, not_lt]
  simpa using hr.le

/-- one call of the tracing function that finds the wall -/
theorem t_trace {r h L X e z0 : ℝ} (hr : 0 < r) (hh : 0 < h) (hL : 0 < L) (hX : r < X) (hX2 : r ^ 2 < X) (hk : zs / zc = r / h) (he : e ^ 2 = 1)
    (fuel k : Nat) (P : Photon ℝ)
    (hD : P.exitD = ⟨e * zs, 0, zc⟩) (hC : P.exitC = ⟨e * (r / h) * (P.exitC.z - z0), 0, P.exitC.z⟩)
    (hb : z0 - h < P.exitC.z + 1 / 10 ^ 5) (ha : P.exitC.z + 1 / 10 ^ 5 ≤ z0 + h) (h3 : z0 + h ≤ L) (h0 : 1 / 10 ^ 10 ≤ z0 + h)
    (hch : P.chans = [⟨10, 1, 0, 1/2⟩]) (hco : P.coef = true) :
    ∃ E', trace (tD r L X) false fuel (k + 1) (axX (tD r L X) (0, 0)) (axY (tD r L X) (0, 0)) 0 P =
      .ok (1, 0, { P with exitC := ⟨e * r, 0, z0 + h⟩, exitD := ⟨(-e) * zs, 0, zc⟩, startD := vnorm P.startD, exitE := E', i_refl := P.i_refl + 1,
                          d_travel := P.d_travel + gap ⟨e * r, 0, z0 + h⟩ P.exitC }) := by
  have e1 : ((1:ℚ):ℝ) = 1 := by norm_num
  have e2 : ((2:ℚ):ℝ) = 2 := by norm_num
  have hu : vnorm (⟨e * zs, 0, zc⟩ : V3 ℝ) = ⟨e * zs, 0, zc⟩ := vnorm_unit _ (by unfold dot; nlinarith [zUnit])
  have hns : nShells (α := ℝ) (tD r L X).n_cap = 0 := nShells_one
  have hs := t_search hr hh hL hX hk he { P with exitD := ⟨e * zs, 0, zc⟩, startD := vnorm P.startD } rfl hC hb ha h3 h0 ⟨lit 0, lit 0, lit 0⟩
  obtain ⟨E', hrr⟩ := t_reflect r L X false rfl fuel k e he
    { P with exitD := ⟨e * zs, 0, zc⟩, startD := vnorm P.startD, d_travel := P.d_travel +. dist3 ⟨e * r, 0, z0 + h⟩ P.exitC, exitC := ⟨e * r, 0, z0 + h⟩ } rfl hch hco
  have hix : segIdFrom (tD r L X).prof.z (0 + 1) (z0 + h) 1 = 0 := segId_zero _ _ _ 0 (by
    simp only [tD, Nat.cast_zero, mul_zero]; linarith [show (0:ℝ) < 1 / 10 ^ 10 by norm_num]) (by intro i h1 h2; omega)
  refine ⟨E', ?_⟩
  unfold trace capilTrace
  simp only [hD, hu]
  rw [show (tD r L X).prof.nmax - 0 = 1 from rfl, hs]
  simp only [traceHit]
  have hab : (fabs (zs:ℝ) >. lit 1) = false := by
    simp only [real_fabs, gt, real_lt, real_lit, e1, decide_eq_false_iff_not, not_lt]
    rw [abs_of_pos (by norm_num [zs])]; norm_num [zs]
  rw [hab, show (tD r L X).prof.nmax = 1 from rfl, hix]
  simp only [Bool.false_eq_true, if_false, zero_add, lt_irrefl]
  have hcur : interpAt (tD r L X).prof (tD r L X).prof.ext 0 (z0 + h) = X := by
    unfold interpAt
    rw [linAt_interp]; simp [linAt, tD]
  have hge : ((e * r) *. (e * r) +. (0:ℝ) *. 0 >=. interpAt (tD r L X).prof (tD r L X).prof.ext 0 (z0 + h)) = false := by
    rw [hcur]
    simp only [real_mul, real_add, ge, real_le, decide_eq_false_iff_not, not_le]
    rw [show e * r * (e * r) + 0 * 0 = e ^ 2 * r ^ 2 by ring, he, one_mul]
    exact hX2
  rw [if_neg (by rw [hge]; simp), if_neg (by rw [hns]; simp), hrr]
  have hrd : reflectDir (⟨e * zs, 0, zc⟩ : V3 ℝ) ⟨e, 0, 0⟩ zs = ⟨(-e) * zs, 0, zc⟩ := by
    simp only [reflectDir, real_mul, real_sub, real_lit, e2, mul_zero, sub_zero]
    rw [vnorm_unit _ (by unfold dot; nlinarith [zUnit])]
    congr 1
    ring
  simp only [Out.bind_ok, afterReflect, if_true, hrd, dist3_gap]
  rfl

/-- …that finds the wall, takes the square of the radius for the radius, and gives the photon up -/
theorem t_trace_wide {r h L X e z0 : ℝ} (hr : 0 < r) (hh : 0 < h) (hL : 0 < L) (hX : r < X) (hX2 : X ≤ r ^ 2) (hk : zs / zc = r / h) (he : e ^ 2 = 1)
    (fuel k : Nat) (P : Photon ℝ)
    (hD : P.exitD = ⟨e * zs, 0, zc⟩) (hC : P.exitC = ⟨e * (r / h) * (P.exitC.z - z0), 0, P.exitC.z⟩)
    (hb : z0 - h < P.exitC.z + 1 / 10 ^ 5) (ha : P.exitC.z + 1 / 10 ^ 5 ≤ z0 + h) (h3 : z0 + h ≤ L) (h0 : 1 / 10 ^ 10 ≤ z0 + h) :
    trace (tD r L X) false fuel k (axX (tD r L X) (0, 0)) (axY (tD r L X) (0, 0)) 0 P =
      .ok (-3, 0, { P with exitC := ⟨e * r, 0, z0 + h⟩, exitD := ⟨e * zs, 0, zc⟩, startD := vnorm P.startD,
                           d_travel := P.d_travel + gap ⟨e * r, 0, z0 + h⟩ P.exitC }) := by
  have e1 : ((1:ℚ):ℝ) = 1 := by norm_num
  have hu : vnorm (⟨e * zs, 0, zc⟩ : V3 ℝ) = ⟨e * zs, 0, zc⟩ := vnorm_unit _ (by unfold dot; nlinarith [zUnit])
  have hns : nShells (α := ℝ) (tD r L X).n_cap = 0 := nShells_one
  have hs := t_search hr hh hL hX hk he { P with exitD := ⟨e * zs, 0, zc⟩, startD := vnorm P.startD } rfl hC hb ha h3 h0 ⟨lit 0, lit 0, lit 0⟩
  have hix : segIdFrom (tD r L X).prof.z (0 + 1) (z0 + h) 1 = 0 := segId_zero _ _ _ 0 (by
    simp only [tD, Nat.cast_zero, mul_zero]; linarith [show (0:ℝ) < 1 / 10 ^ 10 by norm_num]) (by intro i h1 h2; omega)
  unfold trace capilTrace
  simp only [hD, hu]
  rw [show (tD r L X).prof.nmax - 0 = 1 from rfl, hs]
  simp only [traceHit]
  have hab : (fabs (zs:ℝ) >. lit 1) = false := by
    simp only [real_fabs, gt, real_lt, real_lit, e1, decide_eq_false_iff_not, not_lt]
    rw [abs_of_pos (by norm_num [zs])]; norm_num [zs]
  rw [hab, show (tD r L X).prof.nmax = 1 from rfl, hix]
  simp only [Bool.false_eq_true, if_false, zero_add, lt_irrefl]
  have hcur : interpAt (tD r L X).prof (tD r L X).prof.ext 0 (z0 + h) = X := by
    unfold interpAt
    rw [linAt_interp]; simp [linAt, tD]
  have hge : ((e * r) *. (e * r) +. (0:ℝ) *. 0 >=. interpAt (tD r L X).prof (tD r L X).prof.ext 0 (z0 + h)) = true := by
    rw [hcur]
    simp only [real_mul, real_add, ge, real_le, decide_eq_true_eq]
    rw [show e * r * (e * r) + 0 * 0 = e ^ 2 * r ^ 2 by ring, he, one_mul]
    exact hX2
  rw [if_pos ⟨hns, hge⟩, dist3_gap]
  rfl

/-- the photon of the examples: from the middle of the entrance -/
def Centre (P : Photon ℝ) : Prop := P.startC = ⟨0, 0, 0⟩ ∧ P.startD = ⟨zs, 0, zc⟩

theorem t_launch {r L X : ℝ} (hr : 0 < r) (hL : 0 < L) (hX : 0 < X) (fuel k : Nat) (P : Photon ℝ) (hP : Centre P) :
    ∃ Q : Photon ℝ, Q.startC = ⟨0, 0, 0⟩ ∧ Q.startD = ⟨zs, 0, zc⟩ ∧ Q.exitC = ⟨0, 0, 0⟩ ∧ Q.exitD = ⟨zs, 0, zc⟩ ∧ Q.i_refl = 0 ∧
      Q.chans = [⟨10, 1, 0, 1/2⟩] ∧ Q.coef = true ∧
      launch zLib (some (tD r L X)) false fuel k (some P) (some [10]) true = (do
        let x ← traceLoop (trace (tD r L X) false fuel k (axX (tD r L X) (0, 0)) (axY (tD r L X) (0, 0))) 2 0 0 Q
        .ok (if x.1 = -1 ∨ x.1 = -3 then -1 else if x.1 = 0 then 0 else 1, .filled (x.2.2.chans.map (·.w)), some (finish x.2.2))) := by
  obtain ⟨hC, hD⟩ := hP
  have hu : vnorm (⟨zs, 0, zc⟩ : V3 ℝ) = ⟨zs, 0, zc⟩ := vnorm_unit _ (by unfold dot; nlinarith [zUnit])
  have hb : ¬ ArgsBad (some (tD r L X)) (some P) (some [(10:ℝ)]) true :=
    not_argsBad (by simp) (by intro e he; simp at he; subst he; norm_num)
  obtain ⟨D', P'', es', e1, e2, e3, -, -, -, h'⟩ := launch_valid zLib (some (tD r L X)) false fuel k (some P) (some [(10:ℝ)]) true hb
  injection e1 with e1; injection e2 with e2; injection e3 with e3; subst e1 e2 e3
  obtain ⟨c1, c2⟩ := t_chan r L X P
  refine ⟨launchInit zLib (tD r L X) [10] P, hC, ?_, hC, ?_, rfl, c1, c2, ?_⟩
  · show vnorm _ = _; rw [hD, hu]
  · show vnorm (vnorm _) = _; rw [hD, hu, hu]
  rw [h']
  have q1 : (launchInit zLib (tD r L X) [10] P).startC = ⟨0, 0, 0⟩ := hC
  unfold launchBody
  simp only [q1, t_cap hL hX, t_open hr hL hX, Bool.false_eq_true, if_false]
  unfold launchInside
  have hix : segIdFrom (tD r L X).prof.z 0 (launchInit zLib (tD r L X) [10] P).startC.z ((tD r L X).prof.nmax + 1) = 0 := by
    apply segId_zero _ _ _ 1
    · rw [q1]; simp [tD]
    · intro i h1 h2
      have : i = 1 := by omega
      subst this; rw [q1]; simpa [tD] using hL
  rw [hix, show (tD r L X).prof.nmax + 1 = 2 from rfl]
  simp only
  generalize traceLoop (trace (tD r L X) false fuel k (axX (tD r L X) (0, 0)) (axY (tD r L X) (0, 0))) 2 0 0 (launchInit zLib (tD r L X) [10] P) = y
  cases y <;> rfl

/-- **C87 is false of the code (1)**: a tube of length 0.6 cm.  A photon from the middle of the entrance meets the wall at z = 0.5 cm and is fully
reflected (weight 1, one reflection).  From there its line stays in the opening up to the exit, 0.1 cm further on.  The launch returns -1, without
an error: the line, prolonged *backwards* to the entrance, is outside the optic. -/
theorem launch_discards_inside (fuel k : Nat) (P : Photon ℝ) (hP : Centre P) :
    ∃ P', launch zLib (some (tD zR (3/5) (1500/999999))) false fuel (k + 1) (some P) (some [10]) true = .ok (-1, .filled [1], some P') ∧
      P'.exitC = ⟨zR, 0, 1/2⟩ ∧ P'.i_refl = 1 ∧
      ∀ z, 1/2 ≤ z → z ≤ 3/5 → (lineAt P'.exitC P'.exitD z).x ^ 2 + (lineAt P'.exitC P'.exitD z).y ^ 2 ≤ zR ^ 2 := by
  have hr : 0 < zR := by norm_num [zR]
  have hk : zs / zc = zR / (1/2) := by norm_num [zs, zc, zR]
  obtain ⟨Q, q1, q2, q3, q4, q5, c1, c2, hl⟩ := t_launch (r := zR) (L := 3/5) (X := 1500/999999) hr (by norm_num) (by norm_num) fuel (k + 1) P hP
  rw [hl]
  obtain ⟨E1, t1⟩ := t_trace (r := zR) (h := 1/2) (L := 3/5) (X := 1500/999999) (e := 1) (z0 := 0) hr (by norm_num) (by norm_num) (by norm_num [zR])
    (by norm_num [zR]) hk (by norm_num) fuel k Q (by rw [q4, one_mul]) (by rw [q3]; simp) (by rw [q3]; norm_num)
    (by rw [q3]; norm_num) (by norm_num) (by norm_num) c1 c2
  simp only [traceLoop, t1, Out.bind_ok]
  rw [if_neg (by decide)]
  generalize hT : ({ Q with exitC := ⟨1 * zR, 0, 0 + 1/2⟩, exitD := ⟨(-1) * zs, 0, zc⟩, startD := vnorm Q.startD, exitE := E1, i_refl := Q.i_refl + 1, d_travel := Q.d_travel + gap ⟨1 * zR, 0, 0 + 1/2⟩ Q.exitC } : Photon ℝ) = T
  have a1 : T.exitC = ⟨1 * zR, 0, 0 + 1/2⟩ := by rw [← hT]
  have a2 : T.exitD = ⟨(-1) * zs, 0, zc⟩ := by rw [← hT]
  have a3 : T.i_refl = 1 := by rw [← hT]; simp [q5]
  have a4 : T.chans = [⟨10, 1, 0, 1/2⟩] := by rw [← hT]; exact c1
  have hu : vnorm (⟨(-1) * zs, 0, zc⟩ : V3 ℝ) = ⟨(-1) * zs, 0, zc⟩ := vnorm_unit _ (by unfold dot; nlinarith [zUnit])
  have hs := t_search_back (r := zR) (h := 1/2) (L := 3/5) (X := 1500/999999) (e := -1) (z0 := 1) hr (by norm_num) (by norm_num [zR]) hk (by norm_num)
    { T with exitD := ⟨(-1) * zs, 0, zc⟩, startD := vnorm T.startD } rfl
    (by simp only [a1, V3.mk.injEq, and_true]; ring) (by simp only [a1]; norm_num) (by norm_num) (by norm_num [zR]) ⟨lit 0, lit 0, lit 0⟩
  have ht : trace (tD zR (3/5) (1500/999999)) false fuel (k + 1) (axX (tD zR (3/5) (1500/999999)) (0, 0)) (axY (tD zR (3/5) (1500/999999)) (0, 0)) 0 T =
      .ok (-3, 0, { T with exitD := ⟨(-1) * zs, 0, zc⟩, startD := vnorm T.startD }) := by
    unfold trace capilTrace
    simp only [a2, hu]
    rw [show (tD zR (3/5) (1500/999999)).prof.nmax - 0 = 1 from rfl, hs]
  simp only [ht, Out.bind_ok]
  rw [if_pos (by decide)]
  simp only [Out.bind_ok]
  rw [if_pos (by decide)]
  refine ⟨finish { T with exitD := ⟨(-1) * zs, 0, zc⟩, startD := vnorm T.startD }, ?_, ?_, a3, ?_⟩
  · rw [a4]; rfl
  · show T.exitC = _
    rw [a1]; norm_num
  · intro z h1 h2
    show (lineAt T.exitC ⟨(-1) * zs, 0, zc⟩ z).x ^ 2 + (lineAt T.exitC ⟨(-1) * zs, 0, zc⟩ z).y ^ 2 ≤ zR ^ 2
    rw [a1]
    simp only [lineAt]
    have e : 1 * zR + (z - (0 + 1 / 2)) / zc * (-1 * zs) = zR * (2 - 2 * z) := by
      rw [show (z - (0 + 1 / 2)) / zc * (-1 * zs) = -((z - (0 + 1 / 2)) * (zs / zc)) by ring, hk]; ring
    rw [e]
    simp only [mul_zero, add_zero, ne_eq, OfNat.ofNat_ne_zero, not_false_eq_true, zero_pow]
    have : (zR * (2 - 2 * z)) ^ 2 = zR ^ 2 * (2 - 2 * z) ^ 2 := by ring
    rw [this]
    have : (2 - 2 * z) ^ 2 ≤ 1 := by nlinarith
    nlinarith [sq_nonneg zR]

/-- **C87 is false of the code (2)**: a tube with a bore of 3 cm and a wall of 0.5 cm.  A photon from the middle of the entrance meets the bore's wall at
1.5 cm from the axis, in an optic of radius 2 cm; the launch returns -1 at once, because 1.5² is not below 2. -/
theorem launch_discards_wide (fuel k : Nat) (P : Photon ℝ) (hP : Centre P) :
    ∃ P', launch zLib (some (tD (3/2) 1000 2)) false fuel k (some P) (some [10]) true = .ok (-1, .filled [1], some P') ∧
      P'.exitC = ⟨3/2, 0, 2999997/4000⟩ ∧ P'.i_refl = 0 := by
  obtain ⟨Q, q1, q2, q3, q4, q5, c1, c2, hl⟩ := t_launch (r := 3/2) (L := 1000) (X := 2) (by norm_num) (by norm_num) (by norm_num) fuel k P hP
  rw [hl]
  have t1 := t_trace_wide (r := 3/2) (h := 2999997/4000) (L := 1000) (X := 2) (e := 1) (z0 := 0) (by norm_num) (by norm_num) (by norm_num)
    (by norm_num) (by norm_num) (by norm_num [zs, zc]) (by norm_num) fuel k Q (by rw [q4, one_mul]) (by rw [q3]; simp) (by rw [q3]; norm_num)
    (by rw [q3]; norm_num) (by norm_num) (by norm_num)
  simp only [traceLoop, t1, Out.bind_ok]
  rw [if_pos (by decide)]
  simp only [Out.bind_ok]
  rw [if_pos (by decide)]
  refine ⟨finish { Q with exitC := ⟨1 * (3/2), 0, 0 + 2999997/4000⟩, exitD := ⟨1 * zs, 0, zc⟩, startD := vnorm Q.startD, d_travel := Q.d_travel + gap ⟨1 * (3/2), 0, 0 + 2999997/4000⟩ Q.exitC }, ?_, ?_, ?_⟩
  · rw [c1]; rfl
  · show (⟨1 * (3/2), 0, 0 + 2999997/4000⟩ : V3 ℝ) = _
    norm_num
  · exact q5

/-- **C87, what holds** (no leak calculation, valid call): if the photon's last line is inside the optic – inside the hexagon, and for up to three
capillaries also at a distance from the axis that with its square is below the radius – from the profile point it has passed last to the
exit, a return value -1 comes with an error: the photon has not been silently thrown away. -/
theorem launch_kept_partial (lib : Xray ℝ) (D : Descr ℝ) (hn : 1 ≤ D.n_cap) (g : Grid D.prof) (hr : Radii D.prof) (fuel k : Nat)
    (P : Photon ℝ) (h0 : 0 ≤ P.startC.z) (h1 : P.startC.z ≤ D.prof.z D.prof.nmax) (hdir : dot P.startD P.startD ≠ 0)
    (es : List ℝ) (hs : scatfRejects D es = false) (c : Int) (o : WOut ℝ) (P' : Photon ℝ) (s : EArg)
    (h : launchE lib (some D) false fuel (k + 1) (some P) (some es) true (some none) = .ok ((c, o, some P'), s))
    (hin : ∀ z R, (∀ j < D.prof.nmax, D.prof.z j ≤ P'.exitC.z → D.prof.z j ≤ z) → ValueAt D.prof D.prof.ext z R →
      InHex R (lineAt P'.exitC P'.exitD z).x (lineAt P'.exitC P'.exitD z).y ∧
      (D.n_cap ≤ 3 → Real.sqrt ((lineAt P'.exitC P'.exitD z).x ^ 2 + (lineAt P'.exitC P'.exitD z).y ^ 2) < R ∧
        (lineAt P'.exitC P'.exitD z).x ^ 2 + (lineAt P'.exitC P'.exitD z).y ^ 2 < R)) :
    c = -1 → ∃ code, s = some (some code) := by
  intro hc
  rcases (launch_reports_partial lib D hn g hr fuel k P h0 h1 hdir es hs c o P' s h).2.2.2 hc with h | ⟨⟨z, R, a, b, c⟩, -⟩
  · exact h
  · exfalso
    obtain ⟨i1, i2⟩ := hin z R a b
    rcases c with c | ⟨c, c' | c'⟩
    · exact c i1
    · exact absurd (i2 c).1 (not_lt.mpr c')
    · exact absurd (i2 c).2 (not_lt.mpr c')

/-- the last hypothesis is met by a photon on the axis of a tube -/
example {r L X : ℝ} (hX : 0 < X) (z R : ℝ) (h : ValueAt (tD r L X).prof (tD r L X).prof.ext z R) :
    InHex R (lineAt (⟨0, 0, 0⟩ : V3 ℝ) ⟨0, 0, 1⟩ z).x (lineAt (⟨0, 0, 0⟩ : V3 ℝ) ⟨0, 0, 1⟩ z).y ∧
      ((tD r L X).n_cap ≤ 3 → Real.sqrt ((lineAt (⟨0, 0, 0⟩ : V3 ℝ) ⟨0, 0, 1⟩ z).x ^ 2 + (lineAt (⟨0, 0, 0⟩ : V3 ℝ) ⟨0, 0, 1⟩ z).y ^ 2) < R ∧
        (lineAt (⟨0, 0, 0⟩ : V3 ℝ) ⟨0, 0, 1⟩ z).x ^ 2 + (lineAt (⟨0, 0, 0⟩ : V3 ℝ) ⟨0, 0, 1⟩ z).y ^ 2 < R) := by
  obtain ⟨i, hi, -, -, h⟩ := h
  have hR : R = X := by rw [h]; simp [linAt, tD]
  subst hR
  refine ⟨((boundary_one_iff R 0 0).mp (boundary_axis hX)).2 |> fun h => by simpa [lineAt] using h, fun _ => ?_⟩
  simp [lineAt, hX]

/-- the two examples are about an existing photon -/
example : Centre (exP ⟨0, 0, 0⟩ ⟨zs, 0, zc⟩ 0) := ⟨rfl, rfl⟩

end Tube
end Polycap
