import Verif.Source
import Verif.Props.Hexagon
import Verif.Props.TraceProps

/-!
# C28-C31: photons generated by a source
-/
namespace Polycap
open CNum

/-! ## Specification vocabulary -/

/-- What `polycap_source_new` guarantees about a source (theorem `source_new_domain`). -/
structure GoodSrc (S : Src ℝ) : Prop where
  d : 0 < S.d_source
  x : 0 < S.src_x
  y : 0 < S.src_y
  pol : |S.hor_pol| ≤ 1

/-- the point lies on the (shifted) source ellipse scaled by `√f` -/
def OnEllipse (S : Src ℝ) (f : ℝ) (p : V3 ℝ) : Prop :=
  ((p.x - S.src_shiftx) / S.src_x) ^ 2 + ((p.y - S.src_shifty) / S.src_y) ^ 2 = f

/-- `q`, at distance `d` downstream of `p`, is on the ray from `p` with direction `v` -/
def OnRay (p v q : V3 ℝ) (d : ℝ) : Prop :=
  ∃ k : ℝ, 0 < k ∧ q.x - p.x = k * v.x ∧ q.y - p.y = k * v.y ∧ d = k * v.z

/-! ## Helpers -/

theorem srcPoint_ellipse (S : Src ℝ) (hx : 0 < S.src_x) (hy : 0 < S.src_y) (r1 r2 r3 : ℝ) (h3 : 0 ≤ r3) :
    OnEllipse S r3 (srcPoint S r1 r2 r3) ∧ (srcPoint S r1 r2 r3).z = 0 := by
  have key : ∀ phi : ℝ, ((Real.sqrt r3 * (S.src_x * S.src_y / Real.sqrt ((S.src_y * Real.cos phi) * (S.src_y * Real.cos phi) +
      (S.src_x * Real.sin phi) * (S.src_x * Real.sin phi))) * Real.cos phi) / S.src_x) ^ 2 +
      ((Real.sqrt r3 * (S.src_x * S.src_y / Real.sqrt ((S.src_y * Real.cos phi) * (S.src_y * Real.cos phi) +
      (S.src_x * Real.sin phi) * (S.src_x * Real.sin phi))) * Real.sin phi) / S.src_y) ^ 2 = r3 := by
    intro phi
    have hA : 0 < (S.src_y * Real.cos phi) * (S.src_y * Real.cos phi) + (S.src_x * Real.sin phi) * (S.src_x * Real.sin phi) := by
      by_cases hc : Real.cos phi = 0
      · have : Real.sin phi ≠ 0 := by
          intro hs
          have := Real.sin_sq_add_cos_sq phi
          rw [hs, hc] at this; norm_num at this
        have h1 : 0 < (S.src_x * Real.sin phi) * (S.src_x * Real.sin phi) :=
          mul_self_pos.mpr (mul_ne_zero hx.ne' this)
        nlinarith [mul_self_nonneg (S.src_y * Real.cos phi)]
      · have h1 : 0 < (S.src_y * Real.cos phi) * (S.src_y * Real.cos phi) :=
          mul_self_pos.mpr (mul_ne_zero hy.ne' hc)
        nlinarith [mul_self_nonneg (S.src_x * Real.sin phi)]
    generalize hAA : (S.src_y * Real.cos phi) * (S.src_y * Real.cos phi) + (S.src_x * Real.sin phi) * (S.src_x * Real.sin phi) = A at hA
    have h1 := Real.sq_sqrt hA.le
    have h2 := Real.sq_sqrt h3
    have hs : Real.sqrt A ≠ 0 := (Real.sqrt_pos.mpr hA).ne'
    have hx' := hx.ne'
    have hy' := hy.ne'
    field_simp
    rw [h1, h2, ← hAA]
    ring
  refine ⟨?_, by simp [srcPoint]⟩
  have := key (srcPhi S r1 r2)
  simp only [OnEllipse, srcPoint, srcMaxRad, real_add, real_mul, real_div, real_sqrt, real_cos, real_sin, add_sub_cancel_right]
  exact this

theorem vnorm_facts (v : V3 ℝ) (h : 0 < v.z) :
    ∃ k : ℝ, 0 < k ∧ v.x = k * (vnorm v).x ∧ v.y = k * (vnorm v).y ∧ v.z = k * (vnorm v).z ∧ 0 < (vnorm v).z ∧
      dot (vnorm v) (vnorm v) = 1 := by
  have hp : 0 < v.x * v.x + v.y * v.y + v.z * v.z := by nlinarith [mul_self_nonneg v.x, mul_self_nonneg v.y, mul_pos h h]
  have hs := Real.sqrt_pos.mpr hp
  refine ⟨Real.sqrt (v.x * v.x + v.y * v.y + v.z * v.z), hs, ?_, ?_, ?_, ?_, vnorm_dot v (by simp [dot]; linarith)⟩
  · simp [vnorm]; field_simp
  · simp [vnorm]; field_simp
  · simp [vnorm]; field_simp
  · simp [vnorm]; positivity

theorem rejLoop_ok {α : Type} [CNum α] (ext0 : α) (u : Nat → α) : ∀ (k n : Nat) (x y : α) (m : Nat), rejLoop ext0 u k n = .ok (x, y, m) →
    withinPcBoundary ext0 x y ≠ 0 ∧ n + 2 ≤ m ∧
      (∀ v : Nat → α, (∀ i, n ≤ i → i < m → v i = u i) → rejLoop ext0 v k n = .ok (x, y, m)) ∧
      (∀ k', k ≤ k' → rejLoop ext0 u k' n = .ok (x, y, m)) ∧
      x = (lit 2 *. u (m - 2) -. lit 1) *. ext0 ∧ y = (lit 2 *. u (m - 1) -. lit 1) *. ext0
  | 0, n, x, y, m, h => by simp [rejLoop] at h
  | k + 1, n, x, y, m, h => by
    simp only [rejLoop] at h
    split at h
    · rename_i hb
      obtain ⟨h1, h2, h3, h4, h5⟩ := rejLoop_ok ext0 u k (n + 2) x y m h
      refine ⟨h1, by omega, ?_, ?_, h5⟩
      · intro v hv
        simp only [rejLoop, hv n (by omega) (by omega), hv (n + 1) (by omega) (by omega), hb, if_true]
        exact h3 v (fun i hi hm => hv i (by omega) hm)
      · intro k' hk
        obtain ⟨j, rfl⟩ : ∃ j, k' = j + 1 := ⟨k' - 1, by omega⟩
        simp only [rejLoop, hb, if_true]
        exact h4 j (by omega)
    · rename_i hb
      injection h with h
      injection h with h1 h
      injection h with h2 h3
      subst h1 h2 h3
      refine ⟨hb, by omega, ?_, ?_, ?_, ?_⟩
      · intro v hv
        simp only [rejLoop, hv n (by omega) (by omega), hv (n + 1) (by omega) (by omega), hb, if_false]
      · intro k' hk
        obtain ⟨j, rfl⟩ : ∃ j, k' = j + 1 := ⟨k' - 1, by omega⟩
        simp only [rejLoop, hb, if_false]
      · rfl
      · rfl

/-! ## C28, C29 -/

/-- everything `srcAim` computes, over the reals (helper) -/
theorem srcAim_ok (S : Src ℝ) (g : GoodSrc S) (n_cap : Int) (cap0 ext0 : ℝ) (u : Nat → ℝ) (fuel n : Nat) (s c d : V3 ℝ) (m : Nat)
    (h : srcAim S n_cap cap0 ext0 u fuel n s = .ok (c, d, m)) :
    c.z = 0 ∧ 0 < d.z ∧ dot d d = 1 ∧ OnRay s d c S.d_source ∧
    ((S.src_sigx < 0 ∨ S.src_sigy < 0) → nShells (α := ℝ) n_cap ≠ 0 → 0 < ext0 → withinPcBoundary ext0 c.x c.y = 1) ∧
    ((S.src_sigx < 0 ∨ S.src_sigy < 0) → nShells (α := ℝ) n_cap = 0 →
      c.x = (2 * u n - 1) * cap0 ∧ c.y = (2 * u (n + 1) - 1) * cap0) ∧
    (0 ≤ S.src_sigx → 0 ≤ S.src_sigy →
      d.x = S.src_sigx * (1 - 2 * |u n|) * d.z ∧ d.y = S.src_sigy * (1 - 2 * |u (n + 1)|) * d.z) := by
  simp only [srcAim] at h
  have hneg : ∀ a b : ℝ, (CNum.lt a (lit 0) || CNum.lt b (lit 0)) = true ↔ (a < 0 ∨ b < 0) := by
    intro a b
    simp only [real_lt, real_lit, Rat.cast_zero, Bool.or_eq_true, decide_eq_true_eq]
  split_ifs at h with h1 h2
  all_goals rw [hneg] at h1
  · injection h with h; injection h with hc h; injection h with hd hm
    obtain ⟨k, k0, kx, ky, kz, dz, dd⟩ := vnorm_facts ⟨CNum.sub (CNum.mul (CNum.sub (CNum.mul (lit 2) (u n)) (lit 1)) cap0) s.x,
      CNum.sub (CNum.mul (CNum.sub (CNum.mul (lit 2) (u (n+1))) (lit 1)) cap0) s.y, S.d_source⟩ g.d
    subst hc
    rw [hd] at kx ky kz dz dd
    refine ⟨by simp, dz, dd, ⟨k, k0, ?_, ?_, kz⟩, fun _ h3 => absurd h2 h3, fun _ _ => by simp, fun h3 h4 => ?_⟩
    · simpa using kx
    · simpa using ky
    · rcases h1 with h1 | h1 <;> linarith
  · cases hr : rejLoop ext0 u fuel n with
    | ub => rw [hr] at h; simp at h
    | fuel => rw [hr] at h; simp at h
    | ok p =>
      obtain ⟨x, y, m'⟩ := p
      rw [hr] at h
      simp only [Out.bind_ok] at h
      injection h with h; injection h with hc h; injection h with hd hm
      obtain ⟨k, k0, kx, ky, kz, dz, dd⟩ := vnorm_facts ⟨CNum.sub x s.x, CNum.sub y s.y, S.d_source⟩ g.d
      subst hc
      rw [hd] at kx ky kz dz dd
      have hb := (rejLoop_ok ext0 u fuel n x y m' hr).1
      refine ⟨by simp, dz, dd, ⟨k, k0, by simpa using kx, by simpa using ky, kz⟩, fun _ _ h3 => ?_, fun _ h3 => absurd h3 h2, fun h3 h4 => ?_⟩
      · have hs := boundary_spec ext0 x y
        by_contra hc
        by_cases hi : InHex ext0 x y
        · exact hc (hs.2.1 h3 hi)
        · exact hb (hs.2.2 h3 hi)
      · rcases h1 with h1 | h1 <;> linarith
  · injection h with h; injection h with hc h; injection h with hd hm
    obtain ⟨k, k0, kx, ky, kz, dz, dd⟩ := vnorm_facts (⟨CNum.mul S.src_sigx (CNum.sub (lit 1) (CNum.mul (lit 2) (fabs (u n)))),
      CNum.mul S.src_sigy (CNum.sub (lit 1) (CNum.mul (lit 2) (fabs (u (n+1))))), lit 1⟩ : V3 ℝ) (by simp)
    subst hc
    rw [hd] at kx ky kz dz dd
    simp at kx ky kz
    refine ⟨by simp, dz, dd, ⟨k * S.d_source, mul_pos k0 g.d, ?_, ?_, ?_⟩, fun h3 => absurd h3 h1, fun h3 => absurd h3 h1, fun _ _ => ⟨?_, ?_⟩⟩
    · simp; rw [kx]; ring
    · simp; rw [ky]; ring
    · rw [show k * S.d_source * d.z = (k * d.z) * S.d_source by ring, ← kz]; ring
    · rw [kx]; rw [show k * d.x * d.z = (k * d.z) * d.x by ring, ← kz]; ring
    · rw [ky]; rw [show k * d.y * d.z = (k * d.z) * d.y by ring, ← kz]; ring

/-- results of `polycap_source_get_photon` (helper) -/
theorem getPhoton_ok {α : Type} [CNum α] (S : Src α) (D : Descr α) (u : Nat → α) (fuel n : Nat) (x : SrcPhoton α) (m : Nat)
    (h : getPhoton S D u fuel n = .ok (x, m)) :
    ∃ c d m', srcAim S D.n_cap (D.prof.cap 0) (D.prof.ext 0) u fuel (n + 3) (srcPoint S (u n) (u (n + 1)) (u (n + 2))) = .ok (c, d, m') ∧
      m = m' + 1 ∧ x.src = srcPoint S (u n) (u (n + 1)) (u (n + 2)) ∧ x.photon.startC = c ∧ x.photon.startD = d ∧
      x.photon.startE = srcElec (srcAxis S (u m')) d ∧ x.photon.exitC = c ∧ x.photon.exitD = d ∧
      x.photon.exitE = srcElec (srcAxis S (u m')) d ∧ x.photon.d_travel = lit 0 ∧ x.photon.i_refl = 0 := by
  simp only [getPhoton] at h
  rw [Out.bind_eq_ok] at h
  obtain ⟨⟨c, d, m'⟩, ha, h⟩ := h
  simp only [photonNew] at h
  split_ifs at h
  injection h with h; injection h with h1 h2
  subst h1
  exact ⟨c, d, m', ha, h2.symm, rfl, rfl, rfl, rfl, rfl, rfl, rfl, rfl, rfl⟩

/-- **C28.**  Every photon a valid source hands out starts in the entrance plane, with a unit direction pointing downstream,
originates from a point of the source ellipse (at relative area fraction `u (n+2)`, the third number drawn), and lies on the ray
from that point over the source distance. -/
theorem source_photon_geometry (S : Src ℝ) (g : GoodSrc S) (D : Descr ℝ) (u : Nat → ℝ) (hu : ∀ i, 0 ≤ u i ∧ u i ≤ 1) (fuel n : Nat)
    (x : SrcPhoton ℝ) (m : Nat) (h : getPhoton S D u fuel n = .ok (x, m)) :
    x.photon.startC.z = 0 ∧ 0 < x.photon.startD.z ∧ dot x.photon.startD x.photon.startD = 1 ∧
    (∃ f, 0 ≤ f ∧ f ≤ 1 ∧ OnEllipse S f x.src) ∧ x.src.z = 0 ∧ OnRay x.src x.photon.startD x.photon.startC S.d_source := by
  obtain ⟨c, d, m', ha, _, hs, hc, hd, _⟩ := getPhoton_ok S D u fuel n x m h
  obtain ⟨c0, d0, dd, ray, _⟩ := srcAim_ok S g _ _ _ u fuel _ _ c d m' ha
  obtain ⟨e1, e2⟩ := srcPoint_ellipse S g.x g.y (u n) (u (n + 1)) (u (n + 2)) (hu _).1
  rw [hc, hd, hs]
  exact ⟨c0, d0, dd, ⟨_, (hu _).1, (hu _).2, e1⟩, e2, ray⟩

/-- **C28.**  With non-negative divergence the slope of the direction stays within the divergence. -/
theorem source_photon_divergence (S : Src ℝ) (g : GoodSrc S) (D : Descr ℝ) (u : Nat → ℝ) (hu : ∀ i, 0 ≤ u i ∧ u i ≤ 1) (fuel n : Nat)
    (x : SrcPhoton ℝ) (m : Nat) (h : getPhoton S D u fuel n = .ok (x, m)) (hx : 0 ≤ S.src_sigx) (hy : 0 ≤ S.src_sigy) :
    |x.photon.startD.x / x.photon.startD.z| ≤ S.src_sigx ∧ |x.photon.startD.y / x.photon.startD.z| ≤ S.src_sigy := by
  obtain ⟨c, d, m', ha, _, hs, hc, hd, _⟩ := getPhoton_ok S D u fuel n x m h
  obtain ⟨c0, d0, dd, ray, _, _, hdiv⟩ := srcAim_ok S g _ _ _ u fuel _ _ c d m' ha
  obtain ⟨e1, e2⟩ := hdiv hx hy
  have b : ∀ i, abs (1 - 2 * abs (u i)) ≤ 1 := by
    intro i
    rw [abs_of_nonneg (hu i).1, abs_le]
    constructor <;> linarith [(hu i).1, (hu i).2]
  rw [hd, e1, e2, mul_div_assoc, mul_div_assoc, div_self d0.ne', mul_one, mul_one, abs_mul, abs_mul, abs_of_nonneg hx, abs_of_nonneg hy]
  exact ⟨by nlinarith [b (n + 3)], by nlinarith [b (n + 3 + 1)]⟩

/-- **C28.**  Generating a photon from a valid source is never undefined behaviour. -/
theorem source_photon_safe (S : Src ℝ) (g : GoodSrc S) (D : Descr ℝ) (u : Nat → ℝ) (fuel n : Nat) :
    getPhoton S D u fuel n ≠ .ub := by
  intro h
  simp only [getPhoton] at h
  have hu : ∀ (ext0 : ℝ) k n, rejLoop ext0 u k n ≠ .ub := by
    intro ext0 k
    induction k with
    | zero => intro n; simp [rejLoop]
    | succ k ih => intro n; simp only [rejLoop]; split; exact ih _; simp
  cases ha : srcAim S D.n_cap (D.prof.cap 0) (D.prof.ext 0) u fuel (n + 3) (srcPoint S (u n) (u (n + 1)) (u (n + 2))) with
  | ub =>
    simp only [srcAim] at ha
    split_ifs at ha
    cases hr : rejLoop (D.prof.ext 0) u fuel (n + 3) with
    | ub => exact hu _ _ _ hr
    | fuel => rw [hr] at ha; simp at ha
    | ok p => rw [hr] at ha; simp at ha
  | fuel => rw [ha] at h; simp at h
  | ok a =>
    obtain ⟨c, d, m⟩ := a
    obtain ⟨c0, d0, _⟩ := srcAim_ok S g _ _ _ u fuel _ _ c d m ha
    rw [ha] at h
    have h1 : ¬ (c.z < 0) := by rw [c0]; exact lt_irrefl _
    have h2 : ¬ (d.z < 0) := not_lt.mpr d0.le
    simp [photonNew, h1, h2] at h

/-- **C29.**  Uniform illumination of a polycapillary: every photon starts in the optic's entrance hexagon (and, by
`boundary_regular_hexagon`, in the regular hexagon up to 1e-18). -/
theorem uniform_illumination_inside (S : Src ℝ) (g : GoodSrc S) (D : Descr ℝ) (u : Nat → ℝ) (fuel n : Nat)
    (x : SrcPhoton ℝ) (m : Nat) (h : getPhoton S D u fuel n = .ok (x, m)) (hs : S.src_sigx < 0 ∨ S.src_sigy < 0)
    (hn : nShells (α := ℝ) D.n_cap ≠ 0) (he : 0 < D.prof.ext 0) :
    InHex (D.prof.ext 0) x.photon.startC.x x.photon.startC.y := by
  obtain ⟨c, d, m', ha, _, _, hc, hd, _⟩ := getPhoton_ok S D u fuel n x m h
  obtain ⟨_, _, _, _, hb, _⟩ := srcAim_ok S g _ _ _ u fuel _ _ c d m' ha
  rw [hc]
  exact ((boundary_one_iff _ _ _).mp (hb hs hn he)).2

/-! ## C30 -/

theorem srcElec_spec (ax d : V3 ℝ) (ha : dot ax ax = 1) (hd : dot d d = 1) (h1 : -1 < dot ax d) (h2 : dot ax d < 1) :
    dot (srcElec ax d) (srcElec ax d) = 1 ∧ dot (srcElec ax d) d = 0 ∧
    ∃ a b : ℝ, 0 < a ∧ srcElec ax d = ⟨a * ax.x + b * d.x, a * ax.y + b * d.y, a * ax.z + b * d.z⟩ := by
  have hs : Real.sin (Real.arccos (dot ax d)) = Real.sqrt (1 - dot ax d ^ 2) := Real.sin_arccos _
  have hp : 0 < 1 - dot ax d ^ 2 := by nlinarith
  have hq := Real.sqrt_pos.mpr hp
  have hq2 := Real.sq_sqrt hp.le
  generalize hg : Real.sqrt (1 - dot ax d ^ 2) = q at hs hq hq2
  have e : srcElec ax d = vnorm ⟨ax.x * (1 / q) + d.x * (-1 * (1 / q) * dot ax d), ax.y * (1 / q) + d.y * (-1 * (1 / q) * dot ax d),
      ax.z * (1 / q) + d.z * (-1 * (1 / q) * dot ax d)⟩ := by
    simp only [srcElec, scalar_real, real_acos, real_sin, real_div, real_mul, real_add, real_lit, hs]
    push_cast
    rfl
  have u : dot (⟨ax.x * (1 / q) + d.x * (-1 * (1 / q) * dot ax d), ax.y * (1 / q) + d.y * (-1 * (1 / q) * dot ax d),
      ax.z * (1 / q) + d.z * (-1 * (1 / q) * dot ax d)⟩ : V3 ℝ) ⟨ax.x * (1 / q) + d.x * (-1 * (1 / q) * dot ax d), ax.y * (1 / q) + d.y * (-1 * (1 / q) * dot ax d),
      ax.z * (1 / q) + d.z * (-1 * (1 / q) * dot ax d)⟩ = 1 := by
    generalize hc : dot ax d = c at *
    simp only [dot] at ha hd hc ⊢
    have : (1 / q) ^ 2 * (1 - c ^ 2) = 1 := by rw [← hq2]; field_simp
    calc _ = (1 / q) ^ 2 * ((ax.x * ax.x + ax.y * ax.y + ax.z * ax.z) - 2 * c * (ax.x * d.x + ax.y * d.y + ax.z * d.z) + c ^ 2 * (d.x * d.x + d.y * d.y + d.z * d.z)) := by ring
      _ = (1 / q) ^ 2 * (1 - c ^ 2) := by rw [ha, hc, hd]; ring
      _ = 1 := this
  rw [e, vnorm_unit _ u]
  refine ⟨u, ?_, 1 / q, -1 * (1 / q) * dot ax d, by positivity, ?_⟩
  · generalize hc : dot ax d = c at *
    simp only [dot] at ha hd hc ⊢
    calc _ = 1 / q * ((ax.x * d.x + ax.y * d.y + ax.z * d.z) - c * (d.x * d.x + d.y * d.y + d.z * d.z)) := by ring
      _ = 0 := by rw [hd, hc]; ring
  · congr 1 <;> ring

/-- **C30.**  The electric vector of a generated photon is a unit vector, orthogonal to its direction, in the plane of the
direction and the x axis (if the last number drawn is at most `(1+hor_pol)/2`) or the y axis (otherwise), on the side of that axis. -/
theorem source_photon_polarisation (S : Src ℝ) (g : GoodSrc S) (D : Descr ℝ) (u : Nat → ℝ) (hu : ∀ i, 0 ≤ u i) (fuel n : Nat)
    (x : SrcPhoton ℝ) (m : Nat) (h : getPhoton S D u fuel n = .ok (x, m)) :
    dot x.photon.startE x.photon.startE = 1 ∧ dot x.photon.startE x.photon.startD = 0 ∧
    ∃ a b : ℝ, 0 < a ∧
      (u (m - 1) ≤ (1 + S.hor_pol) / 2 →
        x.photon.startE = ⟨a + b * x.photon.startD.x, b * x.photon.startD.y, b * x.photon.startD.z⟩) ∧
      ((1 + S.hor_pol) / 2 < u (m - 1) →
        x.photon.startE = ⟨b * x.photon.startD.x, a + b * x.photon.startD.y, b * x.photon.startD.z⟩) := by
  obtain ⟨c, d, m', ha, hm, hs, hc, hd, hE, _⟩ := getPhoton_ok S D u fuel n x m h
  obtain ⟨_, d0, dd, _⟩ := srcAim_ok S g _ _ _ u fuel _ _ c d m' ha
  have hm' : m - 1 = m' := by omega
  rw [hm', hE, hd]
  have hx : ∀ ax : V3 ℝ, ax = ⟨1, 0, 0⟩ ∨ ax = ⟨0, 1, 0⟩ → dot ax ax = 1 ∧ -1 < dot ax d ∧ dot ax d < 1 := by
    have h1 : d.x * d.x + d.y * d.y + d.z * d.z = 1 := dd
    rintro ax (rfl | rfl)
    · simp only [dot]
      refine ⟨by norm_num, ?_, ?_⟩ <;> nlinarith [mul_self_nonneg d.y, mul_pos d0 d0]
    · simp only [dot]
      refine ⟨by norm_num, ?_, ?_⟩ <;> nlinarith [mul_self_nonneg d.x, mul_pos d0 d0]
  have hax : srcAxis S (u m') = if u m' ≤ (1 + S.hor_pol) / 2 then ⟨1, 0, 0⟩ else ⟨0, 1, 0⟩ := by
    simp only [srcAxis, real_fabs, abs_of_nonneg (hu m'), real_le, real_add, real_div, real_lit, decide_eq_true_eq]
    push_cast
    rfl
  by_cases hp : u m' ≤ (1 + S.hor_pol) / 2
  · rw [if_pos hp] at hax
    obtain ⟨p1, p2, p3⟩ := hx _ (Or.inl hax)
    obtain ⟨q1, q2, a, b, q3, q4⟩ := srcElec_spec _ d p1 dd p2 p3
    refine ⟨q1, q2, a, b, q3, fun _ => ?_, fun hh => absurd hp (not_le.mpr hh)⟩
    rw [q4, hax]; simp
  · rw [if_neg hp] at hax
    obtain ⟨p1, p2, p3⟩ := hx _ (Or.inr hax)
    obtain ⟨q1, q2, a, b, q3, q4⟩ := srcElec_spec _ d p1 dd p2 p3
    refine ⟨q1, q2, a, b, q3, fun hh => absurd hh hp, fun _ => ?_⟩
    rw [q4, hax]; simp

/-- **C30.**  Full horizontal polarisation draws no vertical photon, full vertical polarisation no horizontal one (except for a drawn
zero). -/
theorem full_polarisation (S : Src ℝ) (r : ℝ) (h0 : 0 ≤ r) (h1 : r < 1) :
    (S.hor_pol = 1 → srcAxis S r = ⟨1, 0, 0⟩) ∧ (S.hor_pol = -1 → 0 < r → srcAxis S r = ⟨0, 1, 0⟩) := by
  constructor
  · intro hp
    simp only [srcAxis, real_fabs, abs_of_nonneg h0, real_le, real_add, real_div, real_lit, decide_eq_true_eq, hp]
    push_cast
    rw [if_pos (by linarith)]
  · intro hp hr
    simp only [srcAxis, real_fabs, abs_of_nonneg h0, real_le, real_add, real_div, real_lit, decide_eq_true_eq, hp]
    push_cast
    rw [if_neg (by linarith)]

/-! ## C31 (any number type) -/

section Stream
variable {α : Type} [CNum α]

/-- **C31.**  A generated photon is determined by the source, the description and the numbers drawn, at least six of them: any
stream that agrees on the stretch `[n, m)` that was consumed gives the same photon and the same new position; a larger iteration
allowance for the rejection loop changes nothing. -/
theorem photon_from_stream (S : Src α) (D : Descr α) (u : Nat → α) (fuel n : Nat) (x : SrcPhoton α) (m : Nat)
    (h : getPhoton S D u fuel n = .ok (x, m)) :
    n + 6 ≤ m ∧
    (∀ v : Nat → α, (∀ i, n ≤ i → i < m → v i = u i) → getPhoton S D v fuel n = .ok (x, m)) ∧
    (∀ fuel', fuel ≤ fuel' → getPhoton S D u fuel' n = .ok (x, m)) := by
  have aim : ∀ (n : Nat) (s c d : V3 α) (m : Nat),
      srcAim S D.n_cap (D.prof.cap 0) (D.prof.ext 0) u fuel n s = .ok (c, d, m) →
      n + 2 ≤ m ∧
      (∀ v : Nat → α, (∀ i, n ≤ i → i < m → v i = u i) → srcAim S D.n_cap (D.prof.cap 0) (D.prof.ext 0) v fuel n s = .ok (c, d, m)) ∧
      (∀ fuel', fuel ≤ fuel' → srcAim S D.n_cap (D.prof.cap 0) (D.prof.ext 0) u fuel' n s = .ok (c, d, m)) := by
    intro n s c d m hh
    simp only [srcAim] at hh
    split_ifs at hh with h1 h2
    · have hm : n + 2 = m := by injection hh with hh; injection hh with _ hh; injection hh
      refine ⟨by omega, fun v hv => ?_, fun _ _ => ?_⟩
      · simp only [srcAim]
        rw [if_pos h1, if_pos h2, hv n (by omega) (by omega), hv (n + 1) (by omega) (by omega)]; exact hh
      · simp only [srcAim]
        rw [if_pos h1, if_pos h2]; exact hh
    · cases hr : rejLoop (D.prof.ext 0) u fuel n with
      | ub => rw [hr] at hh; simp at hh
      | fuel => rw [hr] at hh; simp at hh
      | ok p =>
        obtain ⟨px, py, m'⟩ := p
        obtain ⟨_, l1, l2, l3, _⟩ := rejLoop_ok (D.prof.ext 0) u fuel n px py m' hr
        rw [hr] at hh
        simp only [Out.bind_ok] at hh
        have hm : m' = m := by injection hh with hh; injection hh with _ hh; injection hh
        refine ⟨by omega, fun v hv => ?_, fun f hf => ?_⟩
        · simp only [srcAim]
          rw [if_pos h1, if_neg h2, l2 v (fun i a b => hv i a (by omega))]; exact hh
        · simp only [srcAim]
          rw [if_pos h1, if_neg h2, l3 f hf]; exact hh
    · have hm : n + 2 = m := by injection hh with hh; injection hh with _ hh; injection hh
      refine ⟨by omega, fun v hv => ?_, fun _ _ => ?_⟩
      · simp only [srcAim]
        rw [if_neg h1, hv n (by omega) (by omega), hv (n + 1) (by omega) (by omega)]; exact hh
      · simp only [srcAim]
        rw [if_neg h1]; exact hh
  simp only [getPhoton] at h
  rw [Out.bind_eq_ok] at h
  obtain ⟨⟨c, d, m'⟩, ha, h⟩ := h
  obtain ⟨a1, a2, a3⟩ := aim _ _ _ _ _ ha
  have hm : m = m' + 1 := by
    simp only [photonNew] at h
    split_ifs at h
    injection h with h; injection h with _ h; exact h.symm
  refine ⟨by omega, fun v hv => ?_, fun f hf => ?_⟩
  · simp only [getPhoton]
    rw [hv n (by omega) (by omega), hv (n + 1) (by omega) (by omega), hv (n + 2) (by omega) (by omega),
      a2 v (fun i p q => hv i (by omega) (by omega))]
    simp only [Out.bind_ok]
    rw [hv m' (by omega) (by omega)]
    exact h
  · simp only [getPhoton]
    rw [a3 f hf]
    exact h

/-- **C31.**  Successive photons consume consecutive, disjoint stretches of the stream: generating `a + b` photons is generating `a`
photons and then `b` photons from where the first ones stopped; the position advances by at least six per photon. -/
theorem photon_stretches (S : Src α) (D : Descr α) (u : Nat → α) (fuel : Nat) : ∀ (a b n : Nat),
    getPhotons S D u fuel (a + b) n = (do
      let x ← getPhotons S D u fuel a n
      let y ← getPhotons S D u fuel b x.2
      pure (x.1 ++ y.1, y.2)) ∧
    (∀ xs m, getPhotons S D u fuel a n = .ok (xs, m) → xs.length = a ∧ n + 6 * a ≤ m ∧
      ∀ v : Nat → α, (∀ i, n ≤ i → i < m → v i = u i) → getPhotons S D v fuel a n = .ok (xs, m))
  | 0, b, n => by
    constructor
    · simp only [Nat.zero_add, getPhotons, Out.bind_ok, List.nil_append]
      cases getPhotons S D u fuel b n <;> simp
    · intro xs m h
      simp only [getPhotons] at h
      injection h with h; injection h with h1 h2
      subst h1 h2
      exact ⟨rfl, by omega, fun _ _ => rfl⟩
  | a + 1, b, n => by
    rw [show a + 1 + b = (a + b) + 1 by omega]
    constructor
    · simp only [getPhotons]
      cases hx : getPhoton S D u fuel n with
      | ub => simp
      | fuel => simp
      | ok x =>
        simp only [Out.bind_ok]
        rw [(photon_stretches S D u fuel a b x.2).1]
        cases ha : getPhotons S D u fuel a x.2 with
        | ub => simp
        | fuel => simp
        | ok ya =>
          simp only [Out.bind_ok]
          cases getPhotons S D u fuel b ya.2 <;> simp
    · intro xs m h
      simp only [getPhotons] at h
      rw [Out.bind_eq_ok] at h
      obtain ⟨⟨x, m1⟩, hx, h⟩ := h
      rw [Out.bind_eq_ok] at h
      obtain ⟨⟨ys, m2⟩, hy, h⟩ := h
      injection h with h; injection h with h1 h2
      simp only at h1 h2
      subst h1 h2
      obtain ⟨l1, l2, _⟩ := photon_from_stream S D u fuel n x m1 hx
      obtain ⟨k1, k2, k3⟩ := (photon_stretches S D u fuel a b m1).2 ys m2 hy
      refine ⟨by simp [k1], by omega, fun v hv => ?_⟩
      simp only [getPhotons]
      rw [l2 v (fun i p q => hv i p (by omega))]
      simp only [Out.bind_ok]
      rw [k3 v (fun i p q => hv i (by omega) q)]
      rfl

/-- **C28.**  NULL arguments are reported. -/
theorem get_photon_null (S : Option (Src α)) (D : Option (Descr α)) (u : Option (Nat → α)) (fuel n : Nat)
    (hn : S = none ∨ D = none ∨ u = none) :
    getPhotonE S D u fuel n (some none) = .ok (none, n, some (some .invalidArgument)) := by
  rcases hn with rfl | rfl | rfl
  · rfl
  · cases S <;> rfl
  · cases S <;> cases D <;> rfl

/-- **C28.**  Past the NULL checks no error is reported, unless the optic is a polycapillary with a
non-positive entrance radius (which `polycap_description_new` refuses) illuminated uniformly. -/
theorem get_photon_no_error (S : Src α) (D : Descr α) (u : Nat → α) (fuel n : Nat) (e e' : EArg)
    (x : Option (SrcPhoton α)) (m : Nat) (hext : CNum.le (D.prof.ext 0) (CNum.lit 0) = false)
    (h : getPhotonE (some S) (some D) (some u) fuel n e = .ok (x, m, e')) :
    e' = e ∧ ∃ y, x = some y ∧ getPhoton S D u fuel n = .ok (y, m) := by
  simp only [getPhotonE] at h
  rw [Out.bind_eq_ok] at h
  obtain ⟨⟨y, m'⟩, hy, h⟩ := h
  rw [hext, Bool.and_false] at h
  injection h with h
  injection h with h1 h2
  injection h2 with h2 h3
  simp only at h1 h2 h3
  subst h1 h2
  exact ⟨h3.symm, y, rfl, hy⟩
end Stream

/-! ## Distribution of the photon origins -/

/-- In polar form: if the second number drawn is below 1/4, the origin is the image of the usual uniform polar sampling of the
unit disc (radius `√r3`, angle `M_PI/2·r1`) under the affine map onto the source ellipse; for a second number of at least 3/4 the same
point mirrored in the x direction.  So the first number drawn is exactly the fraction of the quarter ellipse's area swept (up to
the literal for π), the third the fraction of the area inside the similar ellipse. -/
theorem source_point_uniform_partial (S : Src ℝ) (g : GoodSrc S) (r1 r2 r3 : ℝ) (h1 : 0 ≤ r1) (h1' : r1 < 1) :
    (r2 < 1 / 4 →
      (srcPoint S r1 r2 r3).x = S.src_x * (Real.sqrt r3 * Real.cos (mpi / 2 * r1)) + S.src_shiftx ∧
      (srcPoint S r1 r2 r3).y = S.src_y * (Real.sqrt r3 * Real.sin (mpi / 2 * r1)) + S.src_shifty) ∧
    (3 / 4 ≤ r2 →
      (srcPoint S r1 r2 r3).x = S.src_x * (Real.sqrt r3 * Real.cos (mpi / 2 * r1)) + S.src_shiftx ∧
      (srcPoint S r1 r2 r3).y = - (S.src_y * (Real.sqrt r3 * Real.sin (mpi / 2 * r1))) + S.src_shifty) := by
  have hpi : (mpi : ℝ) < Real.pi := by
    have := Real.pi_gt_d20
    simp only [mpi, real_lit]
    refine lt_of_le_of_lt ?_ this
    norm_num
  have hpi0 : (0:ℝ) < mpi := by simp only [mpi, real_lit]; norm_num
  set t : ℝ := mpi / 2 * r1 with ht
  have ht0 : 0 ≤ t := by positivity
  have ht1 : t < Real.pi / 2 := by nlinarith
  have hc : 0 < Real.cos t := Real.cos_pos_of_mem_Ioo ⟨by linarith [Real.pi_pos], ht1⟩
  set φ : ℝ := Real.arctan (S.src_y / S.src_x * Real.tan t) with hφ
  have hcφ : 0 < Real.cos φ := Real.cos_arctan_pos _
  have hsφ : Real.sin φ = S.src_y / S.src_x * Real.tan t * Real.cos φ := by
    have := Real.tan_arctan (S.src_y / S.src_x * Real.tan t)
    rw [← hφ, Real.tan_eq_sin_div_cos, div_eq_iff hcφ.ne'] at this
    exact this
  have hx := g.x
  have hy := g.y
  have hA : (S.src_y * Real.cos φ) * (S.src_y * Real.cos φ) + (S.src_x * Real.sin φ) * (S.src_x * Real.sin φ) =
      (S.src_y * Real.cos φ / Real.cos t) ^ 2 := by
    rw [hsφ, Real.tan_eq_sin_div_cos]
    have := Real.sin_sq_add_cos_sq t
    have hc' := hc.ne'
    have hx' := hx.ne'
    field_simp
    linarith
  have hR : Real.sqrt ((S.src_y * Real.cos φ) * (S.src_y * Real.cos φ) + (S.src_x * Real.sin φ) * (S.src_x * Real.sin φ)) =
      S.src_y * Real.cos φ / Real.cos t := by
    rw [hA, Real.sqrt_sq (by positivity)]
  have e1 : S.src_x * S.src_y / (S.src_y * Real.cos φ / Real.cos t) * Real.cos φ = S.src_x * Real.cos t := by
    field_simp
  have e2 : S.src_x * S.src_y / (S.src_y * Real.cos φ / Real.cos t) * Real.sin φ = S.src_y * Real.sin t := by
    rw [hsφ, Real.tan_eq_sin_div_cos]
    field_simp
  have harg : (2:ℝ) * mpi * r1 / 4 = t := by rw [ht]; ring
  constructor
  · intro h2
    have hphi : srcPhi S r1 r2 = φ := by
      simp only [srcPhi, real_div, real_mul, real_sub, real_add, real_lit, real_atan, real_tan, real_lt, real_le, ge, Bool.and_eq_true, decide_eq_true_eq]
      push_cast
      rw [if_neg (by linarith), if_neg (by rintro ⟨a, _⟩; linarith), if_neg (by rintro ⟨a, _⟩; linarith), harg]
    simp only [srcPoint, hphi, srcMaxRad, real_add, real_mul, real_div, real_sqrt, real_cos, real_sin, hR]
    constructor
    · rw [mul_assoc, e1]; ring
    · rw [mul_assoc, e2]; ring
  · intro h2
    have hphi : srcPhi S r1 r2 = -φ := by
      simp only [srcPhi, real_div, real_mul, real_sub, real_add, real_lit, real_atan, real_tan, real_lt, real_le, ge, Bool.and_eq_true, decide_eq_true_eq]
      push_cast
      rw [if_pos h2, if_neg (by rintro ⟨_, a⟩; linarith), if_neg (by rintro ⟨_, a⟩; linarith), harg]
      ring
    simp only [srcPoint, hphi, srcMaxRad, real_add, real_mul, real_div, real_sqrt, real_cos, real_sin, Real.cos_neg, Real.sin_neg, mul_neg, neg_mul, neg_neg, hR]
    constructor
    · rw [mul_assoc, e1]; ring
    · rw [mul_assoc, e2]; ring


/-! ## Concrete cases -/

/-- a valid source with uniform illumination -/
noncomputable def exS : Src ℝ := ⟨10, 1, 2, -1, -1, 0, 0, 1/2, [10]⟩

theorem exS_good : GoodSrc exS := ⟨by norm_num [exS], by norm_num [exS], by norm_num [exS], by norm_num [exS, abs_le]⟩

/-- seven capillaries (one shell), optic radius 1 -/
noncomputable def exHexD : Descr ℝ := ⟨5, 7, [14], [1], 2.2, ⟨2, fun i => i, fun _ => 1/10, fun _ => 1⟩⟩

theorem exHexD_shells : nShells (α := ℝ) exHexD.n_cap = 1 := by
  have := nShells_of_full_stacking 1
  norm_num at this
  exact this

/-- The hypotheses of C28-C31 are met: with the stream that always gives 1/2 the source generates a photon. -/
theorem exS_photon : ∃ x m, getPhoton exS exHexD (fun _ => 1/2) 1 0 = .ok (x, m) := by
  have hb : withinPcBoundary (1:ℝ) 0 0 = 1 := by
    rw [boundary_one_iff]
    refine ⟨one_pos, ?_⟩
    have : (0:ℝ) ≤ Real.sqrt 3 / 2 := by positivity
    simpa [InHex] using this
  have hr : rejLoop (1:ℝ) (fun _ => 1/2) 1 3 = .ok (0, 0, 5) := by
    simp only [rejLoop, real_sub, real_mul, real_lit]
    norm_num [hb]
  cases h : getPhoton exS exHexD (fun _ => 1/2) 1 0 with
  | ub => exact absurd h (source_photon_safe exS exS_good _ _ _ _)
  | ok x => exact ⟨x.1, x.2, rfl⟩
  | fuel =>
    exfalso
    simp only [getPhoton] at h
    generalize srcPoint exS (1/2) (1/2) (1/2) = s at h
    have ha : ∃ a, srcAim exS exHexD.n_cap (exHexD.prof.cap 0) (exHexD.prof.ext 0) (fun _ => 1/2) 1 (0 + 3) s = .ok a := by
      simp only [srcAim, exHexD_shells]
      rw [if_pos (by simp [exS]), if_neg (by decide)]
      rw [show exHexD.prof.ext 0 = 1 from rfl, hr]
      exact ⟨_, rfl⟩
    obtain ⟨a, ha⟩ := ha
    rw [ha] at h
    simp only [Out.bind_ok] at h
    split at h <;> cases h

example : InHex (exHexD.prof.ext 0) (Classical.choose exS_photon).photon.startC.x (Classical.choose exS_photon).photon.startC.y := by
  obtain ⟨m, h⟩ := Classical.choose_spec exS_photon
  exact uniform_illumination_inside exS exS_good exHexD _ _ _ _ m h (Or.inl (by norm_num [exS]))
    (by rw [exHexD_shells]; decide) (by norm_num [exHexD])

/-- Finding (C29, single capillary): the start point is drawn from the square around the capillary, not from the capillary; the
first two aiming numbers 0 put it at distance `√2·cap` from the axis. -/
theorem mono_uniform_outside (S : Src ℝ) (g : GoodSrc S) (hs : S.src_sigx < 0) (D : Descr ℝ) (h1 : nShells (α := ℝ) D.n_cap = 0)
    (hc : 0 < D.prof.cap 0) (u : Nat → ℝ) (fuel n : Nat) (x : SrcPhoton ℝ) (m : Nat) (h : getPhoton S D u fuel n = .ok (x, m))
    (u3 : u (n + 3) = 0) (u4 : u (n + 4) = 0) :
    D.prof.cap 0 ^ 2 < x.photon.startC.x ^ 2 + x.photon.startC.y ^ 2 := by
  obtain ⟨c, d, m', ha, _, _, hcc, hd, _⟩ := getPhoton_ok S D u fuel n x m h
  obtain ⟨_, _, _, _, _, hb, _⟩ := srcAim_ok S g _ _ _ u fuel _ _ c d m' ha
  obtain ⟨e1, e2⟩ := hb (Or.inl hs) h1
  rw [hcc, e1, e2, u3, u4]
  nlinarith [mul_pos hc hc]

/-- Finding (C28 without the contract of `polycap_source_new`): a source at distance 0 (which `polycap_source_new_from_file` accepts)
generates photons whose direction has no z component. -/
theorem zero_distance_source (S : Src ℝ) (h0 : S.d_source = 0) (hs : S.src_sigx < 0) (D : Descr ℝ) (u : Nat → ℝ) (fuel n : Nat)
    (x : SrcPhoton ℝ) (m : Nat) (h : getPhoton S D u fuel n = .ok (x, m)) : x.photon.startD.z = 0 := by
  obtain ⟨c, d, m', ha, _, _, _, hd, _⟩ := getPhoton_ok S D u fuel n x m h
  rw [hd]
  simp only [srcAim] at ha
  rw [if_pos (by simp [hs])] at ha
  split_ifs at ha with h2
  · injection ha with ha; injection ha with _ ha; injection ha with hd _
    rw [← hd]; simp [vnorm, h0]
  · rw [Out.bind_eq_ok] at ha
    obtain ⟨p, _, ha⟩ := ha
    injection ha with ha; injection ha with _ ha; injection ha with hd _
    rw [← hd]; simp [vnorm, h0]

end Polycap
