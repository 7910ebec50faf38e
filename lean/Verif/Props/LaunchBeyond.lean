import Verif.Props.LaunchProps

/-!
# C24, finding: a start point far behind the exit of a narrowing optic is not recognised as outside

The radius of the optic is extrapolated beyond its last profile point; where the extrapolated radius is not positive the in-optic test
reports an error (-1), which the caller does not distinguish from "inside".
-/
namespace Polycap
open CNum

theorem launchCap_nonpositive {D : Descr ℝ} (hs : nShells (α := ℝ) D.n_cap ≠ 0) {c : V3 ℝ} (hR : launchExt D.prof c.z ≤ 0) :
    launchCap D c = some (hexRound (nShells (α := ℝ) D.n_cap) (launchExt D.prof c.z) c.x c.y) := by
  unfold launchCap
  simp only
  rw [if_neg hs, (boundary_error_iff (launchExt D.prof c.z) c.x c.y).mpr hR, if_neg (by decide)]

/-- C24, finding: with valid arguments and a start point where the extrapolated radius of a polycapillary is not positive, the launch does
not return -2, although every point is outside an optic of non-positive radius. -/
theorem launch_beyond_not_outside (lib : Xray ℝ) (D : Descr ℝ) (leak : Bool) (fuel k : Nat) (P : Photon ℝ) (es : List ℝ)
    (hes : es ≠ []) (hb : ∀ e ∈ es, 1 ≤ e ∧ e ≤ 100) (hs : nShells (α := ℝ) D.n_cap ≠ 0) (hR : launchExt D.prof P.startC.z ≤ 0)
    (c : Int) (o : WOut ℝ) (P' : Option (Photon ℝ)) (h : launch lib (some D) leak fuel k (some P) (some es) true = .ok (c, o, P')) : c ≠ -2 := by
  obtain ⟨Q, -, he⟩ := launch_ended hes hb h
  have hc := launchCap_nonpositive hs hR
  cases he with
  | outside hc' => rw [hc] at hc'; cases hc'
  | glass qr hc' => decide
  | front qr hc' => decide
  | within qr hc' _ _ _ _ w _ c o P' hy =>
    have := launchWall_codes _ _ _ _ _ _ _ _ _ hy
    omega
  | inside qr hc' _ c o P' hy =>
    obtain ⟨iesc, ix, Q, -, hcs, k1, k2, k3, -⟩ := launchInside_inv _ _ _ _ _ _ _ _ _ hy
    omega

/-- 7 capillaries in an optic narrowing from radius 1 to 0.8 over two units; the extrapolated radius at z = 20 is -1 -/
noncomputable def narrowing : Profile ℝ := ⟨2, fun i => i, fun _ => 1 / 100, fun i => 1 - i / 10⟩

example : nShells (α := ℝ) 7 ≠ 0 ∧ (∀ i ≤ narrowing.nmax, narrowing.cap i < narrowing.ext i) ∧ launchExt narrowing 20 ≤ 0 := by
  refine ⟨by simp [nShells_7], ?_, ?_⟩
  · intro i hi
    have h2 : i ≤ 2 := hi
    have : (i : ℝ) ≤ 2 := by exact_mod_cast h2
    simp only [narrowing]
    linarith
  · have : launchSeg narrowing 20 = 1 := by
      simp [launchSeg, segIdFrom, narrowing, gt]
    simp only [launchExt, this]
    simp [interpL, narrowing]
    norm_num

end Polycap
