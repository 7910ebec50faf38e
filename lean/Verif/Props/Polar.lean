import Verif.Props.EnergyIndep
import Verif.Props.Zigzag
import Verif.Props.ClearPath

/-!
# C90: what becomes of the electric vector

`polycap_refl_polar` computes a new electric vector at every reflection (`/repo/src/polycap-capil.c:540-556`).  Each new component is the
old component times a factor that is the same for the three, without its sign: after normalisation only the signs are lost.
-/
namespace Polycap
open CNum
namespace Polar
open EInd

/-- the vector without the signs of its components -/
def absV (v : V3 ℝ) : V3 ℝ := ⟨|v.x|, |v.y|, |v.z|⟩

theorem absV_dot (v : V3 ℝ) : dot (absV v) (absV v) = dot v v := by
  simp only [absV, dot, abs_mul_abs_self]

theorem absV_idem (v : V3 ℝ) : absV (absV v) = absV v := by simp [absV]

/-- the common factor -/
noncomputable def factor (a fs b fp g : ℝ) : ℝ := Real.sqrt ((a * fs) ^ 2 + (b * fp) ^ 2 + (g * fp) ^ 2)

theorem newE_eq (c a fs b fp g : ℝ) : newE c a fs b fp g = |c| * factor a fs b fp g := by
  simp only [newE, factor, real_sqrt, real_mul, real_add]
  rw [← Real.sqrt_sq_eq_abs, ← Real.sqrt_mul (sq_nonneg c)]
  congr 1; ring

theorem vnorm_scaled {k : ℝ} (hk : 0 < k) (v : V3 ℝ) : vnorm ⟨v.x * k, v.y * k, v.z * k⟩ = vnorm v := by
  have e : v.x * k * (v.x * k) + v.y * k * (v.y * k) + v.z * k * (v.z * k) = k ^ 2 * (v.x * v.x + v.y * v.y + v.z * v.z) := by ring
  simp only [vnorm, real_mul, real_add, real_sqrt, real_div, e, Real.sqrt_mul (sq_nonneg k), Real.sqrt_sq hk.le]
  rw [mul_comm k, mul_div_mul_right _ _ hk.ne', mul_div_mul_right _ _ hk.ne', mul_div_mul_right _ _ hk.ne']

theorem normIfNot1_unit_or (v : V3 ℝ) : dot (normIfNot1 v) (normIfNot1 v) = 1 ∨ normIfNot1 v = ⟨0, 0, 0⟩ := by
  rw [normIfNot1_eq]
  split
  · rename_i h; left; exact Real.sqrt_eq_one.mp h
  · by_cases h0 : dot v v = 0
    · right; exact vnorm_zero h0
    · left; exact vnorm_dot v h0

theorem normIfNot1_vnorm (v : V3 ℝ) : normIfNot1 v = vnorm v := by
  rw [normIfNot1_eq]
  split
  · rename_i h; exact (vnorm_unit v (Real.sqrt_eq_one.mp h)).symm
  · rfl

theorem normIfNot1_absV (v : V3 ℝ) (h : dot v v = 1) : normIfNot1 (absV v) = absV v := by
  rw [normIfNot1_vnorm]; exact vnorm_unit _ (by rw [absV_dot, h])

theorem vnorm_absV (v : V3 ℝ) : vnorm (absV (vnorm v)) = absV (vnorm v) := by
  by_cases h0 : dot v v = 0
  · rw [vnorm_zero h0]
    have : absV (⟨0, 0, 0⟩ : V3 ℝ) = ⟨0, 0, 0⟩ := by simp [absV]
    rw [this]; exact vnorm_zero (by simp [dot])
  · exact vnorm_unit _ (by rw [absV_dot, vnorm_dot v h0])

/-- the quantities of `polycap_refl_polar` -/
noncomputable def sDir (n dir : V3 ℝ) : V3 ℝ := vnorm (cross n dir)
noncomputable def pDir (n dir : V3 ℝ) : V3 ℝ := vnorm (cross dir (sDir n dir))

theorem turned_eq (n dir E : V3 ℝ) : turned n dir E =
    (let u := vnorm E
     let a := dot u (sDir (vnorm n) dir)
     let k := factor a (a * a) (dot u (vnorm n)) (1 - a * a) (dot u (pDir (vnorm n) dir))
     vnorm ⟨|u.x| * k, |u.y| * k, |u.z| * k⟩) := by
  have e1 : ((1:ℚ):ℝ) = 1 := by norm_num
  unfold turned
  simp only [newE_eq, normIfNot1_vnorm, scalar_real, real_mul, real_sub, real_lit, e1]
  rfl

theorem factor_nonneg (a fs b fp g : ℝ) : 0 ≤ factor a fs b fp g := Real.sqrt_nonneg _

/-- **C90.** The electric vector after a reflection, for any surface normal, direction and polarisation: the normalised old one without its
signs – or nothing, if the common factor vanishes (0/0 in C). -/
theorem turned_abs (n dir E : V3 ℝ) : turned n dir E = absV (vnorm E) ∨ turned n dir E = ⟨0, 0, 0⟩ := by
  rw [turned_eq]
  simp only
  generalize dot (vnorm E) (sDir (vnorm n) dir) = a
  generalize hk : factor a (a * a) (dot (vnorm E) (vnorm n)) (1 - a * a) (dot (vnorm E) (pDir (vnorm n) dir)) = k
  have h0 : 0 ≤ k := by rw [← hk]; exact factor_nonneg _ _ _ _ _
  rcases h0.eq_or_lt with h | h
  · right
    rw [← h]
    exact vnorm_zero (by simp [dot])
  · left
    have := vnorm_scaled h (absV (vnorm E))
    simp only [absV] at this ⊢
    rw [this]
    exact vnorm_absV E

theorem dot_vnorm_zero {u v : V3 ℝ} (hv : 0 < dot v v) (h : dot u (vnorm v) = 0) : dot u v = 0 := by
  have hs : 0 < Real.sqrt (dot v v) := Real.sqrt_pos.mpr hv
  have e : dot u (vnorm v) = dot u v / Real.sqrt (dot v v) := by
    simp only [vnorm, dot, real_mul, real_add, real_sqrt, real_div]; ring
  rw [e] at h
  rcases div_eq_zero_iff.mp h with h | h
  · exact h
  · exact absurd h hs.ne'

theorem cross_norm {n d : V3 ℝ} (hn : dot n n = 1) (hd : dot d d = 1) : dot (cross n d) (cross n d) = 1 - dot n d ^ 2 := by
  obtain ⟨nx, ny, nz⟩ := n
  obtain ⟨dx, dy, dz⟩ := d
  simp only [dot, cross, real_mul, real_sub] at *
  linear_combination (dx*dx+dy*dy+dz*dz) * hn + hd

/-- the third direction: `n − (n·d) d`, scaled -/
theorem cross_sDir {n d : V3 ℝ} (hd : dot d d = 1) : cross d (sDir n d) =
    ⟨(n.x - dot n d * d.x) / Real.sqrt (dot (cross n d) (cross n d)), (n.y - dot n d * d.y) / Real.sqrt (dot (cross n d) (cross n d)),
      (n.z - dot n d * d.z) / Real.sqrt (dot (cross n d) (cross n d))⟩ := by
  unfold sDir
  generalize hl : Real.sqrt (dot (cross n d) (cross n d)) = l
  have e : vnorm (cross n d) = ⟨(cross n d).x / l, (cross n d).y / l, (cross n d).z / l⟩ := by rw [← hl]; rfl
  rw [e]
  obtain ⟨nx, ny, nz⟩ := n
  obtain ⟨dx, dy, dz⟩ := d
  simp only [dot, cross, real_mul, real_sub] at *
  congr 1
  · field_simp; linear_combination (nx / l) * hd
  · field_simp; linear_combination (ny / l) * hd
  · field_simp; linear_combination (nz / l) * hd

/-- the factor does not vanish at grazing incidence (`0 < cos < 1`) -/
theorem turned_grazing {n dir E : V3 ℝ} (hn : dot n n = 1) (hd : dot dir dir = 1) (hE : dot E E ≠ 0) (h0 : 0 < dot n dir) (h1 : dot n dir < 1) :
    turned n dir E = absV (vnorm E) := by
  rw [turned_eq]
  simp only
  rw [vnorm_unit n hn]
  have hu := vnorm_dot E hE
  generalize vnorm E = u at hu
  have hk : factor (dot u (sDir n dir)) (dot u (sDir n dir) * dot u (sDir n dir)) (dot u n) (1 - dot u (sDir n dir) * dot u (sDir n dir)) (dot u (pDir n dir)) ≠ 0 := by
    intro hz
    unfold factor at hz
    rw [Real.sqrt_eq_zero (by positivity)] at hz
    have z1 : dot u (sDir n dir) * (dot u (sDir n dir) * dot u (sDir n dir)) = 0 := by nlinarith [sq_nonneg (dot u n * (1 - dot u (sDir n dir) * dot u (sDir n dir))), sq_nonneg (dot u (pDir n dir) * (1 - dot u (sDir n dir) * dot u (sDir n dir))), sq_nonneg (dot u (sDir n dir) * (dot u (sDir n dir) * dot u (sDir n dir)))]
    have a0 : dot u (sDir n dir) = 0 := by
      rcases mul_eq_zero.mp z1 with h | h
      · exact h
      · rcases mul_eq_zero.mp h with h | h <;> exact h
    rw [a0] at hz
    simp only [mul_zero, sub_zero, mul_one, ne_eq, OfNat.ofNat_ne_zero, not_false_eq_true, zero_pow, zero_add] at hz
    have b0 : dot u n = 0 := by nlinarith [sq_nonneg (dot u n), sq_nonneg (dot u (pDir n dir))]
    have g0 : dot u (pDir n dir) = 0 := by nlinarith [sq_nonneg (dot u n), sq_nonneg (dot u (pDir n dir))]
    have a1 := dot_vnorm_zero (u := u) (v := cross n dir) (by rw [cross_norm hn hd]; nlinarith) a0
    have g1 := dot_vnorm_zero (u := u) (v := cross dir (sDir n dir)) (by
      have h2 := cross_norm hn hd
      have h3 : 0 < 1 - dot n dir ^ 2 := by nlinarith
      rw [cross_sDir hd]
      have hs : 0 < Real.sqrt (dot (cross n dir) (cross n dir)) := Real.sqrt_pos.mpr (by rw [h2]; exact h3)
      generalize Real.sqrt (dot (cross n dir) (cross n dir)) = l at hs
      have e : dot (⟨(n.x - dot n dir * dir.x) / l, (n.y - dot n dir * dir.y) / l, (n.z - dot n dir * dir.z) / l⟩ : V3 ℝ)
          ⟨(n.x - dot n dir * dir.x) / l, (n.y - dot n dir * dir.y) / l, (n.z - dot n dir * dir.z) / l⟩ =
          (dot n n - 2 * dot n dir ^ 2 + dot n dir ^ 2 * dot dir dir) / (l * l) := by simp only [dot]; ring
      rw [e, hn, hd]
      exact div_pos (by linarith) (by positivity)) g0
    rw [cross_sDir hd] at g1
    have h2 := cross_norm hn hd
    have h3 : 0 < 1 - dot n dir ^ 2 := by nlinarith
    have hs : 0 < Real.sqrt (dot (cross n dir) (cross n dir)) := Real.sqrt_pos.mpr (by rw [h2]; exact h3)
    generalize Real.sqrt (dot (cross n dir) (cross n dir)) = l at hs g1
    have g2 : dot u n - dot n dir * dot u dir = 0 := by
      have e : dot u (⟨(n.x - dot n dir * dir.x) / l, (n.y - dot n dir * dir.y) / l, (n.z - dot n dir * dir.z) / l⟩ : V3 ℝ) =
          (dot u n - dot n dir * dot u dir) / l := by simp only [dot]; ring
      rw [e] at g1
      rcases div_eq_zero_iff.mp g1 with h | h
      · exact h
      · exact absurd h hs.ne'
    have d0 : dot u dir = 0 := by
      rw [b0] at g2
      rcases mul_eq_zero.mp (show dot n dir * dot u dir = 0 by linarith) with h | h
      · exact absurd h h0.ne'
      · exact h
    have gram : dot u (cross n dir) ^ 2 = dot u u * (dot n n * dot dir dir - dot n dir ^ 2) - dot u n * (dot u n * dot dir dir - dot u dir * dot n dir)
        + dot u dir * (dot u n * dot n dir - dot u dir * dot n n) := by
      simp only [dot, cross, real_mul, real_sub]; ring
    rw [a1, hu, hn, hd, b0, d0] at gram
    nlinarith
  have hp := lt_of_le_of_ne (factor_nonneg _ _ _ _ _) (Ne.symm hk)
  have := vnorm_scaled hp (absV u)
  simp only [absV] at this ⊢
  rw [this]
  exact vnorm_unit _ (by have := absV_dot u; simp only [absV] at this; rw [this, hu])

/-! ## Along a path -/

/-- without the signs – or nothing -/
def Unsigned (E E' : V3 ℝ) : Prop := E' = absV (vnorm E) ∨ E' = ⟨0, 0, 0⟩

theorem absV_zero : absV (⟨0, 0, 0⟩ : V3 ℝ) = ⟨0, 0, 0⟩ := by simp [absV]

theorem Unsigned.turned {E E' : V3 ℝ} (h : Unsigned E E') (n d : V3 ℝ) : Unsigned E (turned n d E') := by
  rcases h with rfl | rfl
  · rcases turned_abs n d (absV (vnorm E)) with h | h
    · left; rw [h, vnorm_absV, absV_idem]
    · exact Or.inr h
  · right
    rcases turned_abs n d ⟨0, 0, 0⟩ with h | h
    · rw [h, vnorm_zero (by simp [dot]), absV_zero]
    · exact h

/-- one reflection (`polycap_capil_reflect` returning 0 or 1) -/
theorem reflect_turned {D : Descr ℝ} {leak : Bool} {fuel k : Nat} {n : V3 ℝ} {P : Photon ℝ} {c : Int} {P' : Photon ℝ}
    (h : reflect D leak fuel k n P = .ok (c, P')) (hc : c = 0 ∨ c = 1) (hch : P.chans ≠ []) :
    P'.chans ≠ [] ∧ ∃ d, (d = vnorm P.exitD ∨ d = vnorm (vnorm P.exitD)) ∧ P'.exitE = turned (vnorm n) d P.exitE := by
  cases k with
  | zero => simp [reflect] at h
  | succ k =>
    unfold reflect reflectBody at h
    simp only at h
    split at h
    · injection h with h; injection h with h1 h2; omega
    rw [Out.bind_eq_ok] at h
    obtain ⟨w, hw, h⟩ := h
    have hR : (renorm leak { P with exitD := vnorm P.exitD }).exitD = vnorm P.exitD ∨
        (renorm leak { P with exitD := vnorm P.exitD }).exitD = vnorm (vnorm P.exitD) := by
      cases leak
      · exact Or.inl rfl
      · exact Or.inr rfl
    have hE : (renorm leak { P with exitD := vnorm P.exitD }).exitE = P.exitE := rfl
    have hC : (renorm leak { P with exitD := vnorm P.exitD }).chans = P.chans := rfl
    generalize renorm leak { P with exitD := vnorm P.exitD } = R at h hR hE hC
    unfold reflectRest at h
    split at h
    · injection h with h; injection h with h1 h2; omega
    split at h
    · simp at h
    simp only at h
    obtain ⟨k1, k2⟩ := energies_ok D (vnorm n) R.exitD (scalar (vnorm P.exitD) (vnorm n)) w.d leak R.exitE R.chans R.exitE R.exitE rfl
    split at h
    · injection h with h; injection h with h1 h2; omega
    rename_i hok
    obtain ⟨m1, -, m3⟩ := k2 (k1.mp (by simpa using hok))
    rw [hC] at m1 m3
    have hemp : P.chans.isEmpty = false := by simpa using hch
    rw [hemp] at m3
    simp only [Bool.false_eq_true, if_false] at m3
    rw [hE] at m3 m1
    split at h
    · obtain ⟨-, -, f3, f4, -, -⟩ := reflectLeak_frame _ _ _ _ _ _ _ _ h
      refine ⟨?_, _, hR, ?_⟩
      · rw [f4]; simp only [hC, hE, m1]; simpa using hch
      · rw [f3]; simp only [hC, hE, m3]
    · injection h with h; injection h with h1 h2
      subst h2
      refine ⟨?_, _, hR, ?_⟩
      · simp only [hC, hE, m1]; simpa using hch
      · simp only [hC, hE, m3]

/-- the state of the electric vector of a photon on its way: `E` at the start -/
def Along (E : V3 ℝ) (P : Photon ℝ) : Prop := (P.i_refl = 0 ∧ P.exitE = E) ∨ (0 < P.i_refl ∧ Unsigned E P.exitE)

theorem along_turned {E : V3 ℝ} {P : Photon ℝ} (h : Along E P) (n d : V3 ℝ) : Unsigned E (turned n d P.exitE) := by
  rcases h with ⟨-, h⟩ | ⟨-, h⟩
  · rw [h]; exact turned_abs n d E
  · exact h.turned n d

theorem trace_turned {D : Descr ℝ} {leak : Bool} {fuel k : Nat} {capx capy : Nat → ℝ} {ix : Nat} {P : Photon ℝ} {c : Int} {ix' : Nat} {P' : Photon ℝ}
    (h : trace D leak fuel k capx capy ix P = .ok (c, ix', P')) (hch : P.chans ≠ []) {E : V3 ℝ} (hA : Along E P) :
    (c = 1 → P'.chans ≠ [] ∧ 0 < P'.i_refl ∧ Unsigned E P'.exitE) ∧ (c = 0 → Unsigned E P'.exitE) ∧ (c = -2 → P'.i_refl = P.i_refl ∧ P'.exitE = P.exitE) := by
  have hi : 0 ≤ P.i_refl := by rcases hA with ⟨h, -⟩ | ⟨h, -⟩ <;> omega
  have hA' : Along E { P with exitD := vnorm P.exitD, startD := vnorm P.startD } := hA
  unfold trace capilTrace at h
  simp only at h
  split at h
  · rename_i code hs
    injection h with h; injection h with h1 h; injection h with h2 h3; subst h1 h2 h3
    have := traceSearch_ret' _ _ _ _ _ _ _ _ _ hs
    exact ⟨by omega, by omega, fun _ => ⟨rfl, rfl⟩⟩
  · injection h with h; injection h with h1 h; injection h with h2 h3; subst h1 h2 h3
    exact ⟨by omega, by omega, fun _ => ⟨rfl, rfl⟩⟩
  · rename_i i v n ca hs
    unfold traceHit at h
    simp only at h
    split at h
    · injection h with h; injection h with h1 h; subst h1; exact ⟨by omega, by omega, by omega⟩
    split at h
    · simp at h
    split at h
    · injection h with h; injection h with h1 h; subst h1; exact ⟨by omega, by omega, by omega⟩
    split at h
    · injection h with h; injection h with h1 h; subst h1; exact ⟨by omega, by omega, by omega⟩
    rw [Out.bind_eq_ok] at h
    obtain ⟨⟨rc, Q⟩, hr, h⟩ := h
    injection h with h
    have hf := (reflect_frame _ _ _ _ _ _ _ _ hr).1.i_refl
    simp only at hf
    have hu : (rc = 0 ∨ rc = 1) → Q.chans ≠ [] ∧ Unsigned E Q.exitE := by
      intro hc
      obtain ⟨g1, d, -, g2⟩ := reflect_turned hr hc hch
      exact ⟨g1, by rw [g2]; exact along_turned (P := P) hA _ _⟩
    have hcodes := (reflect_frame _ _ _ _ _ _ _ _ hr).2.2
    unfold afterReflect at h
    simp only at h
    split at h
    · rename_i h1
      injection h with h1' h; injection h with h2 h3; subst h1' h2 h3
      obtain ⟨g1, g2⟩ := hu (Or.inr h1)
      exact ⟨fun _ => ⟨g1, by simp only; omega, g2⟩, by omega, by omega⟩
    split at h
    · injection h with h1' h; injection h with h2 h3; subst h1' h2 h3
      exact ⟨by omega, by omega, by omega⟩
    · injection h with h1' h; injection h with h2 h3; subst h1' h2 h3
      refine ⟨by omega, fun h0 => (hu (Or.inl h0)).2, by omega⟩

theorem loop_turned {D : Descr ℝ} {leak : Bool} {fuel k : Nat} {capx capy : Nat → ℝ} {E : V3 ℝ} : ∀ (m : Nat) (c0 : Int) (ix : Nat) (P : Photon ℝ) (c : Int)
    (ix' : Nat) (P' : Photon ℝ), traceLoop (trace D leak fuel k capx capy) m c0 ix P = .ok (c, ix', P') → P.chans ≠ [] → Along E P → 0 < m →
    ((c = 1 ∨ c = -2) → Along E P') ∧ (c = 0 → Unsigned E P'.exitE) := by
  intro m
  induction m with
  | zero => intro _ _ _ _ _ _ _ _ _ hm; omega
  | succ m ih =>
    intro c0 ix P c ix' P' h hch hA _
    unfold traceLoop at h
    rw [Out.bind_eq_ok] at h
    obtain ⟨⟨tc, tix, Q⟩, ht, h⟩ := h
    obtain ⟨t1, t2, t3⟩ := trace_turned ht hch hA
    simp only at h
    split at h
    · rename_i h1
      injection h with h; injection h with h1' h; injection h with h2 h3; subst h1' h2 h3
      refine ⟨fun hc => ?_, t2⟩
      obtain ⟨u1, u2⟩ := t3 (by omega)
      unfold Along at hA ⊢
      rw [u1, u2]; exact hA
    · rename_i h1
      have h1 : tc = 1 := by omega
      subst h1
      obtain ⟨v1, v2, v3⟩ := t1 rfl
      cases m with
      | zero =>
        simp only [traceLoop] at h
        injection h with h; injection h with h1' h; injection h with h2 h3; subst h1' h2 h3
        exact ⟨fun _ => Or.inr ⟨v2, v3⟩, by omega⟩
      | succ m => exact ih _ _ _ _ _ _ h v1 (Or.inr ⟨v2, v3⟩) (by omega)

/-- **C90** (partial: the English property fails, see `electric_vector_lost`).  What the caller finds in the photon's electric vector after a
launch from inside a capillary that ended in transmission or absorption, for any optic, photon and energies, with and without leak calculation:
the vector it had before if the photon was not reflected; after any positive number of reflections the normalised vector without the signs of
its components, whatever the directions of flight and the walls; or nothing (0/0 in C) if some reflection was perpendicular. -/
theorem launch_electric_vector_partial (lib : Xray ℝ) (D : Descr ℝ) (leak : Bool) (fuel k : Nat) (P : Photon ℝ) (es : List ℝ) (c : Int) (ws : List ℝ)
    (P' : Photon ℝ) (hes : es ≠ []) (hb : ∀ e ∈ es, 1 ≤ e ∧ e ≤ 100)
    (h : launch lib (some D) leak fuel k (some P) (some es) true = .ok (c, .filled ws, some P')) :
    (c = 1 → (P'.i_refl = 0 ∧ P'.exitE = P.exitE) ∨ (0 < P'.i_refl ∧ (P'.exitE = absV (vnorm P.exitE) ∨ P'.exitE = ⟨0, 0, 0⟩))) ∧
    (c = 0 → P'.exitE = absV (vnorm P.exitE) ∨ P'.exitE = ⟨0, 0, 0⟩) := by
  obtain ⟨Q, hQ, he⟩ := launch_ended hes hb h
  injection hQ with hQ; subst hQ
  cases he with
  | within qr hc hw hl hz hz' w hx c o P' hy =>
    have hcc := launchWall_codes _ _ _ _ _ _ _ _ _ hy
    simp at hcc
  | inside qr hc hw c o P' hy =>
    obtain ⟨iesc, ix, Q', ht, -, -, c0, c1, -, rfl⟩ := launchInside_inv _ _ _ _ _ _ _ _ _ hy
    obtain ⟨a1, a2⟩ := loop_turned (E := P.exitE) _ _ _ _ _ _ _ ht (by simpa [launchInit] using hes) (Or.inl ⟨rfl, rfl⟩) (by omega)
    exact ⟨fun h1 => a1 (c1.mpr h1), fun h0 => a2 (c0.mpr h0)⟩

/-- the photon of the two-reflection example, linearly polarised in the plane of its zigzag -/
noncomputable def eP : Photon ℝ := ⟨⟨0, 0, 0⟩, ⟨zs, 0, zc⟩, ⟨zc, 0, -zs⟩, ⟨0, 0, 0⟩, ⟨zs, 0, zc⟩, ⟨zc, 0, -zs⟩, 0, 0, [], [], [], false⟩

/-- **C90**, the finding: a photon with a unit electric vector orthogonal to its direction of flight is transmitted with two reflections, back in
its old direction; its electric vector is not orthogonal to the direction any more, or it is not a unit vector. -/
theorem electric_vector_lost : dot eP.exitE eP.startD = 0 ∧ dot eP.exitE eP.exitE = 1 ∧ dot eP.startD eP.startD = 1 ∧
    ∀ fuel k, ∃ P', launch zLib (some zD) false fuel (k + 1) (some eP) (some [10]) true = .ok (1, .filled [1], some P') ∧ P'.i_refl = 2 ∧
      P'.exitD = eP.startD ∧ (P'.exitE = ⟨zc, 0, zs⟩ ∨ P'.exitE = ⟨0, 0, 0⟩) ∧ ¬ (dot P'.exitE P'.exitD = 0 ∧ dot P'.exitE P'.exitE = 1) := by
  refine ⟨by simp only [eP, dot]; ring, by simp only [eP, dot]; nlinarith [zUnit], by simp only [eP, dot]; nlinarith [zUnit], fun fuel k => ?_⟩
  obtain ⟨P', hl, -, -, -, hd, hi, -⟩ := z_launch fuel k eP rfl rfl
  obtain ⟨a1, -⟩ := launch_electric_vector_partial zLib zD false fuel (k + 1) eP [10] 1 [1] P' (by simp) (by intro e he; simp at he; subst he; norm_num) hl
  have hE : P'.exitE = ⟨zc, 0, zs⟩ ∨ P'.exitE = ⟨0, 0, 0⟩ := by
    rcases a1 rfl with ⟨h, -⟩ | ⟨-, h⟩
    · omega
    · have hz : absV (vnorm eP.exitE) = ⟨zc, 0, zs⟩ := by
        rw [show eP.exitE = ⟨zc, 0, -zs⟩ from rfl, vnorm_unit _ (by unfold dot; nlinarith [zUnit])]
        simp only [absV, abs_neg, abs_zero]
        rw [abs_of_pos (by norm_num [zc]), abs_of_pos (by norm_num [zs])]
      rwa [hz] at h
  refine ⟨P', hl, hi, hd, hE, ?_⟩
  rintro ⟨h1, h2⟩
  rcases hE with h | h
  · rw [h, hd] at h1
    simp only [dot, zs, zc] at h1
    norm_num at h1
  · rw [h] at h2; simp [dot] at h2

/-- the hypotheses of `launch_electric_vector_partial` and the reflected case: the same launch -/
example : ∃ ws P', launch zLib (some zD) false 0 1 (some eP) (some [10]) true = .ok (1, .filled ws, some P') ∧ 0 < P'.i_refl := by
  obtain ⟨P', hl, hi, -⟩ := electric_vector_lost.2.2.2 0 0
  exact ⟨_, P', hl, by omega⟩

end Polar
end Polycap
