import Verif.Props.ClearPath

/-!
# C85: calculating leaks does not change the photon

`polycap_photon_launch` has a switch for the calculation of leaks (the photons that go through the glass).  A user who turns it on expects
additional records, and the same transmitted photon: same return value, same weights, same position, direction, electric vector, number of
reflections and distance travelled.  `launch_leak_invisible_partial` proves it for every launch that starts inside a capillary and does not end with the
return value -1; `launch_leak_visible` shows why -1 must be excluded.
-/
namespace Polycap
open CNum

/-- the photon without its leak records -/
def bare (P : Photon ℝ) : Photon ℝ := { P with ext := [], int := [] }

theorem traceSearch_bare (D : Descr ℝ) (capx capy : Nat → ℝ) (P : Photon ℝ) : ∀ (k i : Nat) (cur nrm : V3 ℝ),
    traceSearch D capx capy (bare P) k i cur nrm = traceSearch D capx capy P k i cur nrm := by
  intro k
  induction k with
  | zero => intro i cur nrm; rfl
  | succ k ih =>
    intro i cur nrm
    unfold traceSearch
    simp only [ih]
    rfl

/-- the energy loop computes the same weights and polarisation with and without leaks -/
theorem reflEnergies_leak (D : Descr ℝ) (norm dir : V3 ℝ) (alfa : ℝ) (l l' : Bool) (d d' : ℝ) : ∀ (cs : List (Chan ℝ)) (E ev : V3 ℝ),
    (reflEnergies D norm dir alfa l d cs E ev).chans = (reflEnergies D norm dir alfa l' d' cs E ev).chans ∧
    (reflEnergies D norm dir alfa l d cs E ev).E = (reflEnergies D norm dir alfa l' d' cs E ev).E ∧
    (reflEnergies D norm dir alfa l d cs E ev).ev = (reflEnergies D norm dir alfa l' d' cs E ev).ev ∧
    (reflEnergies D norm dir alfa l d cs E ev).weightFlag = (reflEnergies D norm dir alfa l' d' cs E ev).weightFlag ∧
    (reflEnergies D norm dir alfa l d cs E ev).ok = (reflEnergies D norm dir alfa l' d' cs E ev).ok := by
  intro cs
  induction cs with
  | nil => intro E ev; exact ⟨rfl, rfl, rfl, rfl, rfl⟩
  | cons c cs ih =>
    intro E ev
    unfold reflEnergies
    simp only
    split
    · exact ⟨rfl, rfl, rfl, rfl, rfl⟩
    · obtain ⟨h1, h2, h3, h4, h5⟩ := ih (reflPolar c.e D.density c.scatf c.amu norm dir E ev).2.2 (reflPolar c.e D.density c.scatf c.amu norm dir E ev).2.1
      exact ⟨by simp only [h1], h2, h3, by simp only [h4], h5⟩

theorem reflEnergies_leakFlag_off (D : Descr ℝ) (norm dir : V3 ℝ) (alfa : ℝ) (d : ℝ) : ∀ (cs : List (Chan ℝ)) (E ev : V3 ℝ),
    (reflEnergies D norm dir alfa false d cs E ev).leakFlag = false := by
  intro cs
  induction cs with
  | nil => intro E ev; rfl
  | cons c cs ih =>
    intro E ev
    unfold reflEnergies
    simp only
    split
    · rfl
    · simp [ih]

/-- the leak part of a reflection only appends leak records, or ends with -2 -/
theorem reflectLeak_bare (D : Descr ℝ) (tr) (P : Photon ℝ) (w : Wall ℝ) (wl : List ℝ) (iesc c : Int) (P' : Photon ℝ)
    (h : reflectLeak D tr P w wl iesc = .ok (c, P')) (hc : c ≠ -2) : c = iesc ∧ bare P' = bare P := by
  unfold reflectLeak at h
  simp only at h
  split at h
  · injection h with h; injection h with h1 h2; subst h1 h2; exact ⟨rfl, rfl⟩
  split at h
  · injection h with h; injection h with h1 h2; subst h1 h2; exact ⟨rfl, rfl⟩
  split at h
  · split at h
    · simp at h
    · rw [Out.bind_eq_ok] at h
      obtain ⟨x, -, h⟩ := h
      split at h
      · injection h with h; injection h with h1 h2; exact absurd h1.symm hc
      · injection h with h; injection h with h1 h2; subst h1 h2
        refine ⟨rfl, ?_⟩
        unfold recordTemp
        simp only
        split
        · split
          · rfl
          · split <;> rfl
        · rfl
  · injection h with h; injection h with h1 h2; subst h1 h2; exact ⟨rfl, rfl⟩

/-- a reflection without leaks returns what the one with leaks returns, unless that fails -/
theorem reflect_off (D : Descr ℝ) (fuel k fuel' k' : Nat) (n : V3 ℝ) (P : Photon ℝ) (hd : dot P.exitD P.exitD ≠ 0) (c : Int) (P' : Photon ℝ)
    (h : reflect D true fuel k n P = .ok (c, P')) (hc : c ≠ -1) (hc2 : c ≠ -2) :
    reflect D false fuel' (k' + 1) n (bare P) = .ok (c, bare P') := by
  cases k with
  | zero => simp [reflect] at h
  | succ k =>
    have hv : vnorm (vnorm P.exitD) = vnorm P.exitD := (dot_pos_of_ne hd).2
    rw [show reflect D false fuel' (k' + 1) n (bare P) = (if (scalar (vnorm P.exitD) (vnorm n) <. lit 0) = true then
        .ok (-1, { bare P with exitD := vnorm P.exitD }) else
        reflectRest D false (fun q r ix T => capilTrace D (reflect D false fuel' k') (capxOf D q r) (capyOf D q r) ix T) (vnorm n)
          (scalar (vnorm P.exitD) (vnorm n)) { bare P with exitD := vnorm P.exitD } ⟨0, lit 0, 0, 0⟩) from rfl]
    unfold reflect reflectBody at h
    simp only at h
    split at h
    · injection h with h; injection h with h1 h2; exact absurd h1.symm hc
    rename_i ha
    rw [if_neg ha]
    rw [Out.bind_eq_ok] at h
    obtain ⟨w, hw, h⟩ := h
    unfold reflectRest at h ⊢
    split at h
    · injection h with h; injection h with h1 h2; exact absurd h1.symm hc
    rw [if_neg (by simp)]
    simp only [renorm, if_true, hv] at h
    split at h
    · simp at h
    rename_i hco
    obtain ⟨e1, e2, e3, e4, e5⟩ := reflEnergies_leak D (vnorm n) (vnorm P.exitD) (scalar (vnorm P.exitD) (vnorm n)) true false w.d (lit 0) P.chans P.exitE P.exitE
    have hfl := reflEnergies_leakFlag_off D (vnorm n) (vnorm P.exitD) (scalar (vnorm P.exitD) (vnorm n)) (lit 0) P.chans P.exitE P.exitE
    split at h
    · injection h with h; injection h with h1 h2; exact absurd h1.symm hc
    rename_i hok
    rw [e5] at hok
    refine Eq.trans (if_neg hco) (Eq.trans (if_neg hok) (Eq.trans (if_neg (by exact ne_true_of_eq_false hfl)) ?_))
    split at h
    · obtain ⟨f1, f2⟩ := reflectLeak_bare _ _ _ _ _ _ _ _ h hc2
      rw [f1, f2]
      simp only [e4, e1, e3]
      rfl
    · injection h with h; injection h with h1 h2; subst h1 h2
      simp only [e4, e1, e3]
      rfl

/-- the same for one tracing call -/
theorem trace_off (D : Descr ℝ) (fuel k fuel' k' : Nat) (capx capy : Nat → ℝ) (ix : Nat) (P : Photon ℝ) (hd : dot P.exitD P.exitD ≠ 0)
    (c : Int) (ix' : Nat) (P' : Photon ℝ) (h : trace D true fuel k capx capy ix P = .ok (c, ix', P')) (hc : c ≠ -1) :
    trace D false fuel' (k' + 1) capx capy ix (bare P) = .ok (c, ix', bare P') := by
  have hd' : dot (vnorm P.exitD) (vnorm P.exitD) ≠ 0 := by rw [vnorm_dot _ hd]; norm_num
  unfold trace capilTrace at h ⊢
  simp only at h ⊢
  have e := traceSearch_bare D capx capy { P with exitD := vnorm P.exitD, startD := vnorm P.startD } (D.prof.nmax - ix) ix P.exitC ⟨lit 0, lit 0, lit 0⟩
  have e' : traceSearch D capx capy { bare P with exitD := vnorm (bare P).exitD, startD := vnorm (bare P).startD } (D.prof.nmax - ix) ix (bare P).exitC ⟨lit 0, lit 0, lit 0⟩ =
    traceSearch D capx capy { P with exitD := vnorm P.exitD, startD := vnorm P.startD } (D.prof.nmax - ix) ix P.exitC ⟨lit 0, lit 0, lit 0⟩ := e
  rw [e']
  cases hs : traceSearch D capx capy { P with exitD := vnorm P.exitD, startD := vnorm P.startD } (D.prof.nmax - ix) ix P.exitC ⟨lit 0, lit 0, lit 0⟩ with
  | ret code =>
    rw [hs] at h
    injection h with h; injection h with h1 h; injection h with h2 h3; subst h1 h2 h3
    rfl
  | miss =>
    rw [hs] at h
    injection h with h; injection h with h1 h; injection h with h2 h3; subst h1 h2 h3
    rfl
  | hit i v n ca =>
    rw [hs] at h
    simp only at h ⊢
    unfold traceHit at h ⊢
    simp only at h ⊢
    split at h
    · injection h with h; injection h with h1 h; exact absurd h1.symm hc
    rename_i q1
    rw [if_neg q1]
    split at h
    · simp at h
    rename_i q2
    rw [if_neg q2]
    split at h
    · injection h with h; injection h with h1 h; injection h with h2 h3; subst h1 h2 h3
      rename_i q3
      rw [if_pos q3]; rfl
    rename_i q3
    rw [if_neg q3]
    split at h
    · injection h with h; injection h with h1 h; injection h with h2 h3; subst h1 h2 h3
      rename_i q4
      rw [if_pos q4]; rfl
    rename_i q4
    rw [if_neg q4]
    rw [Out.bind_eq_ok] at h
    obtain ⟨⟨c1, P1⟩, hr, h⟩ := h
    injection h with h
    have hcc : c1 ≠ -1 ∧ c1 ≠ -2 ∧ (c1 = 1 ∨ c1 = c) := by
      unfold afterReflect at h
      split at h
      · rename_i q; simp at q; omega
      · split at h
        · injection h with h1 h; exact absurd h1.symm hc
        · injection h with h1 h; omega
    have := reflect_off D fuel k fuel' k' n _ hd' c1 P1 hr hcc.1 hcc.2.1
    have hx : reflect D false fuel' (k' + 1) n { bare P with exitD := vnorm (bare P).exitD, startD := vnorm (bare P).startD, d_travel := (bare P).d_travel +. dist3 v (bare P).exitC, exitC := v } = .ok (c1, bare P1) := this
    rw [hx, Out.bind_ok]
    unfold afterReflect at h ⊢
    simp only at h ⊢
    split at h
    · rename_i q
      rw [if_pos q]
      injection h with h1 h; injection h with h2 h3; subst h1 h2 h3
      rfl
    · rename_i q
      rw [if_neg q]
      split at h
      · injection h with h1 h; exact absurd h1.symm hc
      · rename_i q'
        rw [if_neg q']
        injection h with h1 h; injection h with h2 h3; subst h1 h2 h3
        rfl

theorem traceLoop_off (D : Descr ℝ) (fuel k fuel' k' : Nat) (capx capy : Nat → ℝ) :
    ∀ (m : Nat) (iesc : Int) (ix : Nat) (P : Photon ℝ) (c : Int) (ix' : Nat) (P' : Photon ℝ),
      dot P.exitD P.exitD = 1 → traceLoop (trace D true fuel k capx capy) m iesc ix P = .ok (c, ix', P') → c ≠ -1 →
      traceLoop (trace D false fuel' (k' + 1) capx capy) m iesc ix (bare P) = .ok (c, ix', bare P') := by
  intro m
  induction m with
  | zero =>
    intro iesc ix P c ix' P' _ h _
    simp only [traceLoop] at h ⊢
    injection h with h; injection h with h1 h; injection h with h2 h3; subst h1 h2 h3
    rfl
  | succ m ih =>
    intro iesc ix P c ix' P' hu h hc
    unfold traceLoop at h ⊢
    rw [Out.bind_eq_ok] at h
    obtain ⟨⟨c1, ix1, P1⟩, ht, h⟩ := h
    simp only at h
    by_cases hc1 : c1 = 1
    · rw [if_neg (by simp [hc1])] at h
      have h1 : dot P1.exitD P1.exitD = 1 := by
        rcases (trace_moved D true fuel k capx capy ix P (by rw [hu]; norm_num) c1 ix1 P1 ht).flight hu with ⟨-, -, -, -, e⟩ | ⟨n, i, -, -, ⟨e, -⟩ | ⟨-, e, -⟩⟩
        · exact absurd hc1 e
        · exact absurd hc1 e
        · exact e
      rw [trace_off D fuel k fuel' k' capx capy ix P (by rw [hu]; norm_num) c1 ix1 P1 ht (by omega), Out.bind_ok]
      simp only
      rw [if_neg (by simp [hc1])]
      exact ih _ _ _ _ _ _ h1 h hc
    · rw [if_pos hc1] at h
      injection h with h; injection h with h1 h; injection h with h2 h3; subst h1 h2 h3
      rw [trace_off D fuel k fuel' k' capx capy ix P (by rw [hu]; norm_num) _ _ _ ht hc, Out.bind_ok]
      simp only
      rw [if_pos hc1]

/-- **C85.** A photon launched in a capillary with leak calculation that is transmitted or absorbed: without leak calculation the launch returns
the same code and the same weights, and leaves the same photon – but for the leak records. -/
theorem launch_leak_invisible_partial (lib : Xray ℝ) (D : Descr ℝ) (fuel k fuel' k' : Nat) (P : Photon ℝ) (es : List ℝ)
    (hes : es ≠ []) (hb : ∀ e ∈ es, 1 ≤ e ∧ e ≤ 100) (hd : dot P.startD P.startD ≠ 0)
    (c : Int) (ws : List ℝ) (P' : Photon ℝ)
    (h : launch lib (some D) true fuel k (some P) (some es) true = .ok (c, .filled ws, some P')) (hc : c ≠ -1) :
    launch lib (some D) false fuel' (k' + 1) (some P) (some es) true = .ok (c, .filled ws, some (bare P')) := by
  have h1 := vnorm_dot _ hd
  have hdir : (launchInit lib D es P).exitD = vnorm P.startD := by
    show vnorm (vnorm P.startD) = _
    exact vnorm_unit _ h1
  obtain ⟨D', P'', es', e1, e2, e3, -, -, -, hl⟩ := launch_valid lib (some D) true fuel k (some P) (some es) true (not_argsBad hes hb)
  injection e1 with e1; injection e2 with e2; injection e3 with e3; subst e1 e2 e3
  obtain ⟨D', P'', es', e1, e2, e3, -, -, -, hl'⟩ := launch_valid lib (some D) false fuel' (k' + 1) (some P) (some es) true (not_argsBad hes hb)
  injection e1 with e1; injection e2 with e2; injection e3 with e3; subst e1 e2 e3
  rw [hl, Out.bind_eq_ok] at h
  rw [hl']
  obtain ⟨⟨c0, o0, P0⟩, h, h'⟩ := h
  injection h' with h'; injection h' with a h'; injection h' with b h'; injection h' with h'
  simp only at a b h'
  subst a b h'
  suffices launchBody lib D false fuel' (k' + 1) P es = .ok (c0, .filled ws, bare P0) by rw [this, Out.bind_ok]
  unfold launchBody at h ⊢
  simp only at h ⊢
  split at h
  · simp at h
  rename_i qr hq
  split at h
  · exfalso
    split at h
    · rw [Out.bind_eq_ok] at h
      obtain ⟨x, -, h⟩ := h
      simp at h
    · split at h
      · rw [Out.bind_eq_ok] at h
        obtain ⟨x, -, h⟩ := h
        have := launchWall_codes _ _ _ _ _ _ _ _ _ h
        simp at this
      · simp at h
  · rename_i hw
    rw [if_neg hw]
    unfold launchInside at h ⊢
    simp only at h ⊢
    rw [Out.bind_eq_ok] at h
    obtain ⟨⟨c1, ix1, P1⟩, ht, h⟩ := h
    simp only at h
    injection h with h; injection h with a h; injection h with b h
    have hc1 : c1 ≠ -1 := by
      intro hh
      rw [if_pos (Or.inl hh)] at a
      exact hc a.symm
    have := traceLoop_off D fuel k fuel' k' _ _ _ _ _ _ _ _ _ (by rw [hdir]; exact h1) ht hc1
    have e : bare (launchInit lib D es P) = launchInit lib D es P := rfl
    rw [e] at this
    rw [this, Out.bind_ok]
    simp only [a]
    subst h
    rw [← b]
    rfl

/-! ## An example, and where it fails -/

namespace WideTube

/-- a tube with a thick wall (the outer radius is ten times the inner one) and a roughness of 5 -/
noncomputable def wProf : Profile ℝ := ⟨1, fun i => 3 * i, fun _ => zR, fun _ => 10000 / 999999⟩
noncomputable def wD : Descr ℝ := ⟨5, 1, [14], [1], 223/100, wProf⟩
theorem wGrid : Grid wProf := ⟨le_refl _, by simp [wProf], by intro i hi; simp [wProf]⟩
theorem wX (i : Nat) : axX wD (0, 0) i = 0 := by
  rw [axX_eq wD (by simp [wD]) (0, 0) i]; simp [centreX]
theorem wY (i : Nat) : axY wD (0, 0) i = 0 := by
  rw [axY_eq wD (by simp [wD]) (0, 0) i]; simp [centreY]

theorem w_scatf : scatfRejects wD [10] = false := by
  rw [scatf_accepts_iff]
  simp [wD]
  norm_num

theorem w_chan (P : Photon ℝ) : (launchInit zLib wD [10] P).chans = [⟨10, 1, 0, 1/2⟩] ∧ (launchInit zLib wD [10] P).coef = true := by
  constructor
  · simp [launchInit, amuOf, scatfOf, wD, zLib]
    norm_num
  · show (!scatfRejects wD [10]) = true
    rw [w_scatf]; rfl

/-- the search along the tube -/
theorem w_search {e z0 : ℝ} (he : e ^ 2 = 1) (P : Photon ℝ) (hD : P.exitD = ⟨e * zs, 0, zc⟩)
    (hC : P.exitC = ⟨e * (zR / (1/2)) * (P.exitC.z - z0), 0, P.exitC.z⟩)
    (hb : z0 - 1/2 < P.exitC.z + 1 / 10 ^ 5) (ha : P.exitC.z + 1 / 10 ^ 5 ≤ z0 + 1/2) (h3 : z0 + 1/2 ≤ 3) (h0 : 1 / 10 ^ 10 ≤ z0 + 1/2) (nrm : V3 ℝ) :
    traceSearch wD (axX wD (0, 0)) (axY wD (0, 0)) P 1 0 P.exitC nrm = .hit 0 ⟨e * zR, 0, z0 + 1/2⟩ ⟨e, 0, 0⟩ zs := by
  have e2 : ((2:ℚ):ℝ) = 2 := by norm_num
  have e0 : ((0:ℚ):ℝ) = 0 := by norm_num
  have hbd : withinPcBoundary (10000/999999 : ℝ) 0 0 = 1 := boundary_axis (by norm_num)
  have hg : ∀ i, atGrid wD.prof P.exitC P.exitD i = ⟨e * (zR / (1/2)) * (3 * i - z0), 0, 3 * i⟩ := by
    intro i
    rw [atGrid_eq, hD, hC]
    have : wD.prof.z i = 3 * i := rfl
    simp only [this]
    congr 1
    · norm_num [zs, zc, zR]; ring
    · simp
  have hseg := cyl_segment (L := 3) (r := zR) (h := 1/2) (z0 := z0) (s := zs) (c := zc) (e := e) (cur := P.exitC) (nrm := nrm)
    (p0 := ⟨e * (zR / (1/2)) * (0 - z0), 0, 0⟩) (p1 := ⟨e * (zR / (1/2)) * (3 - z0), 0, 3⟩) (by norm_num [zR]) (by norm_num) (by norm_num)
    (by norm_num [zs]) (by norm_num [zc]) (by norm_num [zs, zc, zR]) zUnit he rfl rfl hb ha h3 h0
  have hg0 := hg 0
  have hg1 := hg (0 + 1)
  simp only [Nat.cast_zero, mul_zero, zero_add, Nat.cast_one, mul_one] at hg0 hg1
  have hsc : scalar (⟨e, 0, 0⟩ : V3 ℝ) ⟨e * zs, 0, zc⟩ = zs := by
    rw [scalar_real]; unfold dot; simp only; linear_combination zs * he
  have hgate : ((acos zs : ℝ) >. mpi /. lit 2 || (acos zs : ℝ) <. lit 0) = false := by
    simp only [real_acos, real_div, real_lit, e2, e0, gt, real_lt, Bool.or_eq_false_iff, decide_eq_false_iff_not, not_lt]
    refine ⟨?_, Real.arccos_nonneg _⟩
    rw [Real.arccos_eq_pi_div_two_sub_arcsin]
    have hm : Real.pi / 2 - (mpi:ℝ) / 2 ≤ zs := by
      have := Real.pi_lt_d20
      simp only [mpi, real_lit, zs]
      norm_num at this ⊢
      linarith
    have hz1 : zs ≤ Real.arcsin zs := by
      have h1 := Real.sin_arcsin (x := zs) (by norm_num [zs]) (by norm_num [zs])
      calc zs = Real.sin (Real.arcsin zs) := h1.symm
        _ ≤ Real.arcsin zs := Real.sin_le (Real.arcsin_nonneg.mpr (by norm_num [zs]))
    linarith
  have hrad : (sqrt ((e * zR) *. (e * zR) +. (0:ℝ) *. 0) >=. interp (wD.prof.z (0 + 1)) (wD.prof.z 0) (wD.prof.ext (0 + 1)) (wD.prof.ext 0) (z0 + 1/2)) = false := by
    have : interp (wD.prof.z (0 + 1)) (wD.prof.z 0) (wD.prof.ext (0 + 1)) (wD.prof.ext 0) (z0 + 1/2) = 10000/999999 := by
      rw [linAt_interp]; simp [linAt, wD, wProf]
    rw [this]
    simp only [real_sqrt, real_mul, real_add, ge, real_le, decide_eq_false_iff_not, not_le]
    rw [show e * zR * (e * zR) + 0 * 0 = e ^ 2 * zR ^ 2 by ring, he, one_mul, Real.sqrt_sq (by norm_num [zR])]
    norm_num [zR]
  have hns : nShells (α := ℝ) wD.n_cap = 0 := nShells_one
  unfold traceSearch
  simp only [wX, wY]
  rw [show wD.prof.ext 0 = 10000/999999 from rfl, show wD.prof.ext (0 + 1) = 10000/999999 from rfl, hbd, if_neg (by decide)]
  rw [show wD.prof.ext 0 = 10000/999999 from rfl, show wD.prof.ext (0 + 1) = 10000/999999 from rfl] at hrad
  have hz0 : wD.prof.z 0 = 0 := by simp [wD, wProf]
  have hz1 : wD.prof.z (0 + 1) = 3 := by simp [wD, wProf]
  rw [hz0, hz1] at hrad ⊢
  rw [hg0, hg1, show wD.prof.cap 0 = zR from rfl, show wD.prof.cap (0 + 1) = zR from rfl, hD, hseg]
  simp only [hsc, hgate, Bool.false_eq_true, if_false, if_true, hns, hrad]

theorem w_cap {t : ℝ} (h0 : 0 ≤ t) (h3 : t ≤ 3) : launchCap wD ⟨0, 0, t⟩ = some (0, 0) := by
  have hv : launchExt wD.prof t = 10000/999999 :=
    (launchExt_value (p := wD.prof) wGrid h0 (by simpa [wD, wProf] using h3)).unique (p := wD.prof) wGrid
      ⟨0, by simp [wD, wProf], by simpa [wD, wProf] using h0, by simpa [wD, wProf] using h3, by simp [wD, wProf, linAt]⟩
  have hN : ¬ launchCap wD ⟨0, 0, t⟩ = none := by
    rw [launchCap_none (by simp [wD]) (by simp only [hv]; norm_num)]
    rw [hv]
    simp only [Outside, wD, show ((1:ℤ) ≤ 3) from by norm_num, if_true, not_lt]
    norm_num
  obtain ⟨qr, hq⟩ := Option.ne_none_iff_exists'.mp hN
  rcases launchCap_some hq with ⟨-, h⟩ | ⟨h, -⟩
  · rw [hq, h]
  · exact absurd nShells_one h

theorem w_open {t : ℝ} (h0 : 0 ≤ t) (h3 : t ≤ 3) : startsInWall wD (0, 0) ⟨0, 0, t⟩ = false := by
  rw [← Bool.not_eq_true, startsInWall_iff (D := wD) wGrid (by simp [wD]) (c := ⟨0, 0, t⟩) h0 (by simpa [wD, wProf] using h3) (R := 10000/999999) (rad := zR)
    ⟨0, by simp [wD, wProf], by simpa [wD, wProf] using h0, by simpa [wD, wProf] using h3, by simp [wD, wProf, linAt]⟩
    ⟨0, by simp [wD, wProf], by simpa [wD, wProf] using h0, by simpa [wD, wProf] using h3, by simp [wD, wProf, linAt]⟩ (w_cap h0 h3)]
  simp only [InGlass, wD, show ((1:ℤ) ≤ 3) from by norm_num, if_true, not_lt]
  norm_num [zR]


/-- the roughness factor of one reflection -/
noncomputable def ro : ℝ := roughFactor (5:ℝ) 10 zs

theorem ro_bounds : 98/100 ≤ ro ∧ ro ≤ 999/1000 := by
  have e1 : ro = Real.exp (-((101358/10^5 * 10 * zs * 5) * (101358/10^5 * 10 * zs * 5))) := by
    unfold ro roughFactor
    simp only [real_lit, real_mul, real_exp]
    congr 1
    push_cast; ring
  have hx : (101358/10^5 * 10 * zs * 5 : ℝ) * (101358/10^5 * 10 * zs * 5) = 101358 ^ 2 / 1000001 ^ 2 := by
    unfold zs; norm_num
  rw [e1, hx]
  constructor
  · have := Real.add_one_le_exp (-(101358 ^ 2 / 1000001 ^ 2 : ℝ))
    refine le_trans ?_ this
    norm_num
  · rw [Real.exp_neg]
    have := Real.add_one_le_exp ((101358 ^ 2 / 1000001 ^ 2 : ℝ))
    rw [inv_le_comm₀ (Real.exp_pos _) (by norm_num)]
    refine le_trans ?_ this
    norm_num

/-- beyond the point where it met the wall, the line does not meet it again -/
theorem cyl_miss {L r h z0 s c e : ℝ} {cur nrm p0 p1 : V3 ℝ} (hr : 0 < r) (hh : 0 < h) (hs : 0 < s) (hc : 0 < c)
    (hk : s / c = r / h) (he : e ^ 2 = 1)
    (hp0 : p0 = ⟨e * (r / h) * (0 - z0), 0, 0⟩) (hcur : z0 + h ≤ cur.z) :
    (segment ⟨0, 0, 0⟩ ⟨0, 0, L⟩ r r p0 p1 ⟨e * s, 0, c⟩ cur nrm).1 ≠ 1 := by
  subst hp0
  have hgen : genCoeff ⟨0, 0, 0⟩ ⟨0, 0, L⟩ r r ⟨e * s, 0, c⟩ ≠ 0 := by
    unfold genCoeff
    simp only [sub_self, zero_div, sub_zero]
    have : (e * s / c) ^ 2 = (s / c) ^ 2 := by
      rw [mul_div_assoc, mul_pow, he, one_mul]
    rw [this]
    have : 0 < (s / c) ^ 2 := by positivity
    simp only [ne_eq, OfNat.ofNat_ne_zero, not_false_eq_true, zero_pow, add_zero, sub_zero]
    exact this.ne'
  have hx : ∀ z, e * (r / h) * (0 - z0) + z / c * (e * s) = e * (r / h) * (z - z0) := by
    intro z; rw [← hk]; field_simp; ring
  have hwall : ∀ z, OnWall ⟨0, 0, 0⟩ ⟨0, 0, L⟩ r r (lineAt ⟨e * (r / h) * (0 - z0), 0, 0⟩ ⟨e * s, 0, c⟩ z) → z ≤ z0 + h := by
    intro z hw
    simp only [OnWall, lineAt, linAt, sub_zero] at hw
    rw [hx] at hw
    simp only [sub_self, zero_mul, add_zero, sub_zero, mul_zero, ne_eq, OfNat.ofNat_ne_zero, not_false_eq_true, zero_pow] at hw
    have e1 : (e * (r / h) * (z - z0)) ^ 2 = (r / h) ^ 2 * (z - z0) ^ 2 := by
      rw [mul_pow, mul_pow, he, one_mul]
    rw [e1] at hw
    have : (z - z0) ^ 2 = h ^ 2 := by
      field_simp at hw; nlinarith
    rcases sq_eq_sq_iff_eq_or_eq_neg.mp this with h' | h' <;> linarith
  intro h1
  generalize hres : segment ⟨0, 0, 0⟩ ⟨0, 0, L⟩ r r ⟨e * (r / h) * (0 - z0), 0, 0⟩ p1 ⟨e * s, 0, c⟩ cur nrm = res at h1
  obtain ⟨code, v, n⟩ := res
  simp only at h1
  subst h1
  obtain ⟨l, -, -, -, l4, w, -⟩ := segment_sound _ _ _ _ _ _ _ _ _ _ _ hc hgen hres
  rw [l] at w
  have := hwall _ w
  linarith

theorem w_at {e z0 : ℝ} (P : Photon ℝ) (hD : P.exitD = ⟨e * zs, 0, zc⟩)
    (hC : P.exitC = ⟨e * (zR / (1/2)) * (P.exitC.z - z0), 0, P.exitC.z⟩) (i : Nat) :
    atGrid wProf P.exitC P.exitD i = ⟨e * (zR / (1/2)) * (3 * i - z0), 0, 3 * i⟩ := by
  rw [atGrid_eq, hD, hC]
  have : wProf.z i = 3 * i := rfl
  simp only [this]
  congr 1
  · norm_num [zs, zc, zR]; ring
  · simp

theorem boundary_line {x : ℝ} (h : |x| ≤ 9/1000) : withinPcBoundary (10000/999999 : ℝ) x 0 = 1 := by
  rw [boundary_one_iff]
  have h3 : (1732/1000 : ℝ) ≤ Real.sqrt 3 := by
    rw [Real.le_sqrt (by norm_num)] <;> norm_num
  have hc : (0:ℝ) ≤ (cospi6 : ℝ) ∧ (cospi6 : ℝ) ≤ 88/100 := by
    simp only [cospi6, real_lit]; norm_num
  have hk : |(cospi6 : ℝ) * x| ≤ 8/1000 := by
    rw [abs_mul, abs_of_nonneg hc.1]
    calc (cospi6 : ℝ) * |x| ≤ 88/100 * (9/1000) := mul_le_mul hc.2 h (abs_nonneg _) (by norm_num)
      _ ≤ 8/1000 := by norm_num
  have hd : (8/1000 : ℝ) ≤ Real.sqrt 3 / 2 * (10000/999999) := by linarith
  refine ⟨by norm_num, ?_, ?_, ?_⟩
  · simp only [abs_zero]; linarith
  · simp only [zero_div, add_zero]; linarith
  · simp only [zero_div, sub_zero]; linarith

/-- the wall tracing after a hit before the exit window: the photon leaves through the window -/
theorem w_wall {e z0 : ℝ} (he : e ^ 2 = 1) (fuel : Nat) (P : Photon ℝ) (hD : P.exitD = ⟨e * zs, 0, zc⟩)
    (hC : P.exitC = ⟨e * zR, 0, z0 + 1/2⟩) (h0 : 0 ≤ z0) (h3 : z0 + 1/2 < 3) :
    ∃ d, traceWall wD fuel P.exitC P.exitD = .ok ⟨2, d, 0, 0⟩ := by
  have hC' : P.exitC = ⟨e * (zR / (1/2)) * (P.exitC.z - z0), 0, P.exitC.z⟩ := by
    rw [hC]; simp only [V3.mk.injEq, and_true]; ring
  have hns : nShells (α := ℝ) wD.n_cap = 0 := nShells_one
  have hab : |e| = 1 := by rw [← sq_abs] at he; nlinarith [abs_nonneg e]
  have ht := w_at P hD hC'
  have hcz : P.exitC.z = z0 + 1/2 := by rw [hC]
  have hcx : P.exitC.x = e * zR := by rw [hC]
  have hcy : P.exitC.y = 0 := by rw [hC]
  have h0' := ht 0
  have h1' := ht (0 + 1)
  simp only [Nat.cast_zero, mul_zero, zero_add, Nat.cast_one, mul_one] at h0' h1'
  have hz : (P.exitC.z >=. wD.prof.z wD.prof.nmax) = false := by
    rw [hcz]
    simp only [wD, wProf, ge, real_le, Nat.cast_one, mul_one, decide_eq_false_iff_not, not_le]; exact h3
  have hid : segIdFrom wD.prof.z 0 P.exitC.z wD.prof.nmax = 0 := segId_zero wD.prof.z 0 P.exitC.z 0 (by
    rw [hcz]; simp only [wD, wProf, Nat.cast_zero, mul_zero]; linarith) (by intro i a b; omega)
  have hext : wallExt wD.prof 0 P.exitC.z = 10000/999999 := by
    unfold wallExt
    split
    · unfold interpAt; rw [linAt_interp]; simp [linAt, wD, wProf]
    · rfl
  have hrad : (sqrt (P.exitC.x *. P.exitC.x +. P.exitC.y *. P.exitC.y) >. (10000/999999:ℝ)) = false := by
    rw [hcx, hcy]
    simp only [real_sqrt, real_mul, real_add, gt, real_lt, decide_eq_false_iff_not, not_lt]
    rw [show e * zR * (e * zR) + 0 * 0 = e ^ 2 * zR ^ 2 by ring, he, one_mul, Real.sqrt_sq (by norm_num [zR])]
    norm_num [zR]
  have hseg := cyl_miss (L := 3) (r := zR) (h := 1/2) (z0 := z0) (s := zs) (c := zc) (e := e) (cur := P.exitC) (nrm := ⟨lit 0, lit 0, lit 0⟩)
    (p0 := ⟨e * (zR / (1/2)) * (0 - z0), 0, 0⟩) (p1 := ⟨e * (zR / (1/2)) * (3 - z0), 0, 3⟩) (by norm_num [zR]) (by norm_num)
    (by norm_num [zs]) (by norm_num [zc]) (by norm_num [zs, zc, zR]) he rfl (by rw [hcz])
  have hax : axisAt wD.prof 0 0 0 0 = ⟨0, 0, 0⟩ ∧ axisAt wD.prof 0 0 0 (0 + 1) = (⟨0, 0, 3⟩ : V3 ℝ) := by
    simp [axisAt, wD, wProf]
  have hws : (wallSegs wD.prof 0 0 0 P.exitC P.exitD 0 0 P.exitC).1 ≠ 1 := by
    unfold wallSegs
    simp only [hax.1, hax.2]
    rw [show wD.prof = wProf from rfl, h0', h1', hD, show wProf.cap 0 = zR from rfl, show wProf.cap (0 + 1) = zR from rfl]
    rw [if_neg hseg]
    exact hseg
  have hbd : withinPcBoundary (wD.prof.ext wD.prof.nmax) (atGrid wD.prof P.exitC P.exitD wD.prof.nmax).x (atGrid wD.prof P.exitC P.exitD wD.prof.nmax).y = 1 := by
    rw [show wD.prof = wProf from rfl, ht, show wProf.ext wProf.nmax = 10000/999999 from rfl]
    apply boundary_line
    rw [abs_mul, abs_mul, hab, one_mul, show wProf.nmax = 1 from rfl, abs_of_nonneg (by norm_num [zR])]
    have : |3 * ((1:ℕ):ℝ) - z0| ≤ 3 := by
      rw [abs_le]; constructor <;> push_cast <;> linarith
    calc zR / (1/2) * |3 * ((1:ℕ):ℝ) - z0| ≤ zR / (1/2) * 3 := mul_le_mul_of_nonneg_left this (by norm_num [zR])
      _ ≤ 9/1000 := by norm_num [zR]
  unfold traceWall
  simp only [hz, hid, hns, hext, hrad, Bool.false_eq_true, if_false, if_true]
  rw [show wD.prof.nmax - 1 - (0 + 1) = 0 from rfl]
  unfold wallEnd
  rw [if_pos hws]
  unfold wallExit
  simp only
  rw [if_neg (by rw [hbd]; decide)]
  exact ⟨_, rfl⟩


/-- a reflection in the tube: the mirrored weight; with leak calculation, one more record of a photon that leaves through the exit window -/
theorem w_reflect (leak : Bool) (fuel k : Nat) {e z0 wt : ℝ} (he : e ^ 2 = 1) (P : Photon ℝ) (hD : P.exitD = ⟨e * zs, 0, zc⟩)
    (hC : P.exitC = ⟨e * zR, 0, z0 + 1/2⟩) (h0 : 0 ≤ z0) (h3 : leak = true → z0 + 1/2 < 3) (hw : 1/2 ≤ wt)
    (hch : P.chans = [⟨10, wt, 0, 1/2⟩]) (hco : P.coef = true) :
    ∃ E' I, reflect wD leak fuel (k + 1) ⟨e, 0, 0⟩ P = .ok (1, { P with exitE := E', chans := [⟨10, wt * ro, 0, 1/2⟩], int := P.int ++ I }) ∧
      I.length = if leak then 1 else 0 := by
  have e0 : ((0:ℚ):ℝ) = 0 := by norm_num
  have e1 : ((1:ℚ):ℝ) = 1 := by norm_num
  have e4 : ((1/10^4:ℚ):ℝ) = 1/10^4 := by norm_num
  obtain ⟨ra, rb⟩ := ro_bounds
  have hu : vnorm (⟨e * zs, 0, zc⟩ : V3 ℝ) = ⟨e * zs, 0, zc⟩ := vnorm_unit _ (by unfold dot; nlinarith [zUnit])
  have hn : vnorm (⟨e, 0, 0⟩ : V3 ℝ) = ⟨e, 0, 0⟩ := vnorm_unit _ (by unfold dot; nlinarith)
  have hsc : scalar (⟨e * zs, 0, zc⟩ : V3 ℝ) ⟨e, 0, 0⟩ = zs := by
    rw [scalar_real]; unfold dot; simp only; linear_combination zs * he
  have hneg : ((zs : ℝ) <. lit 0) = false := by
    simp only [real_lt, real_lit, e0, decide_eq_false_iff_not]; norm_num [zs]
  have hx := z_polar e he P.exitE P.exitE
  have hcoef : (!P.coef && !P.chans.isEmpty) = false := by rw [hco]; rfl
  have hz : wD.density = 223/100 := rfl
  have hg : wD.sig_rough = 5 := rfl
  have hrough : roughFactor (5:ℝ) 10 zs = ro := rfl
  have hr1 : ((1:ℝ) <. lit 0 || (1:ℝ) >. lit 1) = false := by
    simp only [gt, real_lt, real_lit, e0, e1]; norm_num
  have h4 : ((wt * ro) >=. lit (1/10^4)) = true := by
    simp only [ge, real_le, real_lit, e4, decide_eq_true_eq]
    nlinarith
  cases leak with
  | false =>
    refine ⟨(reflPolar (10:ℝ) (223/100) (1/2) 0 ⟨e, 0, 0⟩ ⟨e * zs, 0, zc⟩ P.exitE P.exitE).2.1, [], ?_, rfl⟩
    unfold reflect reflectBody
    simp only [hD, hu, hn, hsc, hneg, Bool.false_eq_true, if_false, wallOf, renorm, Out.bind_ok]
    unfold reflectRest
    rw [if_neg (by simp)]
    rw [if_neg (by simpa using hcoef)]
    simp only [hch, reflEnergies]
    simp only [hz, hg, hx, hr1, hrough, Bool.false_eq_true, if_false, real_mul, mul_one, Bool.false_and, Bool.or_false]
    simp only [h4, Bool.not_true, Bool.false_eq_true, if_false, if_true, List.append_nil]
  | true =>
    obtain ⟨d, hwl⟩ := w_wall he fuel P hD hC h0 (h3 rfl)
    rw [hD] at hwl
    have hlk : (leakWeight (1:ℝ) ro wt d 0 >=. lit (1/10^4)) = true := by
      simp only [leakWeight, ge, real_le, real_lit, e1, e4, real_mul, real_sub, real_exp, mul_zero, Real.exp_zero, mul_one, one_mul, decide_eq_true_eq]
      nlinarith
    refine ⟨(reflPolar (10:ℝ) (223/100) (1/2) 0 ⟨e, 0, 0⟩ ⟨e * zs, 0, zc⟩ P.exitE P.exitE).2.1,
      [⟨along P.exitC ⟨e * zs, 0, zc⟩ d, ⟨e * zs, 0, zc⟩, (reflPolar (10:ℝ) (223/100) (1/2) 0 ⟨e, 0, 0⟩ ⟨e * zs, 0, zc⟩ P.exitE P.exitE).2.1, P.i_refl, [leakWeight 1 ro wt d 0]⟩], ?_, rfl⟩
    unfold reflect reflectBody
    simp only [hD, hu, hn, hsc, hneg, Bool.false_eq_true, if_false, wallOf, renorm, if_true, hwl, Out.bind_ok]
    unfold reflectRest
    rw [if_neg (by simp)]
    rw [if_neg (by simpa using hcoef)]
    simp only [hch, reflEnergies]
    simp only [hz, hg, hx, hr1, hrough, Bool.false_eq_true, if_false, real_mul, mul_one, Bool.true_and, Bool.or_false, hlk]
    simp only [h4, Bool.not_true, Bool.false_eq_true, if_false, if_true]
    unfold reflectLeak wallCode
    simp only [show ¬ ((2:ℤ) = 1) from by decide, show ¬ ((2:ℤ) = 3) from by decide, if_false, if_true]

/-- one call of the tracing function: the photon is at the wall, mirrored -/
theorem w_trace (leak : Bool) {e z0 wt : ℝ} (he : e ^ 2 = 1) (fuel k : Nat) (P : Photon ℝ) (hD : P.exitD = ⟨e * zs, 0, zc⟩)
    (hC : P.exitC = ⟨e * (zR / (1/2)) * (P.exitC.z - z0), 0, P.exitC.z⟩)
    (hb : z0 - 1/2 < P.exitC.z + 1 / 10 ^ 5) (ha : P.exitC.z + 1 / 10 ^ 5 ≤ z0 + 1/2) (h3 : z0 + 1/2 ≤ 3) (h0 : 0 ≤ z0)
    (h3' : leak = true → z0 + 1/2 < 3) (hw : 1/2 ≤ wt)
    (hch : P.chans = [⟨10, wt, 0, 1/2⟩]) (hco : P.coef = true) :
    ∃ E' I, trace wD leak fuel (k + 1) (axX wD (0, 0)) (axY wD (0, 0)) 0 P =
      .ok (1, 0, { P with exitC := ⟨e * zR, 0, z0 + 1/2⟩, exitD := ⟨(-e) * zs, 0, zc⟩, startD := vnorm P.startD, exitE := E', i_refl := P.i_refl + 1,
                          d_travel := P.d_travel + gap ⟨e * zR, 0, z0 + 1/2⟩ P.exitC, chans := [⟨10, wt * ro, 0, 1/2⟩], int := P.int ++ I }) ∧
      I.length = if leak then 1 else 0 := by
  have e1 : ((1:ℚ):ℝ) = 1 := by norm_num
  have e2 : ((2:ℚ):ℝ) = 2 := by norm_num
  have hu : vnorm (⟨e * zs, 0, zc⟩ : V3 ℝ) = ⟨e * zs, 0, zc⟩ := vnorm_unit _ (by unfold dot; nlinarith [zUnit])
  have hns : nShells (α := ℝ) wD.n_cap = 0 := nShells_one
  have hs := w_search he { P with exitD := ⟨e * zs, 0, zc⟩, startD := vnorm P.startD } rfl hC hb ha h3 (by linarith [show (1:ℝ) / 10 ^ 10 ≤ 1/2 by norm_num]) ⟨lit 0, lit 0, lit 0⟩
  obtain ⟨E', I, hr, hI⟩ := w_reflect leak fuel k he
    { P with exitD := ⟨e * zs, 0, zc⟩, startD := vnorm P.startD, d_travel := P.d_travel +. dist3 ⟨e * zR, 0, z0 + 1/2⟩ P.exitC, exitC := ⟨e * zR, 0, z0 + 1/2⟩ } rfl rfl h0 h3' hw hch hco
  have hix : segIdFrom wD.prof.z (0 + 1) (z0 + 1/2) 1 = 0 := segId_zero _ _ _ 0 (by
    simp only [wD, wProf, Nat.cast_zero, mul_zero]; linarith) (by intro i h1 h2; omega)
  refine ⟨E', I, ?_, hI⟩
  unfold trace capilTrace
  simp only [hD, hu]
  rw [show wD.prof.nmax - 0 = 1 from rfl, hs]
  simp only [traceHit]
  have hab : (fabs (zs:ℝ) >. lit 1) = false := by
    simp only [real_fabs, gt, real_lt, real_lit, e1, decide_eq_false_iff_not, not_lt]
    rw [abs_of_pos (by norm_num [zs])]; norm_num [zs]
  rw [hab, show wD.prof.nmax = 1 from rfl, hix]
  simp only [Bool.false_eq_true, if_false, zero_add, lt_irrefl]
  have hcur : interpAt wD.prof wD.prof.ext 0 (z0 + 1/2) = 10000/999999 := by
    unfold interpAt
    rw [linAt_interp]; simp [linAt, wD, wProf]
  have hge : ((e * zR) *. (e * zR) +. (0:ℝ) *. 0 >=. interpAt wD.prof wD.prof.ext 0 (z0 + 1/2)) = false := by
    rw [hcur]
    simp only [real_mul, real_add, ge, real_le, decide_eq_false_iff_not, not_le]
    rw [show e * zR * (e * zR) + 0 * 0 = e ^ 2 * zR ^ 2 by ring, he, one_mul]
    norm_num [zR]
  rw [if_neg (by rw [hge]; simp), if_neg (by rw [hns]; simp), hr]
  have hrd : reflectDir (⟨e * zs, 0, zc⟩ : V3 ℝ) ⟨e, 0, 0⟩ zs = ⟨(-e) * zs, 0, zc⟩ := by
    simp only [reflectDir, real_mul, real_sub, real_lit, e2, mul_zero, sub_zero]
    rw [vnorm_unit _ (by unfold dot; nlinarith [zUnit])]
    congr 1
    ring
  simp only [Out.bind_ok, afterReflect, if_true, hrd, dist3_gap]
  rfl


/-- The launch from the middle of the entrance: return value 1, two reflections; with leak calculation, two leak records. -/
theorem w_launch (leak : Bool) (fuel k : Nat) (P : Photon ℝ) (hC : P.startC = ⟨0, 0, 0⟩) (hD : P.startD = ⟨zs, 0, zc⟩) :
    ∃ P', launch zLib (some wD) leak fuel (k + 1) (some P) (some [10]) true = .ok (1, .filled [ro * ro], some P') ∧
      P'.i_refl = 2 ∧ (P'.int.length = if leak then 2 else 0) ∧ P'.exitC = ⟨-zR, 0, 3/2⟩ ∧ P'.exitD = ⟨zs, 0, zc⟩ := by
  obtain ⟨ra, rb⟩ := ro_bounds
  have hu : vnorm (⟨zs, 0, zc⟩ : V3 ℝ) = ⟨zs, 0, zc⟩ := vnorm_unit _ (by unfold dot; nlinarith [zUnit])
  have hb : ¬ ArgsBad (some wD) (some P) (some [(10:ℝ)]) true :=
    not_argsBad (by simp) (by intro e he; simp at he; subst he; norm_num)
  obtain ⟨D', P'', es', e1, e2, e3, -, -, -, h'⟩ := launch_valid zLib (some wD) leak fuel (k + 1) (some P) (some [(10:ℝ)]) true hb
  injection e1 with e1; injection e2 with e2; injection e3 with e3; subst e1 e2 e3
  rw [h']
  obtain ⟨c1, c2⟩ := w_chan P
  generalize hI : launchInit zLib wD [10] P = Q at c1 c2
  have q1 : Q.startC = ⟨0, 0, 0⟩ := by rw [← hI]; exact hC
  have q3 : Q.exitC = ⟨0, 0, 0⟩ := by rw [← hI]; exact hC
  have q4 : Q.exitD = ⟨zs, 0, zc⟩ := by rw [← hI]; show vnorm (vnorm _) = _; rw [hD, hu, hu]
  have q5 : Q.i_refl = 0 := by rw [← hI]; rfl
  have q6 : Q.int = [] := by rw [← hI]; rfl
  unfold launchBody
  simp only [hI, q1, w_cap (le_refl (0:ℝ)) (by norm_num), w_open (le_refl (0:ℝ)) (by norm_num), Bool.false_eq_true, if_false]
  unfold launchInside
  have hix : segIdFrom wD.prof.z 0 Q.startC.z (wD.prof.nmax + 1) = 0 := by
    apply segId_zero _ _ _ 1
    · rw [q1]; simp [wD, wProf]
    · intro i h1 h2
      have : i = 1 := by omega
      subst this; rw [q1]; simp [wD, wProf]
  rw [hix, show wD.prof.nmax + 1 = 2 from rfl]
  obtain ⟨E1, I1, t1, l1⟩ := w_trace leak (e := 1) (z0 := 0) (wt := 1) (by norm_num) fuel k Q (by rw [q4, one_mul]) (by rw [q3]; simp) (by rw [q3]; norm_num)
    (by rw [q3]; norm_num) (by norm_num) (by norm_num) (fun _ => by norm_num) (by norm_num) c1 c2
  obtain ⟨E2, I2, t2, l2⟩ := w_trace leak (e := -1) (z0 := 1) (wt := 1 * ro) (by norm_num) fuel k
    { Q with exitC := ⟨1 * zR, 0, 0 + 1/2⟩, exitD := ⟨(-1) * zs, 0, zc⟩, startD := vnorm Q.startD, exitE := E1, i_refl := Q.i_refl + 1,
             d_travel := Q.d_travel + gap ⟨1 * zR, 0, 0 + 1/2⟩ Q.exitC, chans := [⟨10, 1 * ro, 0, 1/2⟩], int := Q.int ++ I1 } rfl
    (by simp only [V3.mk.injEq, and_true]; ring) (by norm_num) (by norm_num) (by norm_num) (by norm_num) (fun _ => by norm_num) (by linarith) rfl c2
  simp only [traceLoop, t1, t2, Out.bind_ok]
  rw [if_neg (by decide), if_neg (by decide)]
  simp only [Out.bind_ok]
  rw [if_neg (by decide), if_neg (by decide)]
  refine ⟨finish { Q with exitC := ⟨-1 * zR, 0, 1 + 1/2⟩, exitD := ⟨(- -1) * zs, 0, zc⟩, startD := vnorm (vnorm Q.startD), exitE := E2, i_refl := Q.i_refl + 1 + 1, d_travel := Q.d_travel + gap ⟨1 * zR, 0, 0 + 1/2⟩ Q.exitC + gap ⟨-1 * zR, 0, 1 + 1/2⟩ ⟨1 * zR, 0, 0 + 1/2⟩, chans := [⟨10, 1 * ro * ro, 0, 1/2⟩], int := Q.int ++ I1 ++ I2 }, ?_, ?_, ?_, ?_, ?_⟩
  · simp only [List.map_cons, List.map_nil, one_mul]
  · simp only [finish, q5]; rfl
  · simp only [finish, q6, List.nil_append, List.length_append, l1, l2]
    cases leak <;> rfl
  · simp only [finish, V3.mk.injEq]; norm_num
  · simp only [finish, V3.mk.injEq]; norm_num

theorem w_init (P : Photon ℝ) (hC : P.startC = ⟨0, 0, 5/2⟩) (hD : P.startD = ⟨zs, 0, zc⟩) :
    (launchInit zLib wD [10] P).startC = ⟨0, 0, 5/2⟩ ∧ (launchInit zLib wD [10] P).exitC = ⟨0, 0, 5/2⟩ ∧
    (launchInit zLib wD [10] P).exitD = ⟨zs, 0, zc⟩ := by
  have hu : vnorm (⟨zs, 0, zc⟩ : V3 ℝ) = ⟨zs, 0, zc⟩ := vnorm_unit _ (by unfold dot; nlinarith [zUnit])
  refine ⟨hC, hC, ?_⟩
  show vnorm (vnorm _) = _
  rw [hD, hu, hu]

theorem w_index (Q : Photon ℝ) (q1 : Q.startC = ⟨0, 0, 5/2⟩) : segIdFrom wD.prof.z 0 Q.startC.z (wD.prof.nmax + 1) = 0 := by
  apply segId_zero _ _ _ 1
  · rw [q1]; simp only [wD, wProf, Nat.cast_zero, mul_zero]; norm_num
  · intro i h1 h2
    have : i = 1 := by omega
    subst this; rw [q1]; simp only [wD, wProf, Nat.cast_one, mul_one]; norm_num

/-- A photon that meets the wall exactly at the exit plane, without leak calculation: mirrored and transmitted. -/
theorem rim_off (fuel k : Nat) (P : Photon ℝ) (hC : P.startC = ⟨0, 0, 5/2⟩) (hD : P.startD = ⟨zs, 0, zc⟩) :
    ∃ P', launch zLib (some wD) false fuel (k + 1) (some P) (some [10]) true = .ok (1, .filled [ro], some P') := by
  have hb : ¬ ArgsBad (some wD) (some P) (some [(10:ℝ)]) true :=
    not_argsBad (by simp) (by intro e he; simp at he; subst he; norm_num)
  obtain ⟨D', P'', es', e1, e2, e3, -, -, -, h'⟩ := launch_valid zLib (some wD) false fuel (k + 1) (some P) (some [(10:ℝ)]) true hb
  injection e1 with e1; injection e2 with e2; injection e3 with e3; subst e1 e2 e3
  rw [h']
  obtain ⟨c1, c2⟩ := w_chan P
  obtain ⟨q1, q3, q4⟩ := w_init P hC hD
  generalize hI : launchInit zLib wD [10] P = Q at c1 c2 q1 q3 q4
  unfold launchBody
  simp only [hI, q1, w_cap (show (0:ℝ) ≤ 5/2 by norm_num) (by norm_num), w_open (show (0:ℝ) ≤ 5/2 by norm_num) (by norm_num), Bool.false_eq_true, if_false]
  unfold launchInside
  rw [w_index Q q1, show wD.prof.nmax + 1 = 2 from rfl]
  obtain ⟨E1, I1, t1, l1⟩ := w_trace false (e := 1) (z0 := 5/2) (wt := 1) (by norm_num) fuel k Q (by rw [q4, one_mul]) (by rw [q3]; simp) (by rw [q3]; norm_num)
    (by rw [q3]; norm_num) (by norm_num) (by norm_num) (fun h => by simp at h) (by norm_num) c1 c2
  have t2 : trace wD false fuel (k + 1) (axX wD (0, 0)) (axY wD (0, 0)) 0
      { Q with exitC := ⟨1 * zR, 0, 5/2 + 1/2⟩, exitD := ⟨(-1) * zs, 0, zc⟩, startD := vnorm Q.startD, exitE := E1, i_refl := Q.i_refl + 1,
               d_travel := Q.d_travel + gap ⟨1 * zR, 0, 5/2 + 1/2⟩ Q.exitC, chans := [⟨10, 1 * ro, 0, 1/2⟩], int := Q.int ++ I1 } =
      .ok (-2, 0, { Q with exitC := ⟨1 * zR, 0, 5/2 + 1/2⟩, exitD := ⟨(-1) * zs, 0, zc⟩, startD := vnorm (vnorm Q.startD), exitE := E1, i_refl := Q.i_refl + 1, d_travel := Q.d_travel + gap ⟨1 * zR, 0, 5/2 + 1/2⟩ Q.exitC, chans := [⟨10, 1 * ro, 0, 1/2⟩], int := Q.int ++ I1 }) := by
    have hu : vnorm (⟨(-1) * zs, 0, zc⟩ : V3 ℝ) = ⟨(-1) * zs, 0, zc⟩ := vnorm_unit _ (by unfold dot; nlinarith [zUnit])
    generalize hT : ({ Q with exitC := ⟨1 * zR, 0, 5/2 + 1/2⟩, exitD := ⟨(-1) * zs, 0, zc⟩, startD := vnorm (vnorm Q.startD), exitE := E1, i_refl := Q.i_refl + 1, d_travel := Q.d_travel + gap ⟨1 * zR, 0, 5/2 + 1/2⟩ Q.exitC, chans := [⟨10, 1 * ro, 0, 1/2⟩], int := Q.int ++ I1 } : Photon ℝ) = T
    have k1 : T.exitC = ⟨1 * zR, 0, 5/2 + 1/2⟩ := by rw [← hT]
    have k2 : T.exitD = ⟨(-1) * zs, 0, zc⟩ := by rw [← hT]
    have hat := w_at (e := -1) (z0 := 7/2) T k2 (by rw [k1]; simp only [V3.mk.injEq, and_true]; ring)
    have hm : traceSearch wD (axX wD (0, 0)) (axY wD (0, 0)) T 1 0 T.exitC ⟨lit 0, lit 0, lit 0⟩ = .miss := by
      have h0' := hat 0
      have h1' := hat (0 + 1)
      simp only [Nat.cast_zero, mul_zero, zero_add, Nat.cast_one, mul_one] at h0' h1'
      apply traceSearch_miss
      · rw [wX, wY, show wD.prof.ext 0 = 10000/999999 from rfl, boundary_axis (by norm_num)]; decide
      · rw [wX, wY, show wD.prof.ext (0 + 1) = 10000/999999 from rfl, boundary_axis (by norm_num)]; decide
      · intro h1
        generalize hs : segment (axisPt wD (axX wD (0, 0)) (axY wD (0, 0)) 0) (axisPt wD (axX wD (0, 0)) (axY wD (0, 0)) (0 + 1)) (wD.prof.cap 0) (wD.prof.cap (0 + 1))
          (atGrid wD.prof T.exitC T.exitD 0) (atGrid wD.prof T.exitC T.exitD (0 + 1)) T.exitD T.exitC ⟨lit 0, lit 0, lit 0⟩ = s at h1
        obtain ⟨s1, v, n⟩ := s
        simp only at h1
        subst h1
        obtain ⟨-, -, a, -, b, -⟩ := segment_success hs
        have hz : (axisPt wD (axX wD (0, 0)) (axY wD (0, 0)) (0 + 1)).z = 3 := by simp [axisPt, wD, wProf]
        rw [hz] at a
        rw [k1] at b
        simp only at b
        have : (0:ℝ) < 1 / 10 ^ 5 := by norm_num
        linarith
      · rw [show wD.prof = wProf from rfl, h0', show wProf.ext 0 = 10000/999999 from rfl, boundary_line]
        · decide
        · norm_num [zR, abs_of_pos]
    unfold trace capilTrace
    simp only [hu]
    rw [hT, show wD.prof.nmax - 0 = 1 from rfl]
    rw [show (⟨1 * zR, 0, 5/2 + 1/2⟩ : V3 ℝ) = T.exitC from k1.symm, hm]
  simp only [traceLoop, t1, t2, Out.bind_ok]
  rw [if_neg (by decide), if_pos (by decide)]
  simp only [Out.bind_ok]
  rw [if_neg (by decide), if_neg (by decide)]
  simp only [List.map_cons, List.map_nil, one_mul]
  exact ⟨_, rfl⟩

/-- With leak calculation the same photon is lost. -/
theorem rim_on (fuel k : Nat) (P : Photon ℝ) (hC : P.startC = ⟨0, 0, 5/2⟩) (hD : P.startD = ⟨zs, 0, zc⟩) :
    ∃ ws P', launch zLib (some wD) true fuel (k + 1) (some P) (some [10]) true = .ok (-1, .filled ws, some P') := by
  have hb : ¬ ArgsBad (some wD) (some P) (some [(10:ℝ)]) true :=
    not_argsBad (by simp) (by intro e he; simp at he; subst he; norm_num)
  obtain ⟨D', P'', es', e1, e2, e3, -, -, -, h'⟩ := launch_valid zLib (some wD) true fuel (k + 1) (some P) (some [(10:ℝ)]) true hb
  injection e1 with e1; injection e2 with e2; injection e3 with e3; subst e1 e2 e3
  rw [h']
  obtain ⟨q1, q3, q4⟩ := w_init P hC hD
  generalize hI : launchInit zLib wD [10] P = Q at q1 q3 q4
  unfold launchBody
  simp only [hI, q1, w_cap (show (0:ℝ) ≤ 5/2 by norm_num) (by norm_num), w_open (show (0:ℝ) ≤ 5/2 by norm_num) (by norm_num), Bool.false_eq_true, if_false]
  unfold launchInside
  rw [w_index Q q1, show wD.prof.nmax + 1 = 2 from rfl]
  have e1 : ((1:ℚ):ℝ) = 1 := by norm_num
  have e0 : ((0:ℚ):ℝ) = 0 := by norm_num
  have hu : vnorm (⟨zs, 0, zc⟩ : V3 ℝ) = ⟨zs, 0, zc⟩ := vnorm_unit _ (by unfold dot; nlinarith [zUnit])
  have hn : vnorm (⟨1, 0, 0⟩ : V3 ℝ) = ⟨1, 0, 0⟩ := vnorm_unit _ (by unfold dot; norm_num)
  have hsc : scalar (⟨zs, 0, zc⟩ : V3 ℝ) ⟨1, 0, 0⟩ = zs := by
    rw [scalar_real]; unfold dot; simp only; ring
  have hneg : ((zs : ℝ) <. lit 0) = false := by
    simp only [real_lt, real_lit, e0, decide_eq_false_iff_not]; norm_num [zs]
  have hs := w_search (e := 1) (z0 := 5/2) (by norm_num) { Q with exitD := ⟨zs, 0, zc⟩, startD := vnorm Q.startD } (by simp) (by simp only [q3]; simp) (by simp only [q3]; norm_num)
    (by simp only [q3]; norm_num) (by norm_num) (by norm_num) ⟨lit 0, lit 0, lit 0⟩
  have hix : segIdFrom wD.prof.z (0 + 1) (5/2 + 1/2) 1 = 0 := segId_zero _ _ _ 0 (by
    simp only [wD, wProf, Nat.cast_zero, mul_zero]; norm_num) (by intro i h1 h2; omega)
  have hns : nShells (α := ℝ) wD.n_cap = 0 := nShells_one
  have ht : ∃ ix T, trace wD true fuel (k + 1) (axX wD (0, 0)) (axY wD (0, 0)) 0 Q = .ok (-1, ix, T) := by
    unfold trace capilTrace
    simp only [q4, hu]
    rw [show wD.prof.nmax - 0 = 1 from rfl, hs]
    simp only [traceHit]
    have hab : (fabs (zs:ℝ) >. lit 1) = false := by
      simp only [real_fabs, gt, real_lt, real_lit, e1, decide_eq_false_iff_not, not_lt]
      rw [abs_of_pos (by norm_num [zs])]; norm_num [zs]
    rw [hab, show wD.prof.nmax = 1 from rfl, hix]
    simp only [Bool.false_eq_true, if_false, zero_add, lt_irrefl]
    have hcur : interpAt wD.prof wD.prof.ext 0 (5/2 + 1/2) = 10000/999999 := by
      unfold interpAt
      rw [linAt_interp]; simp [linAt, wD, wProf]
    have hge : ((1 * zR) *. (1 * zR) +. (0:ℝ) *. 0 >=. interpAt wD.prof wD.prof.ext 0 (5/2 + 1/2)) = false := by
      rw [hcur]
      simp only [real_mul, real_add, ge, real_le, decide_eq_false_iff_not, not_le]
      norm_num [zR]
    rw [if_neg (by rw [hge]; simp), if_neg (by rw [hns]; simp)]
    have hz : (((5/2 + 1/2 : ℝ)) >=. wD.prof.z wD.prof.nmax) = true := by
      simp only [wD, wProf, ge, real_le, Nat.cast_one, mul_one, decide_eq_true_eq]; norm_num
    unfold reflect reflectBody
    simp only [hu, hn, hsc, hneg, Bool.false_eq_true, if_false, wallOf, if_true, traceWall, hz, Out.bind_ok]
    unfold reflectRest
    rw [if_pos (by simp)]
    simp only [Out.bind_ok]
    exact ⟨_, _, rfl⟩
  obtain ⟨ix, T, ht⟩ := ht
  simp only [traceLoop, ht, Out.bind_ok]
  rw [if_pos (by decide)]
  simp only [Out.bind_ok]
  rw [if_pos (by decide)]
  exact ⟨_, _, rfl⟩

/-- **C85**, the unrestricted property fails: a photon that meets the wall exactly at the exit plane is transmitted without leak
calculation and lost with it. -/
theorem launch_leak_visible : ∃ P ws P1 P2, launch zLib (some wD) false 0 1 (some P) (some [10]) true = .ok (1, .filled [ro], some P1) ∧
    launch zLib (some wD) true 0 1 (some P) (some [10]) true = .ok (-1, .filled ws, some P2) := by
  obtain ⟨P1, h1⟩ := rim_off 0 0 (exP ⟨0, 0, 5/2⟩ ⟨zs, 0, zc⟩ 0) rfl rfl
  obtain ⟨ws, P2, h2⟩ := rim_on 0 0 (exP ⟨0, 0, 5/2⟩ ⟨zs, 0, zc⟩ 0) rfl rfl
  exact ⟨_, ws, P1, P2, h1, h2⟩

/-- the hypotheses of `launch_leak_invisible_partial` are met by a photon that reflects twice and leaks at both reflections -/
example : ∃ P P' , launch zLib (some wD) true 0 1 (some P) (some [10]) true = .ok (1, .filled [ro * ro], some P') ∧ P'.i_refl = 2 ∧ P'.int.length = 2 ∧
    launch zLib (some wD) false 0 1 (some P) (some [10]) true = .ok (1, .filled [ro * ro], some (bare P')) := by
  obtain ⟨P', h, a, b, -⟩ := w_launch true 0 0 (exP ⟨0, 0, 0⟩ ⟨zs, 0, zc⟩ 0) rfl rfl
  refine ⟨_, P', h, a, b, launch_leak_invisible_partial zLib wD 0 1 0 0 _ [10] (by simp) (by intro e he; simp at he; subst he; norm_num) ?_ _ _ _ h (by decide)⟩
  show dot (⟨zs, 0, zc⟩ : V3 ℝ) ⟨zs, 0, zc⟩ ≠ 0
  have : dot (⟨zs, 0, zc⟩ : V3 ℝ) ⟨zs, 0, zc⟩ = 1 := by unfold dot; nlinarith [zUnit]
  rw [this]; norm_num

end WideTube
end Polycap
