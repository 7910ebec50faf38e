import Verif.Props.Hexagon

/-!
# C09: what a validated profile guarantees

Stated at `XR`, i.e. with IEEE division by zero, because the code divides by the x coordinate of a
capillary centre, which is 0 for the capillaries on the y axis.
-/
namespace Polycap
open CNum

/-! ## The outer shell -/

theorem walkSide_eq (d : Int × Int) : ∀ (n : Nat) (p : Int × Int),
    walkSide d n p = ((List.range n).map (fun k : ℕ => (p.1 + ((k : ℤ) + 1) * d.1, p.2 + ((k : ℤ) + 1) * d.2)),
      (p.1 + n * d.1, p.2 + n * d.2))
  | 0, p => by simp [walkSide]
  | n + 1, p => by
    simp only [walkSide, walkSide_eq d n, List.range_succ_eq_map, List.map_cons, List.map_map]
    refine Prod.ext ?_ ?_
    · simp only [List.cons.injEq]
      constructor
      · refine Prod.ext ?_ ?_ <;> simp
      · apply List.map_congr_left; intro k _; refine Prod.ext ?_ ?_ <;> simp <;> ring
    · refine Prod.ext ?_ ?_ <;> push_cast <;> ring

/-- The ring of capillaries at hexagonal distance `n` from the centre. -/
def OnShell (n : ℤ) (q r : ℤ) : Prop :=
  |q| ≤ n ∧ |r| ≤ n ∧ |q + r| ≤ n ∧ (|q| = n ∨ |r| = n ∨ |q + r| = n)

/-- The positions visited by the walk are exactly the outer shell. -/
theorem mem_outerShell (n : Nat) (hn : 1 ≤ n) (q r : ℤ) :
    (q, r) ∈ outerShell n ↔ OnShell n q r := by
  simp only [outerShell, qDir, rDir, List.zip, List.zipWith, walkSides, walkSide_eq]
  simp only [List.mem_append, List.mem_map, List.mem_range, Prod.mk.injEq, List.not_mem_nil, or_false]
  constructor
  · intro h
    unfold OnShell
    simp only [abs_le, abs_eq (show (0:ℤ) ≤ n by omega)]
    rcases h with h | h | h | h | h | h <;> obtain ⟨k, hk, h1, h2⟩ := h <;> omega
  · rintro ⟨h1, h2, h3, h4⟩
    simp only [abs_le, abs_eq (show (0:ℤ) ≤ n by omega)] at h1 h2 h3 h4
    by_cases c1 : r = n ∧ -(n:ℤ) < q
    · exact Or.inl ⟨(q + n - 1).toNat, by omega, by omega, by omega⟩
    by_cases c2 : q + r = n ∧ 0 < q
    · exact Or.inr (Or.inl ⟨(q - 1).toNat, by omega, by omega, by omega⟩)
    by_cases c3 : q = n ∧ r < 0
    · exact Or.inr (Or.inr (Or.inl ⟨(-r - 1).toNat, by omega, by omega, by omega⟩))
    by_cases c4 : r = -n ∧ q < n
    · exact Or.inr (Or.inr (Or.inr (Or.inl ⟨(n - q - 1).toNat, by omega, by omega, by omega⟩)))
    by_cases c5 : q + r = -n ∧ q < 0
    · exact Or.inr (Or.inr (Or.inr (Or.inr (Or.inl ⟨(-q - 1).toNat, by omega, by omega, by omega⟩))))
    · exact Or.inr (Or.inr (Or.inr (Or.inr (Or.inr ⟨(r - 1).toNat, by omega, by omega, by omega⟩))))

theorem walkSides_length (n : Nat) : ∀ (ds : List (Int × Int)) (p), (walkSides n ds p).length = n * ds.length
  | [], p => by simp [walkSides]
  | d :: ds, p => by
    simp [walkSides, walkSides_length n ds, walkSide_eq]; ring

/-- Each of the `6n` capillaries of the outer shell is visited (and the walk makes exactly `6n`
checks). -/
theorem outerShell_length (n : Nat) : (outerShell n).length = 6 * n := by
  simp [outerShell, walkSides_length, qDir, rDir]; ring

/-! ## The checked point -/

/-- Centre of capillary `(q,r)`, real-number specification: hexagonal lattice with spacing
`ext/(n+1)`. -/
noncomputable def centreX (n : ℤ) (ext : ℝ) (q r : ℤ) : ℝ := (2 * q + r) * (ext / (2 * (n + 1)))
noncomputable def centreY (n : ℤ) (ext : ℝ) (r : ℤ) : ℝ := r * (3 * ext / (4 * cospi6 * (n + 1)))

/-- distance of the capillary axis from the optic axis -/
noncomputable def centreR (n : ℤ) (ext : ℝ) (q r : ℤ) : ℝ :=
  Real.sqrt (centreX n ext q r ^ 2 + centreY n ext r ^ 2)

/-- The outermost point of capillary `(q,r)`: its centre pushed out radially by the capillary
radius. -/
noncomputable def outerPoint (n : ℤ) (ext cap : ℝ) (q r : ℤ) : ℝ × ℝ :=
  (centreX n ext q r * (1 + cap / centreR n ext q r), centreY n ext r * (1 + cap / centreR n ext q r))

theorem capCentre_xr (n : ℤ) (hn : 0 ≤ n) (ext : ℝ) (q r : ℤ) :
    capCentre n (XR.fin ext) q r = (.fin (centreX n ext q r), .fin (centreY n ext r)) := by
  have hc := cospi6_pos
  have hn1 : (0:ℝ) < n + 1 := by exact_mod_cast Int.lt_add_one_of_le hn
  have hd : (2:ℝ) * cospi6 * ((n:ℝ) + 1) ≠ 0 := by positivity
  simp only [capCentre, hexCell, xr_lit, xr_cospi6, xr_mul, xr_ofInt]
  rw [xr_div _ _ (by push_cast; exact hd)]
  simp only [xr_mul, Prod.mk.injEq, XR.fin.injEq, centreX, centreY]
  push_cast
  constructor <;> field_simp
  ring

theorem capCentre_real (n : ℤ) (hn : 0 ≤ n) (ext : ℝ) (q r : ℤ) :
    capCentre n ext q r = (centreX n ext q r, centreY n ext r) := by
  have hc := cospi6_pos
  have hn1 : (0:ℝ) < n + 1 := by exact_mod_cast Int.lt_add_one_of_le hn
  simp only [capCentre, hexCell, real_lit, real_mul, real_ofInt, real_div, Prod.mk.injEq, centreX, centreY]
  push_cast
  constructor <;> field_simp
  ring

/-- The point examined by the code: for `x < 0` the offset points inwards. -/
theorem validatePoint_xr (n : ℤ) (hn : 0 ≤ n) (ext cap : ℝ) (q r : ℤ)
    (hne : centreX n ext q r ≠ 0 ∨ centreY n ext r ≠ 0) :
    validatePoint n (XR.fin ext) (XR.fin cap) q r =
      (let R := centreR n ext q r
       let x := centreX n ext q r
       let y := centreY n ext r
       let s : ℝ := if x < 0 then -1 else 1
       (.fin (x * (1 + s * cap / R)), .fin (y * (1 + s * cap / R)))) := by
  set x := centreX n ext q r with hx
  set y := centreY n ext r with hy
  have hR2 : centreR n ext q r ^ 2 = x ^ 2 + y ^ 2 := Real.sq_sqrt (by positivity)
  have hRp : 0 < centreR n ext q r := by
    apply Real.sqrt_pos.mpr
    rcases hne with h | h
    · have := sq_pos_of_ne_zero h; positivity
    · have := sq_pos_of_ne_zero h; positivity
  set R := centreR n ext q r
  simp only [validatePoint, capCentre_xr n hn]
  rw [← hx, ← hy]
  by_cases hx0 : x = 0
  · have hy0 : y ≠ 0 := by tauto
    rw [hx0, xr_div_zero _ hy0, xr_atan_inf]
    have hRy : R = |y| := by
      rw [← abs_of_pos hRp, ← sq_eq_sq_iff_abs_eq_abs, hR2, hx0]; ring
    by_cases hyn : y < 0
    · have : XR.isNeg y = true := by simp [XR.isNeg, hyn]
      simp only [this, if_true, xr_cos, xr_sin, xr_mul, xr_add, Real.cos_neg, Real.sin_neg,
        Real.cos_pi_div_two, Real.sin_pi_div_two, lt_irrefl, if_false, Prod.mk.injEq, XR.fin.injEq]
      rw [hRy, abs_of_neg hyn]
      constructor
      · ring
      · field_simp
    · have : XR.isNeg y = false := by simp [XR.isNeg]; linarith
      have hyp : 0 < y := lt_of_le_of_ne (not_lt.mp hyn) (Ne.symm hy0)
      simp only [this, Bool.false_eq_true, if_false, xr_cos, xr_sin, xr_mul, xr_add,
        Real.cos_pi_div_two, Real.sin_pi_div_two, lt_irrefl, Prod.mk.injEq, XR.fin.injEq]
      rw [hRy, abs_of_pos hyp]
      constructor
      · ring
      · field_simp
  · rw [xr_div _ _ hx0]
    simp only [xr_atan, xr_cos, xr_sin, xr_mul, xr_add, Prod.mk.injEq, XR.fin.injEq,
      Real.cos_arctan, Real.sin_arctan]
    have hsq : Real.sqrt (1 + (y / x) ^ 2) = R / |x| := by
      rw [Real.sqrt_eq_iff_mul_self_eq (by positivity) (by positivity)]
      rw [div_mul_div_comm, abs_mul_abs_self, ← sq, hR2]
      field_simp
    rw [hsq]
    split
    · rename_i hneg
      rw [abs_of_neg hneg]
      constructor <;> field_simp <;> ring
    · rename_i hneg
      have hpos : 0 < x := lt_of_le_of_ne (not_lt.mp hneg) (Ne.symm hx0)
      rw [abs_of_pos hpos]
      constructor <;> field_simp

theorem boundary_xr (r x y : ℝ) : withinPcBoundary (XR.fin r) (.fin x) (.fin y) = withinPcBoundary r x y := by
  unfold withinPcBoundary
  simp only [xr_le, xr_lit, real_le, real_lit]
  split
  · rfl
  · rename_i h
    have hr : 0 < r := by simpa using h
    have h2 : ((2:ℚ):ℝ) ≠ 0 := by norm_num
    simp only [xr_mul, xr_div _ _ h2, xr_sub, xr_cospi6, xr_add, xr_fabs]
    have : 0 ≤ r * r - r / ((2:ℚ):ℝ) * (r / ((2:ℚ):ℝ)) := by push_cast; nlinarith
    rw [xr_sqrt _ this]
    simp only [gt, xr_lt, real_mul, real_div, real_sub, real_add, real_fabs, real_sqrt, real_lt]
    congr

theorem nShells_xr (n : ℤ) (hn : 1 ≤ n) : nShells (α := XR) n = nShells (α := ℝ) n := by
  have hn' : (1 : ℝ) ≤ n := by exact_mod_cast hn
  have h6 : ((6:ℚ):ℝ) ≠ 0 := by norm_num
  simp only [nShells, xr_lit, xr_ofInt, xr_mul, xr_sub]
  rw [xr_sqrt _ (by push_cast; linarith), xr_div _ _ h6]
  simp only [xr_sub, xr_roundI, real_roundI, real_sub, real_div, real_sqrt, real_mul, real_lit, real_ofInt]

theorem firstBad_one_iff : ∀ (l : List Int), (∀ c ∈ l, c = 1 ∨ c = 0 ∨ c = -1) →
    (firstBad l = 1 ↔ ∀ c ∈ l, c = 1)
  | [], _ => by simp [firstBad]
  | c :: cs, h => by
    have ih := firstBad_one_iff cs (fun x hx => h x (List.mem_cons_of_mem _ hx))
    simp only [firstBad]
    rcases h c (List.mem_cons_self ..) with rfl | rfl | rfl
    · simp [ih]
    · simp
    · simp

theorem firstBad_zero_of : ∀ (l : List Int), (∀ c ∈ l, c = 1 ∨ c = 0) →
    (firstBad l = 0 ↔ ∃ c ∈ l, c = 0)
  | [], _ => by simp [firstBad]
  | c :: cs, h => by
    have ih := firstBad_zero_of cs (fun x hx => h x (List.mem_cons_of_mem _ hx))
    simp only [firstBad]
    rcases h c (List.mem_cons_self ..) with rfl | rfl
    · simp [ih]
    · simp

theorem boundary_range (r x y : ℝ) : withinPcBoundary r x y = 1 ∨ withinPcBoundary r x y = 0 ∨
    withinPcBoundary r x y = -1 := by
  rcases le_or_gt r 0 with h | h
  · right; right; exact (boundary_spec r x y).1 h
  · by_cases hi : InHex r x y
    · left; exact (boundary_spec r x y).2.1 h hi
    · right; left; exact (boundary_spec r x y).2.2 h hi

theorem centre_neg (n : ℤ) (ext : ℝ) (q r : ℤ) :
    centreX n ext (-q) (-r) = - centreX n ext q r ∧ centreY n ext (-r) = - centreY n ext r ∧
    centreR n ext (-q) (-r) = centreR n ext q r := by
  have h1 : centreX n ext (-q) (-r) = - centreX n ext q r := by simp [centreX]; ring
  have h2 : centreY n ext (-r) = - centreY n ext r := by simp [centreY]
  refine ⟨h1, h2, ?_⟩
  simp [centreR, h1, h2]

theorem onShell_neg {n q r : ℤ} (h : OnShell n q r) : OnShell n (-q) (-r) := by
  unfold OnShell at *
  rw [abs_neg, abs_neg, show -q + -r = -(q + r) by ring, abs_neg]; exact h

theorem centre_ne_zero {n q r : ℤ} (hn : 1 ≤ n) {ext : ℝ} (he : 0 < ext) (h : OnShell n q r) :
    centreX n ext q r ≠ 0 ∨ centreY n ext r ≠ 0 := by
  have hn1 : (0:ℝ) < n + 1 := by
    have : (0:ℤ) < n + 1 := by omega
    exact_mod_cast this
  have hc := cospi6_pos
  by_cases hr : r = 0
  · left
    have hq : q ≠ 0 := by
      rintro rfl
      obtain ⟨_, _, _, h4⟩ := h
      simp [hr] at h4; omega
    unfold centreX
    have : ((2 * q + r : ℤ) : ℝ) ≠ 0 := by exact_mod_cast (by omega)
    push_cast at this
    apply mul_ne_zero this; positivity
  · right
    unfold centreY
    have : (r : ℝ) ≠ 0 := by exact_mod_cast hr
    apply mul_ne_zero this; positivity

/-- A profile with finite entries, seen as doubles. -/
def Profile.toXR (p : Profile ℝ) : Profile XR :=
  { nmax := p.nmax, z := fun i => .fin (p.z i), cap := fun i => .fin (p.cap i), ext := fun i => .fin (p.ext i) }

/-- **C09 (polycapillary).**  For a profile with positive radii and at least four capillaries,
`polycap_profile_validate` returns 1 if and only if at every profile point the outermost point of
every capillary of the outer shell lies in the hexagonal optic; otherwise it returns 0. -/
theorem validate_poly_iff (p : Profile ℝ) (n_cap : ℤ) (hn : 4 ≤ n_cap)
    (hext : ∀ i ≤ p.nmax, 0 < p.ext i) (hcap : ∀ i ≤ p.nmax, 0 ≤ p.cap i) :
    let N := nShells (α := ℝ) n_cap
    let Good := ∀ q r, OnShell N q r → ∀ i ≤ p.nmax,
      withinPcBoundary (p.ext i) (outerPoint N (p.ext i) (p.cap i) q r).1
        (outerPoint N (p.ext i) (p.cap i) q r).2 = 1
    (Good → validate p.toXR n_cap = 1) ∧ (¬ Good → validate p.toXR n_cap = 0) := by
  intro N Good
  have hN0 : 0 ≤ N := (nShells_spec n_cap (by omega)).1
  have hN1 : 1 ≤ N := by
    have : N ≠ 0 := by
      intro h; have := (nShells_zero_iff n_cap (by omega)).mp h; omega
    omega
  have hNt : ((N.toNat : ℕ) : ℤ) = N := Int.toNat_of_nonneg hN0
  -- the list of checks
  have hv : validate p.toXR n_cap = firstBad ((outerShell N.toNat).flatMap fun qr =>
      (List.range (p.nmax + 1)).map fun i =>
        withinPcBoundary (p.ext i) (centreX N (p.ext i) qr.1 qr.2 * (1 + (if centreX N (p.ext i) qr.1 qr.2 < 0 then -1 else 1) * p.cap i / centreR N (p.ext i) qr.1 qr.2)) (centreY N (p.ext i) qr.2 * (1 + (if centreX N (p.ext i) qr.1 qr.2 < 0 then -1 else 1) * p.cap i / centreR N (p.ext i) qr.1 qr.2))) := by
    unfold validate
    rw [nShells_xr n_cap (by omega)]
    simp only [Profile.toXR]
    rw [if_neg (show ¬ nShells (α := ℝ) n_cap = 0 from by show N ≠ 0; omega)]
    congr 1
    apply List.flatMap_congr
    intro qr hqr
    apply List.map_congr_left
    intro i hi
    have hi' : i ≤ p.nmax := by have := List.mem_range.mp hi; omega
    have hs : OnShell N qr.1 qr.2 := by
      have := (mem_outerShell N.toNat (by omega) qr.1 qr.2).mp hqr
      rwa [hNt] at this
    rw [validatePoint_xr N hN0 _ _ _ _ (centre_ne_zero hN1 (hext i hi') hs), boundary_xr]
  -- checks against outer points
  have keyGood : Good → ∀ c ∈ ((outerShell N.toNat).flatMap fun qr =>
      (List.range (p.nmax + 1)).map fun i =>
        withinPcBoundary (p.ext i) (centreX N (p.ext i) qr.1 qr.2 * (1 + (if centreX N (p.ext i) qr.1 qr.2 < 0 then -1 else 1) * p.cap i / centreR N (p.ext i) qr.1 qr.2)) (centreY N (p.ext i) qr.2 * (1 + (if centreX N (p.ext i) qr.1 qr.2 < 0 then -1 else 1) * p.cap i / centreR N (p.ext i) qr.1 qr.2))), c = 1 := by
    intro g c hc
    simp only [List.mem_flatMap, List.mem_map, List.mem_range] at hc
    obtain ⟨⟨q, r⟩, hqr, i, hi, rfl⟩ := hc
    have hi' : i ≤ p.nmax := by omega
    have hs : OnShell N q r := by
      have := (mem_outerShell N.toNat (by omega) q r).mp hqr
      rwa [hNt] at this
    have g1 := g q r hs i hi'
    simp only [outerPoint] at g1
    dsimp only
    split
    · -- inner point: on the segment between the outer point and its mirror image
      have hR : 0 ≤ centreR N (p.ext i) q r := Real.sqrt_nonneg _
      have hc0 := hcap i hi'
      set t := p.cap i / centreR N (p.ext i) q r with ht
      have ht0 : 0 ≤ t := div_nonneg hc0 hR
      have g2 := g1
      rw [← (boundary_symmetric _ _ _).1] at g2
      have conv := boundary_convex g1 g2 (s := t / (1 + t)) (by positivity)
        (by rw [div_le_one (by positivity)]; linarith)
      have h1t : 1 + t ≠ 0 := by positivity
      convert conv using 1
      rw [show -1 * p.cap i / centreR N (p.ext i) q r = -t by rw [ht]; ring]
      field_simp; ring_nf
    · rw [one_mul]; exact g1
  have keyBad : (∀ c ∈ ((outerShell N.toNat).flatMap fun qr =>
      (List.range (p.nmax + 1)).map fun i =>
        withinPcBoundary (p.ext i) (centreX N (p.ext i) qr.1 qr.2 * (1 + (if centreX N (p.ext i) qr.1 qr.2 < 0 then -1 else 1) * p.cap i / centreR N (p.ext i) qr.1 qr.2)) (centreY N (p.ext i) qr.2 * (1 + (if centreX N (p.ext i) qr.1 qr.2 < 0 then -1 else 1) * p.cap i / centreR N (p.ext i) qr.1 qr.2))), c = 1) → Good := by
    intro hall q r hs i hi
    have mem : ∀ q r, OnShell N q r → withinPcBoundary (p.ext i) (centreX N (p.ext i) q r * (1 + (if centreX N (p.ext i) q r < 0 then -1 else 1) * p.cap i / centreR N (p.ext i) q r)) (centreY N (p.ext i) r * (1 + (if centreX N (p.ext i) q r < 0 then -1 else 1) * p.cap i / centreR N (p.ext i) q r)) = 1 := by
      intro q r hs
      apply hall
      simp only [List.mem_flatMap, List.mem_map, List.mem_range]
      refine ⟨(q, r), ?_, i, by omega, rfl⟩
      rw [mem_outerShell N.toNat (by omega), hNt]; exact hs
    simp only [outerPoint]
    by_cases hx : centreX N (p.ext i) q r < 0
    · have := mem (-q) (-r) (onShell_neg hs)
      obtain ⟨e1, e2, e3⟩ := centre_neg N (p.ext i) q r
      rw [e1, e2, e3, if_neg (by linarith), one_mul] at this
      rw [← (boundary_symmetric _ _ _).1]
      rw [← neg_mul, ← neg_mul]; exact this
    · have := mem q r hs
      rw [if_neg hx, one_mul] at this
      exact this
  have range : ∀ c ∈ ((outerShell N.toNat).flatMap fun qr =>
      (List.range (p.nmax + 1)).map fun i =>
        withinPcBoundary (p.ext i) (centreX N (p.ext i) qr.1 qr.2 * (1 + (if centreX N (p.ext i) qr.1 qr.2 < 0 then -1 else 1) * p.cap i / centreR N (p.ext i) qr.1 qr.2)) (centreY N (p.ext i) qr.2 * (1 + (if centreX N (p.ext i) qr.1 qr.2 < 0 then -1 else 1) * p.cap i / centreR N (p.ext i) qr.1 qr.2))), c = 1 ∨ c = 0 := by
    intro c hc
    simp only [List.mem_flatMap, List.mem_map, List.mem_range] at hc
    obtain ⟨qr, _, i, hi, rfl⟩ := hc
    rcases boundary_range (p.ext i) (centreX N (p.ext i) qr.1 qr.2 * (1 + (if centreX N (p.ext i) qr.1 qr.2 < 0 then -1 else 1) * p.cap i / centreR N (p.ext i) qr.1 qr.2)) (centreY N (p.ext i) qr.2 * (1 + (if centreX N (p.ext i) qr.1 qr.2 < 0 then -1 else 1) * p.cap i / centreR N (p.ext i) qr.1 qr.2)) with h | h | h
    · exact Or.inl h
    · exact Or.inr h
    · have := (boundary_error_iff _ _ _).mp h
      have := hext i (by omega); linarith
  rw [hv]
  constructor
  · intro g
    rw [firstBad_one_iff _ (fun c hc => (range c hc).imp id Or.inl)]
    exact keyGood g
  · intro ng
    rw [firstBad_zero_of _ range]
    by_contra hc
    push Not at hc
    exact ng (keyBad (fun c hcm => (range c hcm).resolve_right (hc c hcm)))

/-- **C09 (monocapillary).**  With at most three capillaries, validate returns 1 iff the capillary
radius is below the optic radius everywhere, else 0.  (Any number type: reads exactly
`!(cap >= ext)`.) -/
theorem validate_mono_iff (p : Profile ℝ) (n_cap : ℤ) (h1 : 1 ≤ n_cap) (h3 : n_cap ≤ 3) :
    (validate p n_cap = 1 ↔ ∀ i ≤ p.nmax, p.cap i < p.ext i) ∧
    (validate p n_cap = 0 ↔ ∃ i ≤ p.nmax, p.ext i ≤ p.cap i) := by
  unfold validate
  rw [(nShells_zero_iff n_cap h1).mpr h3]
  simp only [if_true, ge, real_le]
  constructor
  · split
    · rename_i h
      simp only [List.any_eq_true, List.mem_range, decide_eq_true_eq] at h
      obtain ⟨i, hi, hc⟩ := h
      simp only [zero_ne_one, false_iff]
      intro hh
      have := hh i (by omega); linarith
    · rename_i h
      simp only [List.any_eq_true, List.mem_range, decide_eq_true_eq, not_exists, not_and] at h
      simp only [true_iff]
      intro i hi
      exact not_le.mp (h i (by omega))
  · split
    · rename_i h
      simp only [List.any_eq_true, List.mem_range, decide_eq_true_eq] at h
      obtain ⟨i, hi, hc⟩ := h
      simp only [true_iff]
      exact ⟨i, by omega, hc⟩
    · rename_i h
      simp only [List.any_eq_true, List.mem_range, decide_eq_true_eq, not_exists, not_and] at h
      simp only [one_ne_zero, false_iff, not_exists, not_and]
      intro i hi hc
      exact h i (by omega) hc

/-- **C09.**  A NULL profile gives -1 and INVALID_ARGUMENT. -/
theorem validate_null {α : Type} [CNum α] (n_cap : ℤ) (e : EArg) :
    validateE (none : Option (Profile α)) n_cap e = (-1, e.set .invalidArgument) := rfl

/-- Finding (C09/C05): a profile whose external radii are all NaN (which `polycap_profile_new` can
produce) passes validation for every capillary count. -/
theorem validate_accepts_nan (nmax : ℕ) (z cap : ℕ → XR) (n_cap : ℤ) :
    validate ⟨nmax, z, cap, fun _ => .nan⟩ n_cap = 1 := by
  unfold validate
  dsimp only
  split
  · simp [ge]
  · rename_i h
    have hb : ∀ x y : XR, withinPcBoundary XR.nan x y = 1 := by
      intro x y; simp [withinPcBoundary, gt]
    rw [firstBad_one_iff]
    · intro c hc
      simp only [List.mem_flatMap, List.mem_map] at hc
      obtain ⟨qr, _, i, _, rfl⟩ := hc
      exact hb _ _
    · intro c hc
      simp only [List.mem_flatMap, List.mem_map] at hc
      obtain ⟨qr, _, i, _, rfl⟩ := hc
      exact Or.inl (hb _ _)

/-- The hypotheses of `validate_poly_iff` are met by an ordinary optic (and `Good` is decided both ways
below). -/
example : ∃ p : Profile ℝ, (∀ i ≤ p.nmax, 0 < p.ext i) ∧ (∀ i ≤ p.nmax, 0 ≤ p.cap i) ∧ 0 < p.nmax :=
  ⟨⟨2, fun i => i, fun _ => 0.1, fun _ => 1⟩, fun _ _ => by norm_num, fun _ _ => by norm_num, by norm_num⟩

/-- A straight optic: constant radii. -/
noncomputable def straight (cap ext : ℝ) : Profile ℝ := ⟨2, fun i => i, fun _ => cap, fun _ => ext⟩

theorem nShells_7 : nShells (α := ℝ) 7 = 1 := by
  have := nShells_of_full_stacking 1; norm_num at this; exact this

/-- Finding (C51): a stacking whose neighbouring capillaries overlap passes validation: 7 capillaries of
radius 0.4 in an optic of radius 1, whose centres are only 0.5 apart (so every one of the six outer
capillaries swallows the centre line of its neighbours' walls). -/
theorem validate_accepts_overlap :
    validate (straight 0.4 1).toXR 7 = 1 ∧
    (∃ q r q' r' : ℤ, OnShell 1 q r ∧ OnShell 1 q' r' ∧ (q, r) ≠ (q', r') ∧
      (centreX 1 1 q r - centreX 1 1 q' r') ^ 2 + (centreY 1 1 r - centreY 1 1 r') ^ 2 < (2 * 0.4) ^ 2) := by
  have hc := cospi6_pos
  have hlt := cospi6_sq_lt
  have hgt := cospi6_sq_gt
  have hci : (1:ℝ)/cospi6 ^ 2 < 3/2 := by
    rw [div_lt_iff₀ (by positivity)]; nlinarith
  constructor
  · apply (validate_poly_iff (straight 0.4 1) 7 (by norm_num) (fun i _ => by simp [straight])
      (fun i _ => by norm_num [straight])).1
    rw [nShells_7]
    intro q r hs i _
    simp only [straight, outerPoint]
    have h0 : withinPcBoundary (1:ℝ) 0 0 = 1 := boundary_contains_disc _ _ _ (by norm_num) (by norm_num)
    -- the six centres
    have hx : centreX 1 1 q r = (2 * q + r) / 4 := by simp [centreX]; ring
    have hy : centreY 1 1 r = r * (3 / (8 * cospi6)) := by
      simp only [centreY]; push_cast; field_simp; ring
    have hR : 1/2 ≤ centreR 1 1 q r := by
      apply Real.le_sqrt_of_sq_le
      rw [hx, hy]
      have h1 : (r * (3 / (8 * cospi6)) : ℝ) ^ 2 = (r:ℝ) ^ 2 * (9/64) * (1 / cospi6 ^ 2) := by field_simp; ring
      have h2 : (4:ℝ)/3 ≤ 1 / cospi6 ^ 2 := by rw [le_div_iff₀ (by positivity)]; nlinarith
      have h3 : (r:ℝ) ^ 2 * (9/64) * (4/3) ≤ (r:ℝ) ^ 2 * (9/64) * (1 / cospi6 ^ 2) := by
        apply mul_le_mul_of_nonneg_left h2; positivity
      have h4 : (4:ℤ) ≤ (2 * q + r) ^ 2 + 3 * r ^ 2 := by
        obtain ⟨a1, a2, a3, a4⟩ := hs
        simp only [abs_le] at a1 a2 a3
        have hq : q = -1 ∨ q = 0 ∨ q = 1 := by omega
        have hr : r = -1 ∨ r = 0 ∨ r = 1 := by omega
        rcases hq with rfl | rfl | rfl <;> rcases hr with rfl | rfl | rfl <;> simp at a4 a3 ⊢
      have h4' : (4:ℝ) ≤ (2 * q + r) ^ 2 + 3 * r ^ 2 := by exact_mod_cast h4
      nlinarith
    have h18 : withinPcBoundary (1:ℝ) (centreX 1 1 q r * (9/5)) (centreY 1 1 r * (9/5)) = 1 := by
      rw [boundary_one_iff]
      refine ⟨by norm_num, ?_⟩
      obtain ⟨s1, s2⟩ := sqrt3_bounds
      have hcl : (86:ℝ)/100 < cospi6 := by nlinarith
      have hch : (cospi6:ℝ) < 87/100 := by nlinarith
      have hyb : (3 / (8 * cospi6) : ℝ) < 44/100 := by
        rw [div_lt_iff₀ (by positivity)]; nlinarith
      have hyp : (0:ℝ) < 3 / (8 * cospi6) := by positivity
      rw [hx, hy]
      set k : ℝ := 3 / (8 * cospi6)
      set c : ℝ := cospi6
      unfold InHex
      obtain ⟨a1, a2, a3, a4⟩ := hs
      simp only [abs_le] at a1 a2 a3
      have hq : q = -1 ∨ q = 0 ∨ q = 1 := by omega
      have hr : r = -1 ∨ r = 0 ∨ r = 1 := by omega
      rcases hq with rfl | rfl | rfl <;> rcases hr with rfl | rfl | rfl <;> simp at a3 <;>
        (push_cast; refine ⟨?_, ?_, ?_⟩ <;> rw [abs_le] <;> constructor <;> norm_num <;> linarith)
    -- the outer point is on the segment from the centre to 9/5 of it
    set t : ℝ := 1 + 0.4 / centreR 1 1 q r with ht
    have hRp : 0 < centreR 1 1 q r := by linarith
    have ht1 : t ≤ 9/5 := by
      rw [ht]
      have : 0.4 / centreR 1 1 q r ≤ 4/5 := by rw [div_le_iff₀ hRp]; linarith
      linarith
    have ht0 : 0 ≤ t := by rw [ht]; positivity
    have := boundary_convex h0 h18 (s := t * (5/9)) (by positivity) (by linarith)
    convert this using 1
    ring_nf
  · refine ⟨1, 0, 0, 1, ?_, ?_, by simp, ?_⟩
    · simp [OnShell]
    · simp [OnShell]
    · simp only [centreX, centreY]
      push_cast
      have h1 : (3 * 1 / (4 * cospi6 * (1 + 1)) : ℝ) ^ 2 = 9/64 * (1 / cospi6 ^ 2) := by field_simp; ring
      nlinarith

end Polycap
