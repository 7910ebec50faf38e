import Verif.Props.ClearThrough

/-!
# C84: a photon does not pass through glass
-/
namespace Polycap
open CNum

/-- distance² from the axis minus radius², on the photon's line at height `z`, for segment `j` -/
noncomputable def excess (D : Descr ℝ) (capx capy : Nat → ℝ) (c d : V3 ℝ) (j : Nat) (z : ℝ) : ℝ :=
  ((lineAt c d z).x - linAt (D.prof.z j) (D.prof.z (j + 1)) (capx j) (capx (j + 1)) z) ^ 2 +
  ((lineAt c d z).y - linAt (D.prof.z j) (D.prof.z (j + 1)) (capy j) (capy (j + 1)) z) ^ 2 -
  (linAt (D.prof.z j) (D.prof.z (j + 1)) (D.prof.cap j) (D.prof.cap (j + 1)) z) ^ 2

/-- The point `v` is in the opening of the capillary with axis points `(capx i, capy i)`: at its height it is nearer to the axis than the
radius, both interpolated between the profile points. -/
def InLumen (D : Descr ℝ) (capx capy : Nat → ℝ) (v : V3 ℝ) : Prop :=
  ∃ j < D.prof.nmax, D.prof.z j ≤ v.z ∧ v.z ≤ D.prof.z (j + 1) ∧
    (v.x - linAt (D.prof.z j) (D.prof.z (j + 1)) (capx j) (capx (j + 1)) v.z) ^ 2 +
    (v.y - linAt (D.prof.z j) (D.prof.z (j + 1)) (capy j) (capy (j + 1)) v.z) ^ 2 <
    (linAt (D.prof.z j) (D.prof.z (j + 1)) (D.prof.cap j) (D.prof.cap (j + 1)) v.z) ^ 2

/-- The unit normal, at `v`, of the right circular cone around the line `c0 c1` with radii `r0`, `r1` at the ends: the direction away from the
foot of the perpendicular on the axis, turned towards the narrow end by the opening angle of the cone. -/
noncomputable def coneNormal (c0 c1 : V3 ℝ) (r0 r1 : ℝ) (v : V3 ℝ) : V3 ℝ :=
  let a : V3 ℝ := ⟨c1.x - c0.x, c1.y - c0.y, c1.z - c0.z⟩
  let t := ((v.x - c0.x) * a.x + (v.y - c0.y) * a.y + (v.z - c0.z) * a.z) / dot a a
  let w : V3 ℝ := ⟨v.x - (c0.x + t * a.x), v.y - (c0.y + t * a.y), v.z - (c0.z + t * a.z)⟩
  let g := Real.arctan ((r0 - r1) / Real.sqrt (dot a a))
  let u : V3 ℝ := ⟨Real.cos g * w.x / Real.sqrt (dot w w) + Real.sin g * a.x / Real.sqrt (dot a a),
                   Real.cos g * w.y / Real.sqrt (dot w w) + Real.sin g * a.y / Real.sqrt (dot a a),
                   Real.cos g * w.z / Real.sqrt (dot w w) + Real.sin g * a.z / Real.sqrt (dot a a)⟩
  ⟨u.x / Real.sqrt (dot u u), u.y / Real.sqrt (dot u u), u.z / Real.sqrt (dot u u)⟩

/-- The exceptions: where the code does not see a wall that the line through `c` with direction `d` meets at height `z` in segment `j`. -/
structure Slip (D : Descr ℝ) (capx capy : Nat → ℝ) (d v : V3 ℝ) (j : Nat) : Prop where
  why :
    /- the line is parallel to a generator of the wall -/
    genCoeff (axisPt D capx capy j) (axisPt D capx capy (j + 1)) (D.prof.cap j) (D.prof.cap (j + 1)) d = 0 ∨
    /- the wall is met less than 10⁻⁵ behind a profile point -/
    v.z < D.prof.z j + 1 / 10 ^ 5 ∨
    /- the line is perpendicular to the axis of the capillary -/
    d.x * (capx (j + 1) - capx j) + d.y * (capy (j + 1) - capy j) + d.z * (D.prof.z (j + 1) - D.prof.z j) = 0 ∨
    /- the line is – for the right circular cone – tangential to the wall, or comes from outside -/
    dot (coneNormal (axisPt D capx capy j) (axisPt D capx capy (j + 1)) (D.prof.cap j) (D.prof.cap (j + 1)) v) d < 1 / 10 ^ 19

/-- every wall met by the line between `c.z + 10⁻⁵` and `zend` is preceded, in its segment, by one that is not seen -/
def ClearUntil (D : Descr ℝ) (capx capy : Nat → ℝ) (c d : V3 ℝ) (zend : ℝ) : Prop :=
  ∀ j z, j < D.prof.nmax → Crossing D capx capy c d j z → c.z + 1 / 10 ^ 5 ≤ z → z < zend →
    ∃ z', Crossing D capx capy c d j z' ∧ z' ≤ z ∧ c.z + 1 / 10 ^ 5 ≤ z' ∧ Slip D capx capy d (lineAt c d z') j

theorem vnorm_real (u : V3 ℝ) : vnorm u = ⟨u.x / Real.sqrt (dot u u), u.y / Real.sqrt (dot u u), u.z / Real.sqrt (dot u u)⟩ := by
  simp only [vnorm, dot, real_div, real_sqrt, real_mul, real_add]

/-- the surface normal of a successful search is `coneNormal` -/
theorem segment_coneNormal {c0 c1 : V3 ℝ} {r0 r1 : ℝ} {p0 p1 d cur nrm v n : V3 ℝ} (hd : 0 < d.z)
    (hp : d.x * (c1.x - c0.x) + d.y * (c1.y - c0.y) + d.z * (c1.z - c0.z) ≠ 0)
    (h : segment c0 c1 r0 r1 p0 p1 d cur nrm = (1, v, n)) : n = coneNormal c0 c1 r0 r1 v := by
  obtain ⟨-, -, -, -, -, -, hx, hy, hn⟩ := segment_success h
  obtain ⟨s, hs, e, h1⟩ := vnorm_scale d hd
  rw [e] at hx hy hn
  simp only at hx hy hn
  have hsd : s * d.z ≠ 0 := (mul_pos hs hd).ne'
  generalize hk : (v.z - p0.z) / (s * d.z) = k at hx hy hn
  have hz : v.z = p0.z + k * (s * d.z) := by rw [← hk]; field_simp; ring
  have hp' : s * d.x * (c1.x - c0.x) + s * d.y * (c1.y - c0.y) + s * d.z * (c1.z - c0.z) ≠ 0 := by
    rw [show s * d.x * (c1.x - c0.x) + s * d.y * (c1.y - c0.y) + s * d.z * (c1.z - c0.z) =
      s * (d.x * (c1.x - c0.x) + d.y * (c1.y - c0.y) + d.z * (c1.z - c0.z)) by ring]
    exact mul_ne_zero hs.ne' hp
  have hf : (k + ((p0.x - c0.x) * (c1.x - c0.x) + (p0.y - c0.y) * (c1.y - c0.y) + (p0.z - c0.z) * (c1.z - c0.z)) /
      (s * d.x * (c1.x - c0.x) + s * d.y * (c1.y - c0.y) + s * d.z * (c1.z - c0.z))) /
      (((c1.x - c0.x) * (c1.x - c0.x) + (c1.y - c0.y) * (c1.y - c0.y) + (c1.z - c0.z) * (c1.z - c0.z)) /
      (s * d.x * (c1.x - c0.x) + s * d.y * (c1.y - c0.y) + s * d.z * (c1.z - c0.z))) =
      ((v.x - c0.x) * (c1.x - c0.x) + (v.y - c0.y) * (c1.y - c0.y) + (v.z - c0.z) * (c1.z - c0.z)) /
      ((c1.x - c0.x) * (c1.x - c0.x) + (c1.y - c0.y) * (c1.y - c0.y) + (c1.z - c0.z) * (c1.z - c0.z)) := by
    rw [add_div' _ _ _ hp', div_div_div_cancel_right₀ hp', hx, hy, hz]
    congr 1
    ring
  rw [hn]
  unfold segNormal coneNormal
  simp only [vnorm_real, vsub, scalar_real, dot, real_sub, real_mul, real_add, real_div, real_sqrt, real_atan, real_sin, real_cos, hf]

theorem search_until (D : Descr ℝ) (capx capy : Nat → ℝ) (P : Photon ℝ) (hd : 0 < P.exitD.z) :
    ∀ (k i : Nat) (cur nrm : V3 ℝ), P.exitC.z ≤ cur.z → (cur.z = P.exitC.z ∨ cur.z ≤ D.prof.z i) →
    (∀ j, i ≤ j → j < i + k → 0 ≤ D.prof.z j ∧ D.prof.z j < D.prof.z (j + 1) ∧ 0 ≤ D.prof.cap j ∧ 0 ≤ D.prof.cap (j + 1)) →
    ∀ j z, (traceSearch D capx capy P k i cur nrm = .miss ∨ 
      ∃ i' v n ca, traceSearch D capx capy P k i cur nrm = .hit i' v n ca ∧ z < v.z) →
      i ≤ j → j < i + k →
      genCoeff (axisPt D capx capy j) (axisPt D capx capy (j + 1)) (D.prof.cap j) (D.prof.cap (j + 1)) P.exitD ≠ 0 →
      Crossing D capx capy P.exitC P.exitD j z → P.exitC.z + 1 / 10 ^ 5 ≤ z →
      ∃ z', Crossing D capx capy P.exitC P.exitD j z' ∧ z' ≤ z ∧ P.exitC.z + 1 / 10 ^ 5 ≤ z' ∧
        Slip D capx capy P.exitD (lineAt P.exitC P.exitD z') j := by
  intro k
  induction k with
  | zero => intro i cur nrm _ _ _ j z _ h1 h2; omega
  | succ k ih =>
    intro i cur nrm hc hc' hprof j z h hj1 hj2 hg hz hz5
    obtain ⟨p1, p2, p3, p4⟩ := hprof j (by omega) (by omega)
    unfold traceSearch at h
    simp only at h
    split at h
    · rcases h with h | ⟨_, _, _, _, h, _⟩ <;> simp at h
    generalize hs : segment (⟨capx i, capy i, D.prof.z i⟩ : V3 ℝ) ⟨capx (i + 1), capy (i + 1), D.prof.z (i + 1)⟩ (D.prof.cap i)
      (D.prof.cap (i + 1)) (atGrid D.prof P.exitC P.exitD i) (atGrid D.prof P.exitC P.exitD (i + 1)) P.exitD cur nrm = s at h
    obtain ⟨s1, s2, s3⟩ := s
    simp only at h
    have hcur : P.exitC.z ≤ s2.z ∧ (s2.z = P.exitC.z ∨ s2.z ≤ D.prof.z (i + 1)) := by
      by_cases h1 : s1 = 1
      · subst h1
        obtain ⟨-, -, a, -, b, -⟩ := segment_success hs
        exact ⟨by linarith, Or.inr a⟩
      · have := segment_failure_keeps_position _ _ _ _ _ _ _ _ _ (by rw [hs]; exact h1)
        rw [hs] at this
        simp only at this
        rw [this]
        have := (hprof i (le_refl _) (by omega)).2.1
        exact ⟨hc, hc'.imp id (fun h => by linarith)⟩
    -- where the wall is met at `z` in the segment under consideration, but the search has `cur` too close
    have near : j = i → ¬ cur.z + 1 / 10 ^ 5 ≤ z → z < D.prof.z j + 1 / 10 ^ 5 := by
      rintro rfl hk
      rcases hc' with h | h
      · rw [h] at hk; exact absurd hz5 hk
      · linarith
    have hstep : (s1 = 1 ∧ z < s2.z) ∨
        ((traceSearch D capx capy P k (i + 1) s2 s3 = .miss ∨ ∃ i' v n ca, traceSearch D capx capy P k (i + 1) s2 s3 = .hit i' v n ca ∧ z < v.z) ∧
        (s1 ≠ 1 ∨ (acos (scalar s3 P.exitD) >. mpi /. lit 2 || acos (scalar s3 P.exitD) <. lit 0) = true)) := by
      by_cases hgt : (acos (scalar s3 P.exitD) >. mpi /. lit 2 || acos (scalar s3 P.exitD) <. lit 0) = true
      · rw [if_pos hgt, if_neg (by decide)] at h
        split at h
        · rcases h with h | ⟨_, _, _, _, h, _⟩ <;> simp at h
        exact Or.inr ⟨h, Or.inr hgt⟩
      · rw [if_neg hgt] at h
        by_cases h1 : s1 = 1
        · rw [if_pos h1] at h
          refine Or.inl ⟨h1, ?_⟩
          split at h
          · split at h
            · rcases h with h | ⟨_, _, _, _, h, _⟩ <;> simp at h
            · rcases h with h | ⟨_, _, _, _, h, hh⟩
              · simp at h
              · injection h with a b; rw [b]; exact hh
          · split at h
            · rcases h with h | ⟨_, _, _, _, h, _⟩ <;> simp at h
            · rcases h with h | ⟨_, _, _, _, h, hh⟩
              · simp at h
              · injection h with a b; rw [b]; exact hh
        · rw [if_neg h1] at h
          split at h
          · rcases h with h | ⟨_, _, _, _, h, _⟩ <;> simp at h
          exact Or.inr ⟨h, Or.inl h1⟩
    by_cases hij : j = i
    · subst hij
      obtain ⟨z1, z2, z3⟩ := hz
      have z3' : OnWall (axisPt D capx capy j) (axisPt D capx capy (j + 1)) (D.prof.cap j) (D.prof.cap (j + 1))
          (lineAt (atGrid D.prof P.exitC P.exitD j) P.exitD z) := by rw [lineAt_atGrid _ _ _ _ hd]; exact z3
      by_cases hk3 : cur.z + 1 / 10 ^ 5 ≤ z
      · by_cases h1 : s1 = 1
        · subst h1
          obtain ⟨l, -, a, b, c5, w, least⟩ := segment_sound _ _ _ _ _ _ _ _ _ _ _ hd hg hs
          have hle : s2.z ≤ z := least z z1 z2 hk3 z3'
          have hgate := ((hstep.resolve_left (fun h => absurd h.2 (not_lt.mpr hle))).2.resolve_left (by simp))
          rw [lineAt_atGrid _ _ _ _ hd] at l
          refine ⟨s2.z, ⟨a, b, ?_⟩, hle, by linarith, ⟨Or.inr (Or.inr ?_)⟩⟩
          · rw [← l]; exact w
          by_cases hp : P.exitD.x * (capx (j + 1) - capx j) + P.exitD.y * (capy (j + 1) - capy j) +
              P.exitD.z * (D.prof.z (j + 1) - D.prof.z j) = 0
          · exact Or.inl hp
          · refine Or.inr ?_
            rw [← l]
            have hn := segment_coneNormal hd hp hs
            unfold axisPt
            rw [← hn, ← scalar_real]
            exact acos_gate_small hgate
        · have hrej : segRejects (⟨capx j, capy j, D.prof.z j⟩ : V3 ℝ) ⟨capx (j + 1), capy (j + 1), D.prof.z (j + 1)⟩ (D.prof.cap j)
              (D.prof.cap (j + 1)) (atGrid D.prof P.exitC P.exitD j) (atGrid D.prof P.exitC P.exitD (j + 1)) P.exitD = false := by
            rw [segRejects_false]
            exact ⟨p1, by simp only; linarith, p3, p4, hd.le, rfl, rfl, p2⟩
          obtain ⟨z', w1, w2, w3, w4, w5⟩ := segment_complete _ _ _ _ _ _ _ cur nrm hd hg hrej
            (fun hh => h1 ((congrArg Prod.fst hs).symm.trans hh)) z z1 z2 hk3 z3'
          rw [lineAt_atGrid _ _ _ _ hd] at w5
          refine ⟨z', ⟨w1, by linarith, w5⟩, w2, by linarith, ⟨Or.inr (Or.inl ?_)⟩⟩
          have : (atGrid D.prof P.exitC P.exitD j).z = D.prof.z j := rfl
          rw [this] at w4
          have : (1:ℝ) / 10 ^ 10 < 1 / 10 ^ 5 := by norm_num
          show z' < _
          linarith
      · exact ⟨z, ⟨z1, z2, z3⟩, le_refl _, hz5, ⟨Or.inr (Or.inl (near rfl hk3))⟩⟩
    · rcases hstep with ⟨h1, h2⟩ | ⟨h1, -⟩
      · exfalso
        subst h1
        obtain ⟨-, -, a, -⟩ := segment_success hs
        have hm : D.prof.z (i + 1) ≤ D.prof.z j := by
          have : ∀ m, i + 1 ≤ m → m ≤ j → D.prof.z (i + 1) ≤ D.prof.z m := by
            intro m hm
            induction m, hm using Nat.le_induction with
            | base => intro _; exact le_refl _
            | succ m hm ih' => intro hm'; exact (ih' (by omega)).trans (hprof m (by omega) (by omega)).2.1.le
          exact this j (by omega) (le_refl _)
        have := hz.1
        simp only at a
        linarith
      · exact ih (i + 1) s2 s3 hcur.1 hcur.2 (fun j h1 h2 => hprof j (by omega) (by omega)) j z h1 (by omega) (by omega) hg hz hz5

/-- one tracing call: whatever it returns, the flight to the new position meets no wall that the code sees -/
theorem trace_until (D : Descr ℝ) (leak : Bool) (fuel kk : Nat) (capx capy : Nat → ℝ) (g : Grid D.prof)
    (hcap : ∀ i ≤ D.prof.nmax, 0 ≤ D.prof.cap i) (ix : Nat) (P : Photon ℝ) (hu : dot P.exitD P.exitD = 1)
    (hix : D.prof.z ix ≤ P.exitC.z) (hle : ix ≤ D.prof.nmax) (c : Int) (ix' : Nat) (P' : Photon ℝ)
    (h : trace D leak fuel kk capx capy ix P = .ok (c, ix', P')) (hz : 0 < P.exitD.z) :
    ClearUntil D capx capy P.exitC P.exitD P'.exitC.z ∧ (c = -2 → P'.exitC = P.exitC ∧ ∀ zend, ClearUntil D capx capy P.exitC P.exitD zend) := by
  have hv : vnorm P.exitD = P.exitD := vnorm_unit _ hu
  have h5 : (0:ℝ) < 1 / 10 ^ 5 := by norm_num
  -- crossings upstream of the segment of the photon do not count
  have key : ∀ zend : ℝ, (∀ z < zend, traceSearch D capx capy { P with exitD := P.exitD, startD := vnorm P.startD } (D.prof.nmax - ix) ix P.exitC ⟨lit 0, lit 0, lit 0⟩ = .miss ∨
      ∃ i' v n ca, traceSearch D capx capy { P with exitD := P.exitD, startD := vnorm P.startD } (D.prof.nmax - ix) ix P.exitC ⟨lit 0, lit 0, lit 0⟩ = .hit i' v n ca ∧ z < v.z) →
      ClearUntil D capx capy P.exitC P.exitD zend := by
    intro zend hs j z hj hcr hz5 hze
    by_cases hg : genCoeff (axisPt D capx capy j) (axisPt D capx capy (j + 1)) (D.prof.cap j) (D.prof.cap (j + 1)) P.exitD = 0
    · exact ⟨z, hcr, le_refl _, hz5, ⟨Or.inl hg⟩⟩
    by_cases hlt : j < ix
    · exfalso
      have h1 : D.prof.z (j + 1) ≤ D.prof.z ix := mono_of_step g.inc (by omega) hle
      have := hcr.2.1
      linarith
    · refine search_until D capx capy { P with exitD := P.exitD, startD := vnorm P.startD } hz _ ix P.exitC _ (le_refl _) (Or.inl rfl) ?_ j z (hs z hze) (by omega) (by omega) hg hcr hz5
      intro i hi1 hi2
      refine ⟨?_, g.inc i (by omega), hcap i (by omega), hcap (i + 1) (by omega)⟩
      rw [← g.start]; exact mono_of_step g.inc (by omega) (by omega)
  have triv : P'.exitC = P.exitC → ClearUntil D capx capy P.exitC P.exitD P'.exitC.z := by
    intro e j z _ _ hz5 hze
    rw [e] at hze; linarith
  unfold trace capilTrace at h
  simp only [hv] at h
  split at h
  · rename_i code hs
    injection h with h; injection h with h1 h; injection h with h2 h3
    subst h1 h3
    have : code = -1 ∨ code = -3 := traceSearch_ret' D capx capy _ _ _ _ _ _ hs
    exact ⟨triv rfl, by omega⟩
  · rename_i hs
    injection h with h; injection h with h1 h; injection h with h2 h3
    subst h1 h3
    exact ⟨triv rfl, fun _ => ⟨rfl, fun zend => key zend (fun _ _ => Or.inl hs)⟩⟩
  · rename_i i v n ca hs
    have hfirst : ClearUntil D capx capy P.exitC P.exitD v.z := key v.z (fun z hz => Or.inr ⟨i, v, n, ca, hs, hz⟩)
    suffices P'.exitC = v ∧ c ≠ -2 from ⟨by rw [this.1]; exact hfirst, fun h => absurd h this.2⟩
    unfold traceHit at h
    simp only at h
    split at h
    · injection h with h; injection h with h1 h; injection h with h2 h3
      subst h3; exact ⟨rfl, by omega⟩
    split at h
    · simp at h
    split at h
    · injection h with h; injection h with h1 h; injection h with h2 h3
      subst h3; exact ⟨rfl, by omega⟩
    split at h
    · injection h with h; injection h with h1 h; injection h with h2 h3
      subst h3; exact ⟨rfl, by omega⟩
    rw [Out.bind_eq_ok] at h
    obtain ⟨y, hy, h⟩ := h
    obtain ⟨f, -, hyc⟩ := reflect_frame _ _ _ _ _ _ y.1 y.2 hy
    injection h with h
    unfold afterReflect at h
    have hC := f.exitC
    split at h
    · injection h with h1 h; injection h with h2 h3
      subst h3; exact ⟨hC, by omega⟩
    · split at h
      · injection h with h1 h; injection h with h2 h3
        subst h3; exact ⟨hC, by omega⟩
      · injection h with h1 h; injection h with h2 h3
        subst h3; exact ⟨hC, by omega⟩

/-! ## From walls to the opening -/

/-- a continuous function that is negative at `a` and not on all of `[a, b]` has a first zero -/
theorem first_zero {f : ℝ → ℝ} (hf : Continuous f) {a b : ℝ} (ha : f a < 0) (h : ¬ ∀ z, a ≤ z → z ≤ b → f z < 0) :
    ∃ z0, a < z0 ∧ z0 ≤ b ∧ f z0 = 0 ∧ ∀ z, a ≤ z → z < z0 → f z < 0 := by
  push Not at h
  obtain ⟨w, w1, w2, w3⟩ := h
  have hc : IsCompact (Set.Icc a b ∩ {z | 0 ≤ f z}) := isCompact_Icc.inter_right (isClosed_le continuous_const hf)
  have hne : (Set.Icc a b ∩ {z | 0 ≤ f z}).Nonempty := ⟨w, ⟨w1, w2⟩, w3⟩
  obtain ⟨z0, ⟨⟨q1, q2⟩, q3⟩, hl⟩ := hc.exists_isLeast hne
  have q3 : 0 ≤ f z0 := q3
  have before : ∀ z, a ≤ z → z < z0 → f z < 0 := by
    intro z hz hz0
    by_contra hn
    exact absurd (hl ⟨⟨hz, by linarith⟩, not_lt.mp hn⟩) (not_le.mpr hz0)
  have hlt : a < z0 := by
    rcases q1.lt_or_eq with h | h
    · exact h
    · rw [← h] at q3; linarith
  obtain ⟨y, ⟨y1, y2⟩, y3⟩ := intermediate_value_Icc hlt.le hf.continuousOn (show (0:ℝ) ∈ Set.Icc (f a) (f z0) from ⟨ha.le, q3⟩)
  have : y = z0 := by
    rcases y2.lt_or_eq with h | h
    · have := before y y1 h; linarith
    · exact h
  subst this
  exact ⟨y, hlt, q2, y3, before⟩

theorem excess_continuous (D : Descr ℝ) (capx capy : Nat → ℝ) (c d : V3 ℝ) (j : Nat) : Continuous (excess D capx capy c d j) := by
  unfold excess lineAt linAt
  fun_prop

theorem excess_join (D : Descr ℝ) (capx capy : Nat → ℝ) (c d : V3 ℝ) (j : Nat) (h1 : D.prof.z j < D.prof.z (j + 1))
    (h2 : D.prof.z (j + 1) < D.prof.z (j + 2)) :
    excess D capx capy c d (j + 1) (D.prof.z (j + 1)) = excess D capx capy c d j (D.prof.z (j + 1)) := by
  have e1 : D.prof.z (j + 1) - D.prof.z j ≠ 0 := by linarith
  unfold excess linAt
  simp only [sub_self, mul_zero, zero_div, add_zero]
  congr 1
  · congr 3 <;> (field_simp; ring)
  · congr 1; field_simp; ring

theorem excess_wall (D : Descr ℝ) (capx capy : Nat → ℝ) (c d : V3 ℝ) (j : Nat) (z : ℝ) :
    OnWall (axisPt D capx capy j) (axisPt D capx capy (j + 1)) (D.prof.cap j) (D.prof.cap (j + 1)) (lineAt c d z) ↔
      excess D capx capy c d j z = 0 := by
  unfold OnWall excess axisPt
  rw [sub_eq_zero]
  rfl

/-- the photon's line either stays in the opening from `s` to the end of segment `m`, or leaves it at a first point of the wall -/
theorem stays_or_leaves (D : Descr ℝ) (capx capy : Nat → ℝ) (c d : V3 ℝ) (g : Grid D.prof) (j0 : Nat) (s : ℝ)
    (s1 : D.prof.z j0 ≤ s) (s2 : s ≤ D.prof.z (j0 + 1)) (hs : excess D capx capy c d j0 s < 0) :
    ∀ m, j0 ≤ m → m < D.prof.nmax →
      (∀ j z, j0 ≤ j → j ≤ m → s ≤ z → D.prof.z j ≤ z → z ≤ D.prof.z (j + 1) → excess D capx capy c d j z < 0) ∨
      ∃ j z0, j ≤ m ∧ s < z0 ∧ D.prof.z j ≤ z0 ∧ z0 ≤ D.prof.z (j + 1) ∧ excess D capx capy c d j z0 = 0 ∧
        ∀ z, s ≤ z → z < z0 → ∃ i, i ≤ j ∧ D.prof.z i ≤ z ∧ z ≤ D.prof.z (i + 1) ∧ excess D capx capy c d i z < 0 := by
  intro m hm
  induction m, hm using Nat.le_induction with
  | base =>
    intro hj
    by_cases h : ∀ z, s ≤ z → z ≤ D.prof.z (j0 + 1) → excess D capx capy c d j0 z < 0
    · left
      intro j z h1 h2 h3 h4 h5
      obtain rfl : j = j0 := by omega
      exact h z h3 h5
    · right
      obtain ⟨z0, a, b, e, f⟩ := first_zero (excess_continuous D capx capy c d j0) hs h
      exact ⟨j0, z0, le_refl _, a, by linarith, b, e, fun z h1 h2 => ⟨j0, le_refl _, by linarith, by linarith, f z h1 h2⟩⟩
  | succ m hm ih =>
    intro hj
    rcases ih (by omega) with h | ⟨j, z0, a, r⟩
    · have hstart : excess D capx capy c d (m + 1) (D.prof.z (m + 1)) < 0 := by
        rw [excess_join D capx capy c d m (g.inc m (by omega)) (g.inc (m + 1) hj)]
        exact h m _ hm (le_refl _) (s2.trans (mono_of_step g.inc (by omega) (by omega))) (g.inc m (by omega)).le (le_refl _)
      have hsm : s ≤ D.prof.z (m + 1) := s2.trans (mono_of_step g.inc (by omega) (by omega))
      by_cases h' : ∀ z, D.prof.z (m + 1) ≤ z → z ≤ D.prof.z (m + 2) → excess D capx capy c d (m + 1) z < 0
      · left
        intro j z h1 h2 h3 h4 h5
        by_cases hjm : j ≤ m
        · exact h j z h1 hjm h3 h4 h5
        · obtain rfl : j = m + 1 := by omega
          exact h' z h4 h5
      · right
        obtain ⟨z0, a, b, e, f⟩ := first_zero (excess_continuous D capx capy c d (m + 1)) hstart h'
        refine ⟨m + 1, z0, le_refl _, by linarith, a.le, b, e, fun z h1 h2 => ?_⟩
        by_cases hz : D.prof.z (m + 1) ≤ z
        · exact ⟨m + 1, le_refl _, hz, by linarith, f z hz h2⟩
        · -- the segment of `z` is one of the earlier ones
          push Not at hz
          have : ∀ k, j0 ≤ k → k ≤ m → z ≤ D.prof.z (k + 1) → ∃ i, j0 ≤ i ∧ i ≤ k ∧ D.prof.z i ≤ z ∧ z ≤ D.prof.z (i + 1) := by
            intro k hk
            induction k, hk using Nat.le_induction with
            | base => intro _ hz'; exact ⟨j0, le_refl _, le_refl _, by linarith, hz'⟩
            | succ k hk ihk =>
              intro hkm hz'
              by_cases hzk : D.prof.z (k + 1) ≤ z
              · exact ⟨k + 1, by omega, le_refl _, hzk, hz'⟩
              · obtain ⟨i, a1, a2, a3⟩ := ihk (by omega) (by linarith)
                exact ⟨i, a1, by omega, a3⟩
          obtain ⟨i, a1, a2, a3, a4⟩ := this m hm (le_refl _) hz.le
          exact ⟨i, by omega, a3, a4, h i z a1 a2 h1 a3 a4⟩
    · exact Or.inr ⟨j, z0, by omega, r⟩

theorem inLumen_line (D : Descr ℝ) (capx capy : Nat → ℝ) (c d : V3 ℝ) (z : ℝ) :
    InLumen D capx capy (lineAt c d z) ↔ ∃ j < D.prof.nmax, D.prof.z j ≤ z ∧ z ≤ D.prof.z (j + 1) ∧ excess D capx capy c d j z < 0 := by
  unfold InLumen excess
  simp only [sub_neg]
  rfl

/-- **The specification of a flight** from `c` in direction `d` to height `zend`: if the photon is in the opening of its capillary 10⁻⁵
downstream of `c`, then it stays in the opening (as long as it is in the optic) until `zend` – or it leaves the opening, at the height `z0`,
at one of the exceptional places of `Slip`. -/
def KeepsLumen (D : Descr ℝ) (capx capy : Nat → ℝ) (c d : V3 ℝ) (zend : ℝ) : Prop :=
  InLumen D capx capy (lineAt c d (c.z + 1 / 10 ^ 5)) →
    (∀ z, c.z + 1 / 10 ^ 5 ≤ z → z < zend → z ≤ D.prof.z D.prof.nmax → InLumen D capx capy (lineAt c d z)) ∨
    ∃ j z0, j < D.prof.nmax ∧ c.z + 1 / 10 ^ 5 < z0 ∧ z0 < zend ∧ Crossing D capx capy c d j z0 ∧
      (∀ z, c.z + 1 / 10 ^ 5 ≤ z → z < z0 → InLumen D capx capy (lineAt c d z)) ∧ Slip D capx capy d (lineAt c d z0) j

theorem ClearUntil.keeps {D : Descr ℝ} {capx capy : Nat → ℝ} {c d : V3 ℝ} {zend : ℝ} (g : Grid D.prof)
    (h : ClearUntil D capx capy c d zend) : KeepsLumen D capx capy c d zend := by
  intro hin
  obtain ⟨j0, hj0, a1, a2, a3⟩ := (inLumen_line ..).mp hin
  have htwo := g.two
  rcases stays_or_leaves D capx capy c d g j0 _ a1 a2 a3 (D.prof.nmax - 1) (by omega) (by omega) with hall | ⟨j, z0, b1, b2, b3, b4, b5, b6⟩
  · left
    intro z h1 _ h3
    obtain ⟨i, i1, i2, i3⟩ : ∃ i, i < D.prof.nmax ∧ D.prof.z i ≤ z ∧ z ≤ D.prof.z (i + 1) ∧ j0 ≤ i := by
      have : ∀ k, j0 ≤ k → k < D.prof.nmax → z ≤ D.prof.z (k + 1) → ∃ i, i < D.prof.nmax ∧ D.prof.z i ≤ z ∧ z ≤ D.prof.z (i + 1) ∧ j0 ≤ i := by
        intro k hk
        induction k, hk using Nat.le_induction with
        | base => intro hk hz'; exact ⟨j0, hk, by linarith, hz', le_refl _⟩
        | succ k hk ihk =>
          intro hkm hz'
          by_cases hzk : D.prof.z (k + 1) ≤ z
          · exact ⟨k + 1, hkm, hzk, hz', by omega⟩
          · exact ihk (by omega) (by linarith)
      exact this (D.prof.nmax - 1) (by omega) (by omega) (by rw [Nat.sub_add_cancel htwo]; exact h3)
    exact (inLumen_line ..).mpr ⟨i, i1, i2, i3.1, hall i z i3.2 (by omega) h1 i2 i3.1⟩
  · have inside : ∀ z, c.z + 1 / 10 ^ 5 ≤ z → z < z0 → InLumen D capx capy (lineAt c d z) := by
      intro z h1 h2
      obtain ⟨i, i1, i2, i3, i4⟩ := b6 z h1 h2
      exact (inLumen_line ..).mpr ⟨i, by omega, i2, i3, i4⟩
    by_cases hz : z0 < zend
    · right
      have hcr : Crossing D capx capy c d j z0 := ⟨b3, b4, (excess_wall ..).mpr b5⟩
      obtain ⟨z', c1, c2, c3, c4⟩ := h j z0 (by omega) hcr b2.le hz
      have : z' = z0 := by
        rcases c2.lt_or_eq with hlt | he
        · exfalso
          obtain ⟨i, i1, i2, i3, i4⟩ := b6 z' c3 hlt
          have hz' := (excess_wall ..).mp c1.2.2
          by_cases hij : i = j
          · rw [hij] at i4; linarith
          · -- `z'` is the profile point between the segments `i < j`
            have h1 : D.prof.z (i + 1) ≤ D.prof.z j := mono_of_step g.inc (by omega) (by omega)
            have e1 : z' = D.prof.z (i + 1) := le_antisymm i3 (h1.trans c1.1)
            have e2 : D.prof.z j = D.prof.z (i + 1) := le_antisymm (by rw [← e1]; exact c1.1) h1
            have hji : j = i + 1 := by
              by_contra hne
              have := strict_of_step g.inc (show i + 1 < j by omega) (by omega)
              linarith
            subst hji
            rw [e1, excess_join D capx capy c d i (g.inc i (by omega)) (g.inc (i + 1) (by omega))] at hz'
            rw [e1] at i4
            linarith
        · exact he
      subst this
      exact ⟨j, z', by omega, b2, hz, hcr, inside, c4⟩
    · left
      intro z h1 h2 _
      exact inside z h1 (by linarith)

/-- **The specification of a trajectory**: a broken line of straight flights between points of the wall of the capillary, with mirror
reflections at its corners, whose flights do not pass through the wall. -/
inductive Guarded (D : Descr ℝ) (capx capy : Nat → ℝ) : V3 ℝ → V3 ℝ → Nat → V3 ℝ → V3 ℝ → Prop
  | stop (c d : V3 ℝ) : Guarded D capx capy c d 0 c d
  | last {c d v n : V3 ℝ} {i : Nat} (f : Flight D capx capy c d v n i) (keep : KeepsLumen D capx capy c d v.z) : Guarded D capx capy c d 0 v d
  | bounce {c d v n d' c' d'' : V3 ℝ} {i m : Nat} (f : Flight D capx capy c d v n i) (keep : KeepsLumen D capx capy c d v.z)
      (unit : dot d' d' = 1) (mirror : Mirror d n d') (rest : Guarded D capx capy v d' m c' d'') : Guarded D capx capy c d (m + 1) c' d''

theorem traceLoop_guarded (D : Descr ℝ) (leak : Bool) (fuel kk : Nat) (capx capy : Nat → ℝ) (g : Grid D.prof)
    (hcap : ∀ i ≤ D.prof.nmax, 0 ≤ D.prof.cap i) :
    ∀ (k : Nat) (iesc : Int) (ix : Nat) (P : Photon ℝ) (c : Int) (ix' : Nat) (P' : Photon ℝ),
      dot P.exitD P.exitD = 1 → 0 ≤ P.exitC.z → D.prof.z ix ≤ P.exitC.z → ix ≤ D.prof.nmax → iesc ≠ -2 →
      traceLoop (trace D leak fuel kk capx capy) k iesc ix P = .ok (c, ix', P') →
      ∃ m, Guarded D capx capy P.exitC P.exitD m P'.exitC P'.exitD ∧ P'.i_refl = P.i_refl + m ∧
        (c = -2 → 0 < P'.exitD.z → ∀ zend, KeepsLumen D capx capy P'.exitC P'.exitD zend) := by
  intro k
  induction k with
  | zero =>
    intro iesc ix P c ix' P' hu _ _ _ hi h
    simp only [traceLoop] at h
    injection h with h; injection h with h1 h; injection h with h2 h3; subst h1 h3
    exact ⟨0, .stop _ _, by simp, fun h => absurd h hi⟩
  | succ k ih =>
    intro iesc ix P c ix' P' hu h0 hix hle hi h
    unfold traceLoop at h
    rw [Out.bind_eq_ok] at h
    obtain ⟨⟨c1, ix1, P1⟩, h1, h⟩ := h
    simp only at h
    have hm := (trace_moved D leak fuel kk capx capy ix P (by rw [hu]; norm_num) c1 ix1 P1 h1).flight hu
    have ht := trace_until D leak fuel kk capx capy g hcap ix P hu hix hle c1 ix1 P1 h1
    rcases hm with ⟨e1, e2, e3, e4, e5⟩ | ⟨n, i, f, e1, ⟨e2, e3, e4⟩ | ⟨e2, e3, e4, e5⟩⟩
    · rw [if_pos e5] at h
      injection h with h; injection h with h1 h; injection h with h2 h3; subst h1 h3
      refine ⟨0, ?_, by simpa using e4, fun hc hz zend => ?_⟩
      · rw [e1, e2]; exact .stop _ _
      · rw [e1, e2]
        rw [e2] at hz
        exact (((ht hz).2 hc).2 zend).keeps g
    · rw [if_pos e2] at h
      injection h with h; injection h with h1 h; injection h with h2 h3; subst h1 h3
      refine ⟨0, ?_, by simpa using e4, fun hc hz zend => ?_⟩
      · rw [e3]; exact .last f ((ht f.fwd).1.keeps g)
      · -- -2 only when the photon has not moved
        exfalso
        have := f.adv
        rw [((ht f.fwd).2 hc).1, sub_self] at this
        norm_num at this
    · rw [if_neg (by simp [e2])] at h
      have tc := trace_clear D leak fuel kk capx capy g hcap ix P hu h0 hix hle c1 ix1 P1 h1
      obtain ⟨u1, u2, u3⟩ := tc.1 e2
      obtain ⟨m, p, q1, q2⟩ := ih _ _ _ _ _ _ e3 u1 u2 u3 (by omega) h
      refine ⟨m + 1, .bounce f ((ht f.fwd).1.keeps g) e3 e4 p, ?_, q2⟩
      rw [q1, e5]; push_cast; ring

/-- **C84.** A photon launched in a capillary – whatever the launch returns, with or without leak calculation – has followed, up to its last
position, a `Guarded` trajectory in that capillary; and if it is reported as transmitted, flies downstream and has been reflected fewer times
than the profile has points, the rest of its line keeps to the opening in the same way as far as the optic reaches. -/
theorem launch_guarded_partial (lib : Xray ℝ) (D : Descr ℝ) (leak : Bool) (fuel k : Nat) (P : Photon ℝ) (es : List ℝ)
    (hes : es ≠ []) (hb : ∀ e ∈ es, 1 ≤ e ∧ e ≤ 100) (hd : dot P.startD P.startD ≠ 0) (g : Grid D.prof)
    (hcap : ∀ i ≤ D.prof.nmax, 0 ≤ D.prof.cap i) (h0 : 0 ≤ P.startC.z) (c : Int) (ws : List ℝ) (P' : Photon ℝ)
    (h : launch lib (some D) leak fuel k (some P) (some es) true = .ok (c, .filled ws, some P')) :
    ∃ qr m, launchCap D P.startC = some qr ∧
      Guarded D (axX D qr) (axY D qr) P.startC (vnorm P.startD) m P'.exitC P'.exitD ∧ P'.i_refl = m ∧
      (c = 1 → 0 < P'.exitD.z → m ≤ D.prof.nmax → ∀ zend, KeepsLumen D (axX D qr) (axY D qr) P'.exitC P'.exitD zend) := by
  obtain ⟨Q, hQ, he⟩ := launch_ended hes hb h
  injection hQ with hQ; subst hQ
  have h1 := vnorm_dot _ hd
  have hdir : (launchInit lib D es P).exitD = vnorm P.startD := by
    show vnorm (vnorm P.startD) = _
    exact vnorm_unit _ h1
  cases he with
  | within qr hc hw hl hz hz' w hx c o P' hy =>
    have hcc := launchWall_codes _ _ _ _ _ _ _ _ _ hy
    simp at hcc
  | inside qr hc hw c o P' hy =>
    obtain ⟨iesc, ix, Q', ht, -, -, -, k3, -, rfl⟩ := launchInside_inv _ _ _ _ _ _ _ _ _ hy
    have hix : segIdFrom D.prof.z 0 (launchInit lib D es P).startC.z (D.prof.nmax + 1) < D.prof.nmax + 1 := segId_lt _ _ _ _ (by omega)
    have hbl : D.prof.z (segIdFrom D.prof.z 0 (launchInit lib D es P).startC.z (D.prof.nmax + 1)) ≤ P.startC.z :=
      segId_below _ _ _ _ (by rw [g.start]; exact h0)
    obtain ⟨m, p, q1, q2⟩ := traceLoop_guarded D leak fuel k _ _ g hcap (D.prof.nmax + 1) 0 _ _ _ _ _ (by rw [hdir]; exact h1) h0
      hbl (by omega) (by decide) ht
    obtain ⟨-, t2⟩ := traceLoop_clear D leak fuel k _ _ g hcap (D.prof.nmax + 1) 0 _ _ _ _ _ (by rw [hdir]; exact h1) h0
      hbl (by omega) (by decide) ht
    rw [hdir] at p
    have q1' : (finish Q').i_refl = m := by
      rw [show (finish Q').i_refl = Q'.i_refl from rfl, q1]
      simp [launchInit]
    refine ⟨qr, m, hc, p, q1', fun hc1 hz hm zend => ?_⟩
    rcases k3.mpr hc1 with e | e
    · exfalso
      rcases t2 e with ⟨e', -⟩ | e'
      · simp at e'
      · rw [show (finish Q').i_refl = Q'.i_refl from rfl, e'] at q1'
        simp [launchInit] at q1'
        omega
    · exact q2 e hz zend

/-! ## The first 10⁻⁵ -/

theorem disc_convex (xa xb ua ub ya yb va vb R S t : ℝ) (ra : 0 ≤ R) (rb : 0 ≤ S) (t0 : 0 < t) (t1 : t < 1)
    (ea : (xa - ua) ^ 2 + (ya - va) ^ 2 - R ^ 2 ≤ 0) (eb : (xb - ub) ^ 2 + (yb - vb) ^ 2 - S ^ 2 < 0) :
    ((1 - t) * xa + t * xb - ((1 - t) * ua + t * ub)) ^ 2 + ((1 - t) * ya + t * yb - ((1 - t) * va + t * vb)) ^ 2 -
      ((1 - t) * R + t * S) ^ 2 < 0 := by
  rw [show (1 - t) * xa + t * xb - ((1 - t) * ua + t * ub) = (1 - t) * (xa - ua) + t * (xb - ub) by ring,
    show (1 - t) * ya + t * yb - ((1 - t) * va + t * vb) = (1 - t) * (ya - va) + t * (yb - vb) by ring]
  generalize xa - ua = p at *
  generalize xb - ub = q at *
  generalize ya - va = m at *
  generalize yb - vb = n at *
  have hcs : (p * q + m * n) ^ 2 ≤ (R * S) ^ 2 := by
    have h1 : (p * q + m * n) ^ 2 ≤ (p ^ 2 + m ^ 2) * (q ^ 2 + n ^ 2) := by nlinarith [sq_nonneg (p * n - m * q)]
    have h2 : (p ^ 2 + m ^ 2) * (q ^ 2 + n ^ 2) ≤ R ^ 2 * S ^ 2 := by
      apply mul_le_mul (by linarith) (by linarith) (by positivity) (by positivity)
    calc _ ≤ _ := h1
      _ ≤ _ := h2
      _ = _ := by ring
  have hdot : p * q + m * n ≤ R * S := abs_le_of_sq_le_sq' hcs (mul_nonneg ra rb) |>.2
  have e : ((1 - t) * p + t * q) ^ 2 + ((1 - t) * m + t * n) ^ 2 - ((1 - t) * R + t * S) ^ 2 =
      (1 - t) ^ 2 * (p ^ 2 + m ^ 2 - R ^ 2) + 2 * (t * (1 - t)) * (p * q + m * n - R * S) + t ^ 2 * (q ^ 2 + n ^ 2 - S ^ 2) := by ring
  rw [e]
  have a1 : (1 - t) ^ 2 * (p ^ 2 + m ^ 2 - R ^ 2) ≤ 0 := mul_nonpos_of_nonneg_of_nonpos (by positivity) ea
  have a2 : 2 * (t * (1 - t)) * (p * q + m * n - R * S) ≤ 0 :=
    mul_nonpos_of_nonneg_of_nonpos (by have := mul_pos t0 (sub_pos.mpr t1); linarith) (by linarith)
  have a3 : t ^ 2 * (q ^ 2 + n ^ 2 - S ^ 2) < 0 := mul_neg_of_pos_of_neg (by positivity) eb
  linarith

theorem excess_convex (D : Descr ℝ) (capx capy : Nat → ℝ) (c d : V3 ℝ) (j : Nat) (hinc : D.prof.z j < D.prof.z (j + 1))
    (hr0 : 0 ≤ D.prof.cap j) (hr1 : 0 ≤ D.prof.cap (j + 1)) (a b z : ℝ) (ha : D.prof.z j ≤ a) (hb : b ≤ D.prof.z (j + 1))
    (h1 : a < z) (h2 : z < b) (ea : excess D capx capy c d j a ≤ 0) (eb : excess D capx capy c d j b < 0) :
    excess D capx capy c d j z < 0 := by
  obtain ⟨t, t0, t1, rfl⟩ : ∃ t, 0 < t ∧ t < 1 ∧ z = (1 - t) * a + t * b := by
    refine ⟨(z - a) / (b - a), div_pos (by linarith) (by linarith), (div_lt_one (by linarith)).mpr (by linarith), ?_⟩
    have : b - a ≠ 0 := by linarith
    field_simp; ring
  have lin : ∀ v0 v1 : ℝ, linAt (D.prof.z j) (D.prof.z (j + 1)) v0 v1 ((1 - t) * a + t * b) =
      (1 - t) * linAt (D.prof.z j) (D.prof.z (j + 1)) v0 v1 a + t * linAt (D.prof.z j) (D.prof.z (j + 1)) v0 v1 b := by
    intro v0 v1; unfold linAt; ring
  have lx : (lineAt c d ((1 - t) * a + t * b)).x = (1 - t) * (lineAt c d a).x + t * (lineAt c d b).x := by unfold lineAt; ring
  have ly : (lineAt c d ((1 - t) * a + t * b)).y = (1 - t) * (lineAt c d a).y + t * (lineAt c d b).y := by unfold lineAt; ring
  have rpos : ∀ w, D.prof.z j ≤ w → w ≤ D.prof.z (j + 1) → 0 ≤ linAt (D.prof.z j) (D.prof.z (j + 1)) (D.prof.cap j) (D.prof.cap (j + 1)) w := by
    intro w w0 w1
    have hp : 0 < D.prof.z (j + 1) - D.prof.z j := by linarith
    have : linAt (D.prof.z j) (D.prof.z (j + 1)) (D.prof.cap j) (D.prof.cap (j + 1)) w =
        (D.prof.cap j * (D.prof.z (j + 1) - w) + D.prof.cap (j + 1) * (w - D.prof.z j)) / (D.prof.z (j + 1) - D.prof.z j) := by
      unfold linAt; field_simp; ring
    rw [this]
    exact div_nonneg (add_nonneg (mul_nonneg hr0 (by linarith)) (mul_nonneg hr1 (by linarith))) hp.le
  have ra := rpos a ha (by linarith)
  have rb := rpos b (by linarith) hb
  unfold excess at ea eb ⊢
  rw [lin, lin, lin, lx, ly]
  exact disc_convex _ _ _ _ _ _ _ _ _ _ t ra rb t0 t1 ea eb

/-- **C84**, the first stretch of a flight: if it starts in the opening or on the wall, and 10⁻⁵ further downstream – in the same segment of
the profile – is in the opening, then it is in the opening in between.  (So a flight that is in the opening 10⁻⁵ after its start is in the
opening from its start on, as far as the profile has no point in that stretch.) -/
theorem first_stretch (D : Descr ℝ) (capx capy : Nat → ℝ) (c d : V3 ℝ) (g : Grid D.prof) (hcap : ∀ i ≤ D.prof.nmax, 0 ≤ D.prof.cap i)
    (j : Nat) (hj : j < D.prof.nmax) (h0 : D.prof.z j ≤ c.z) (h1 : c.z + 1 / 10 ^ 5 < D.prof.z (j + 1))
    (hc : (c.x - linAt (D.prof.z j) (D.prof.z (j + 1)) (capx j) (capx (j + 1)) c.z) ^ 2 +
      (c.y - linAt (D.prof.z j) (D.prof.z (j + 1)) (capy j) (capy (j + 1)) c.z) ^ 2 ≤
      (linAt (D.prof.z j) (D.prof.z (j + 1)) (D.prof.cap j) (D.prof.cap (j + 1)) c.z) ^ 2)
    (hin : InLumen D capx capy (lineAt c d (c.z + 1 / 10 ^ 5))) :
    ∀ z, c.z < z → z ≤ c.z + 1 / 10 ^ 5 → InLumen D capx capy (lineAt c d z) := by
  intro z z0 z1
  have h5 : (0:ℝ) < 1 / 10 ^ 5 := by norm_num
  rcases z1.lt_or_eq with z1 | z1
  · have ea : excess D capx capy c d j c.z ≤ 0 := by
      unfold excess lineAt
      simp only [sub_self, zero_div, zero_mul, add_zero]
      linarith
    have eb : excess D capx capy c d j (c.z + 1 / 10 ^ 5) < 0 := by
      obtain ⟨i, i0, i1, i2, i3⟩ := (inLumen_line ..).mp hin
      have : i = j := by
        by_contra hne
        rcases Nat.lt_or_gt_of_ne hne with h | h
        · have := mono_of_step g.inc (show i + 1 ≤ j by omega) (by omega)
          linarith
        · have := mono_of_step g.inc (show j + 1 ≤ i by omega) (by omega)
          linarith
      rwa [this] at i3
    exact (inLumen_line ..).mpr ⟨j, hj, by linarith, by linarith,
      excess_convex D capx capy c d j (g.inc j hj) (hcap j (by omega)) (hcap (j + 1) (by omega)) _ _ z h0 h1.le z0 z1 ea eb⟩
  · rw [z1]; exact hin

/-! ## The hypotheses are met -/

/-- the photon of `z_launch` (two reflections in a straight tube): its trajectory is guarded, and its first flight starts in the opening and
has no exception before the wall at z = 1/2 -/
example : ∃ (P' : Photon ℝ), launch zLib (some zD) false 0 1 (some (exP ⟨0, 0, 0⟩ ⟨zs, 0, zc⟩ 0)) (some [10]) true = .ok (1, .filled [1], some P') ∧
    Guarded zD (axX zD (0, 0)) (axY zD (0, 0)) ⟨0, 0, 0⟩ (vnorm ⟨zs, 0, zc⟩) 2 P'.exitC P'.exitD ∧
    InLumen zD (axX zD (0, 0)) (axY zD (0, 0)) (lineAt ⟨0, 0, 0⟩ (vnorm ⟨zs, 0, zc⟩) (0 + 1 / 10 ^ 5)) := by
  obtain ⟨P1, h1, -, -, -, -, a1, -⟩ := z_launch 0 0 (exP ⟨0, 0, 0⟩ ⟨zs, 0, zc⟩ 0) rfl rfl
  obtain ⟨qr, m, hq, hg, hm, -⟩ := launch_guarded_partial zLib zD false 0 1 (exP ⟨0, 0, 0⟩ ⟨zs, 0, zc⟩ 0) [10] (by simp)
    (by intro e he; simp at he; subst he; norm_num) (by unfold dot exP; norm_num [zs, zc]) zGrid (by intro i _; simp [zD, zProf, zR]; norm_num)
    (le_refl _) 1 [1] P1 h1
  have hqr : qr = (0, 0) := by
    rcases launchCap_some hq with ⟨-, h⟩ | ⟨h, -⟩
    · exact h
    · exact absurd ((nShells_zero_iff zD.n_cap (by simp [zD])).mpr (by simp [zD])) h
  subst hqr
  have : m = 2 := by rw [a1] at hm; exact_mod_cast hm.symm
  subst this
  refine ⟨P1, h1, hg, 0, by simp [zD, zProf], ?_, ?_, ?_⟩
  · simp [zD, zProf, lineAt]
  · simp [zD, zProf, lineAt]; norm_num
  · have hu : vnorm (⟨zs, 0, zc⟩ : V3 ℝ) = ⟨zs, 0, zc⟩ := vnorm_unit _ (by unfold dot; norm_num [zs, zc])
    rw [hu, zX, zX, zY, zY]
    simp only [zD, zProf, lineAt, linAt, zs, zc, zR]
    norm_num


/-! ## The first 10⁻⁵ are not looked at -/

/-- **Finding (C84)**: a straight glass tube of radius 0.001 cm, wall 0.0005 cm, length 3 cm; a photon that enters 5·10⁻¹⁰ cm from the wall with
slope 10⁻⁴.  It reaches the wall after 5·10⁻⁶ cm – within the 10⁻⁵ cm that are not looked at – and from there on flies inside the glass up to the
end of the tube.  The launch returns 1, with weight 1 and no reflection, and nothing is reported, whatever the absorption of the glass. -/
theorem wall_passed (lib : Xray ℝ) (leak : Bool) (e : EArg) :
    (∃ P', launchE lib (some zD) leak 0 1 (some (exP ⟨zR - 5 / 10 ^ 10, 0, 0⟩ ⟨1 / 10 ^ 4, 0, 1⟩ 0)) (some [10]) true e =
        .ok ((1, .filled [1], some P'), report e (scatfRejects zD [10])) ∧ P'.i_refl = 0 ∧ P'.exitC = ⟨zR - 5 / 10 ^ 10, 0, 0⟩) ∧
    InLumen zD (axX zD (0, 0)) (axY zD (0, 0)) ⟨zR - 5 / 10 ^ 10, 0, 0⟩ ∧
    ∀ z, 1 / 10 ^ 5 ≤ z → z ≤ 3 →
      zR < (lineAt ⟨zR - 5 / 10 ^ 10, 0, 0⟩ ⟨1 / 10 ^ 4, 0, 1⟩ z).x ∧ (lineAt ⟨zR - 5 / 10 ^ 10, 0, 0⟩ ⟨1 / 10 ^ 4, 0, 1⟩ z).y = 0 ∧
      (lineAt ⟨zR - 5 / 10 ^ 10, 0, 0⟩ ⟨1 / 10 ^ 4, 0, 1⟩ z).x < 1500 / 999999 := by
  have hx : ∀ z, (lineAt ⟨zR - 5 / 10 ^ 10, 0, 0⟩ ⟨1 / 10 ^ 4, 0, 1⟩ z).x = zR - 5 / 10 ^ 10 + z / 10 ^ 4 := by
    intro z; simp only [lineAt]; ring
  have hy : ∀ z, (lineAt ⟨zR - 5 / 10 ^ 10, 0, 0⟩ ⟨1 / 10 ^ 4, 0, 1⟩ z).y = 0 := by
    intro z; simp only [lineAt]; ring
  have hzR : (0:ℝ) < zR := by norm_num [zR]
  refine ⟨?_, ?_, ?_⟩
  · obtain ⟨P', h, a, b, -⟩ := mono_clear_transmitted_partial lib zD (by simp [zD]) (by simp [zD]) zGrid
      ⟨fun i _ => by simp only [zD, zProf]; exact hzR.le, fun i _ => by simp only [zD, zProf]; norm_num⟩ leak 0 1
      (exP ⟨zR - 5 / 10 ^ 10, 0, 0⟩ ⟨1 / 10 ^ 4, 0, 1⟩ 0) [10] (by simp)
      (by intro e he; simp at he; subst he; norm_num) (le_refl _) (by simp [zD, zProf, exP]) (by simp [exP]) (1500 / 999999) zR
      (by have := valueAt_grid zGrid zProf.ext (i := 0) (by simp [zProf]); rwa [zGrid.start] at this)
      (by have := valueAt_grid zGrid zProf.cap (i := 0) (by simp [zProf]); rwa [zGrid.start] at this)
      (by simp only [exP]
          rw [show (zR - 5 / 10 ^ 10) ^ 2 + (0:ℝ) ^ 2 = (zR - 5 / 10 ^ 10) ^ 2 by ring, Real.sqrt_sq (by norm_num [zR])]
          norm_num)
      (by norm_num [zR])
      (by intro i hi
          simp only [zD, zProf, exP]
          norm_num)
      (by intro z r hz hv h
          have hr : r = zR := by
            obtain ⟨i, hi, z0, z1, rfl⟩ := hv
            simp [linAt, zD, zProf]
          simp only [exP] at h hz
          rw [hx, hy, hr] at h
          have h1 : zR < zR - 5 / 10 ^ 10 + z / 10 ^ 4 := by
            have : (1:ℝ) / 10 ^ 5 / 10 ^ 4 ≤ z / 10 ^ 4 := by apply div_le_div_of_nonneg_right _ (by norm_num); linarith
            norm_num at this ⊢
            linarith
          nlinarith)
      (by intro i hi _
          have hi : i = 0 := by simp only [zD, zProf] at hi; omega
          subst hi
          simp only [exP]
          unfold InHex
          simp only [hx, hy]
          have h3 : (17:ℝ) / 10 ≤ Real.sqrt 3 := by
            rw [show (17:ℝ) / 10 = Real.sqrt ((17 / 10) ^ 2) by rw [Real.sqrt_sq (by norm_num)]]
            exact Real.sqrt_le_sqrt (by norm_num)
          simp only [zD, zProf, cospi6, real_lit, zR]
          refine ⟨?_, ?_, ?_⟩ <;> (rw [abs_le]; constructor <;> (norm_num; try nlinarith))) e
    exact ⟨P', h, a, b⟩
  · refine ⟨0, by simp [zD, zProf], by simp [zD, zProf], by simp [zD, zProf], ?_⟩
    rw [zX, zX, zY, zY]
    simp only [zD, zProf, linAt, zR]
    norm_num
  · intro z z0 z1
    rw [hx, hy]
    refine ⟨?_, rfl, ?_⟩
    · have : (1:ℝ) / 10 ^ 5 / 10 ^ 4 ≤ z / 10 ^ 4 := by apply div_le_div_of_nonneg_right z0 (by norm_num)
      norm_num at this ⊢
      linarith
    · have : z / 10 ^ 4 ≤ 3 / 10 ^ 4 := by apply div_le_div_of_nonneg_right z1 (by norm_num)
      norm_num [zR] at this ⊢
      linarith

end Polycap
