import Verif.Props.CapSelect

/-!
# C44: the exterior-intersection search
-/
namespace Polycap
open CNum

variable {α : Type} [CNum α]

/-- index `j` is a valid index of the profile arrays -/
def ValidIdx (n : ℕ) (j : ℤ) : Prop := 0 ≤ j ∧ j ≤ n

instance (n : ℕ) (j : ℤ) : Decidable (ValidIdx n j) := by unfold ValidIdx; infer_instance

omit [CNum α] in
theorem rd_ok {f : ℕ → α} {n : ℕ} {i : ℤ} {v : α} : rd f n i = .ok v ↔ ValidIdx n i ∧ v = f i.toNat := by
  unfold rd ValidIdx
  split <;> simp_all [eq_comm]

omit [CNum α] in
theorem rd_ub {f : ℕ → α} {n : ℕ} {i : ℤ} : rd f n i = .ub ↔ ¬ ValidIdx n i := by
  unfold rd ValidIdx
  split <;> simp_all

omit [CNum α] in
theorem rd_ne_fuel {f : ℕ → α} {n : ℕ} {i : ℤ} : rd f n i ≠ .fuel := by
  unfold rd; split <;> simp

/-- in-optic status of the photon line at profile point `j` -/
def lineStatus (p : Profile α) (c d : V3 α) (j : ℕ) : ℤ :=
  withinPcBoundary (p.ext j) (projXY c d (p.z j)).1 (projXY c d (p.z j)).2

theorem pcSearch_step (p : Profile α) (c d : V3 α) (here dir : ℤ) (k : ℕ) (zid : ℤ) :
    pcSearch p c d here dir (k + 1) zid =
      if ValidIdx p.nmax (zid + dir) then
        (if here ≠ lineStatus p c d (zid + dir).toNat then .ok (some (zid + dir))
         else pcSearch p c d here dir k (zid + dir))
      else .ub := by
  by_cases h : ValidIdx p.nmax (zid + dir)
  · have h' : (0:ℤ) ≤ zid + dir ∧ zid + dir ≤ p.nmax := h
    simp only [pcSearch, rd, h', and_self, if_true, Out.bind_ok, h, bne_iff_ne]
    rfl
  · have h' : ¬ ((0:ℤ) ≤ zid + dir ∧ zid + dir ≤ p.nmax) := h
    simp only [pcSearch, rd, h', if_false, Out.bind_ub, h]

/-- The loop never stops without an answer: the `broke == 0` exit of the source is dead code, the loop
either finds a crossing or reads outside the arrays. -/
theorem pcSearch_down (p : Profile α) (c d : V3 α) (here : ℤ) :
    ∀ (k m : ℕ), m ≤ p.nmax + 1 → m < k →
      (∃ j < m, here ≠ lineStatus p c d j ∧ (∀ i, j < i → i < m → here = lineStatus p c d i) ∧
        pcSearch p c d here (-1) k m = .ok (some j)) ∨
      ((∀ j < m, here = lineStatus p c d j) ∧ pcSearch p c d here (-1) k m = .ub) := by
  intro k
  induction k with
  | zero => intro m _ h; omega
  | succ k ih =>
    intro m hm hk
    rw [pcSearch_step]
    cases m with
    | zero =>
      right
      refine ⟨by simp, ?_⟩
      rw [if_neg (by simp [ValidIdx])]
    | succ m =>
      have e : ((m + 1 : ℕ) : ℤ) + -1 = (m : ℤ) := by push_cast; ring
      rw [e, if_pos (by unfold ValidIdx; omega)]
      simp only [Int.toNat_natCast]
      by_cases hs : here = lineStatus p c d m
      · rw [if_neg (by simpa using hs)]
        rcases ih m (by omega) (by omega) with ⟨j, h1, h2, h3, h4⟩ | ⟨h1, h2⟩
        · left
          refine ⟨j, by omega, h2, fun i hi him => ?_, h4⟩
          by_cases hi2 : i = m
          · rw [hi2]; exact hs
          · exact h3 i hi (by omega)
        · right
          refine ⟨fun j hj => ?_, h2⟩
          by_cases hj2 : j = m
          · rw [hj2]; exact hs
          · exact h1 j (by omega)
      · rw [if_pos (by simpa using hs)]
        left
        exact ⟨m, by omega, hs, fun i h1 h2 => by omega, rfl⟩

theorem pcSearch_up (p : Profile α) (c d : V3 α) (here : ℤ) :
    ∀ (k m : ℕ), m ≤ p.nmax → p.nmax < m + k →
      (∃ j, m < j ∧ j ≤ p.nmax ∧ here ≠ lineStatus p c d j ∧ (∀ i, m < i → i < j → here = lineStatus p c d i) ∧
        pcSearch p c d here 1 k m = .ok (some j)) ∨
      ((∀ j, m < j → j ≤ p.nmax → here = lineStatus p c d j) ∧ pcSearch p c d here 1 k m = .ub) := by
  intro k
  induction k with
  | zero => intro m _ h; omega
  | succ k ih =>
    intro m hm hk
    rw [pcSearch_step]
    have e : ((m : ℕ) : ℤ) + 1 = ((m + 1 : ℕ) : ℤ) := by push_cast; ring
    rw [e]
    by_cases hlast : m = p.nmax
    · right
      refine ⟨fun j h1 h2 => by omega, ?_⟩
      rw [if_neg (by unfold ValidIdx; push_cast; omega)]
    · rw [if_pos (by unfold ValidIdx; push_cast; omega)]
      simp only [Int.toNat_natCast]
      by_cases hs : here = lineStatus p c d (m + 1)
      · rw [if_neg (by simpa using hs)]
        rcases ih (m + 1) (by omega) (by omega) with ⟨j, h1, h2, h3, h4, h5⟩ | ⟨h1, h2⟩
        · left
          refine ⟨j, by omega, h2, h3, fun i hi him => ?_, h5⟩
          by_cases hi2 : i = m + 1
          · rw [hi2]; exact hs
          · exact h4 i (by omega) him
        · right
          refine ⟨fun j hj hjn => ?_, h2⟩
          by_cases hj2 : j = m + 1
          · rw [hj2]; exact hs
          · exact h1 j (by omega) hjn
      · rw [if_pos (by simpa using hs)]
        left
        exact ⟨m + 1, by omega, by omega, hs, fun i h1 h2 => by omega, rfl⟩

/-- in-optic status of the point itself, as computed by the code -/
def ownStatus (p : Profile α) (c : V3 α) : ℤ :=
  withinPcBoundary (interpAt p p.ext (segIdFrom p.z 0 c.z p.nmax) c.z) c.x c.y

/-- **C44**, when exactly the search leaves the arrays (any number type): the arguments pass the guards
and the photon line has the same in-optic status as the given point at *all* profile points on the
searched side. -/
theorem pc_intersect_oob_iff (p : Profile α) (hn : 1 ≤ p.nmax) (c d : V3 α) (e : EArg) :
    pcIntersect p c d e = .ub ↔
      (d.z ==. lit 0) = false ∧ ownStatus p c ≠ 1 ∧
      (if (revDir d).z <. lit 0 then
        ∀ j ≤ segIdFrom p.z 0 c.z p.nmax, ownStatus p c = lineStatus p c (revDir d) j
       else ∀ j, segIdFrom p.z 0 c.z p.nmax < j → j ≤ p.nmax → ownStatus p c = lineStatus p c (revDir d) j) := by
  have hid := segId_lt p.z 0 c.z p.nmax hn
  unfold pcIntersect
  by_cases h0 : (d.z ==. lit 0) = true
  · simp [h0]
  simp only [h0, Bool.false_eq_true, if_false]
  by_cases h1 : ownStatus p c = 1
  · have h1' := h1
    unfold ownStatus at h1'
    simp [h1, h1']
  have h1' := h1
  unfold ownStatus at h1'
  simp only [h1', if_false]
  change (pcSearch p c (revDir d) (ownStatus p c) (if (revDir d).z <. lit 0 then -1 else 1) (p.nmax + 3)
    (if (revDir d).z <. lit 0 then ↑(segIdFrom p.z 0 c.z p.nmax) + 1 else ↑(segIdFrom p.z 0 c.z p.nmax)) >>= _) = _ ↔ _
  have fin_ne : ∀ dir j, ValidIdx p.nmax j → ValidIdx p.nmax (j - dir) →
      (pcFinish p c (revDir d) dir j >>= fun r => Out.ok (r, e)) ≠ Out.ub := by
    intro dir j hj hk
    unfold pcFinish
    unfold ValidIdx at hj hk
    simp only [rd, hj, hk, and_self, if_true, Out.bind_ok]
    intro hcon
    generalize (if dir < 0 then selectZ _ _ _ _ _ _ _ _ else selectZ _ _ _ _ _ _ _ _) = sel at hcon
    rcases sel with _ | _ | _ <;> simp at hcon
  by_cases hd : ((revDir d).z <. lit 0) = true
  · simp only [hd, if_true]
    rw [show ((segIdFrom p.z 0 c.z p.nmax : ℕ) : ℤ) + 1 = ((segIdFrom p.z 0 c.z p.nmax + 1 : ℕ) : ℤ) by push_cast; ring]
    rcases pcSearch_down p c (revDir d) (ownStatus p c) (p.nmax + 3) (segIdFrom p.z 0 c.z p.nmax + 1) (by omega) (by omega) with
      ⟨j, h2, h3, h4, h5⟩ | ⟨h2, h3⟩
    · rw [h5]
      simp only [Out.bind_ok]
      constructor
      · intro h
        exact absurd h (fin_ne (-1) _ (by unfold ValidIdx; omega) (by unfold ValidIdx; omega))
      · rintro ⟨-, -, h⟩
        exact absurd (h j (by omega)) h3
    · rw [h3]
      simp only [Out.bind_ub, true_iff]
      refine ⟨by simp, h1, fun j hj => h2 j (by omega)⟩
  · simp only [hd, Bool.false_eq_true, if_false]
    rcases pcSearch_up p c (revDir d) (ownStatus p c) (p.nmax + 3) (segIdFrom p.z 0 c.z p.nmax) (by omega) (by omega) with
      ⟨j, h2, h3, h4, h5, h6⟩ | ⟨h2, h3⟩
    · rw [h6]
      simp only [Out.bind_ok]
      constructor
      · intro h
        exact absurd h (fin_ne 1 _ (by unfold ValidIdx; omega) (by unfold ValidIdx; omega))
      · rintro ⟨-, -, h⟩
        exact absurd (h j h2 h3) h4
    · rw [h3]
      simp only [Out.bind_ub, true_iff]
      exact ⟨by simp, h1, h2⟩

/-- The search loop always ends (it needs at most `nmax + 3` iterations). -/
theorem pc_intersect_terminates (p : Profile α) (hn : 1 ≤ p.nmax) (c d : V3 α) (e : EArg) :
    pcIntersect p c d e ≠ .fuel := by
  have hid := segId_lt p.z 0 c.z p.nmax hn
  unfold pcIntersect
  by_cases h0 : (d.z ==. lit 0) = true
  · simp [h0]
  simp only [h0, Bool.false_eq_true, if_false]
  by_cases h1 : ownStatus p c = 1
  · have h1' := h1
    unfold ownStatus at h1'
    simp [h1']
  have h1' := h1
  unfold ownStatus at h1'
  simp only [h1', if_false]
  have fin_ne : ∀ dir j, (pcFinish p c (revDir d) dir j >>= fun r => Out.ok (r, e)) ≠ Out.fuel := by
    intro dir j hcon
    unfold pcFinish at hcon
    rcases r1 : rd p.z p.nmax j with v | _ | _ <;> simp [r1] at hcon
    · rcases r2 : rd p.z p.nmax (j - dir) with v2 | _ | _ <;> simp [r2] at hcon
      · rcases r3 : rd p.ext p.nmax j with v3 | _ | _ <;> simp [r3] at hcon
        · rcases r4 : rd p.ext p.nmax (j - dir) with v4 | _ | _ <;> simp [r4] at hcon
          · generalize (if dir < 0 then selectZ _ _ _ _ _ _ _ _ else selectZ _ _ _ _ _ _ _ _) = sel at hcon
            rcases sel with _ | _ | _ <;> simp at hcon
          · exact rd_ne_fuel r4
        · exact rd_ne_fuel r3
      · exact rd_ne_fuel r2
    · exact rd_ne_fuel r1
  change (pcSearch p c (revDir d) (ownStatus p c) (if (revDir d).z <. lit 0 then -1 else 1) (p.nmax + 3)
    (if (revDir d).z <. lit 0 then ↑(segIdFrom p.z 0 c.z p.nmax) + 1 else ↑(segIdFrom p.z 0 c.z p.nmax)) >>= _) ≠ _
  by_cases hd : ((revDir d).z <. lit 0) = true
  · simp only [hd, if_true]
    rw [show ((segIdFrom p.z 0 c.z p.nmax : ℕ) : ℤ) + 1 = ((segIdFrom p.z 0 c.z p.nmax + 1 : ℕ) : ℤ) by push_cast; ring]
    rcases pcSearch_down p c (revDir d) (ownStatus p c) (p.nmax + 3) (segIdFrom p.z 0 c.z p.nmax + 1) (by omega) (by omega) with
      ⟨j, h2, h3, h4, h5⟩ | ⟨h2, h3⟩
    · rw [h5]; exact fin_ne _ _
    · rw [h3]; simp
  · simp only [hd, Bool.false_eq_true, if_false]
    rcases pcSearch_up p c (revDir d) (ownStatus p c) (p.nmax + 3) (segIdFrom p.z 0 c.z p.nmax) (by omega) (by omega) with
      ⟨j, h2, h3, h4, h5, h6⟩ | ⟨h2, h3⟩
    · rw [h6]; exact fin_ne _ _
    · rw [h3]; simp

/-! ## What a returned point satisfies -/

omit [CNum α] in
/-- whatever `selectZ` picks is one of the viable candidates -/
theorem selectZ_viable {ge gt : α → α → Bool} {P : α → Bool} {z1 z2 z3 z : α}
    (h : selectZ ge gt (P z1) (P z2) (P z3) z1 z2 z3 = some (some z)) : P z = true := by
  unfold selectZ at h
  split_ifs at h <;> simp_all

/-- **C44.** A returned point lies on the photon's straight line, its z is inside one segment
`[z[k], z[k+1]]` of the profile (the segment in which the in-optic status of the photon line changes for
the first time on the way back), and the search read only existing profile points (otherwise the
outcome would be `ub`). -/
theorem pc_intersect_sound_partial (p : Profile ℝ) (hn : 1 ≤ p.nmax) (hz : ∀ i < p.nmax, p.z i < p.z (i + 1))
    (c d v : V3 ℝ) (e e' : EArg) (h : pcIntersect p c d e = .ok (some v, e')) :
    (∃ t : ℝ, v.x = c.x + t * d.x ∧ v.y = c.y + t * d.y ∧ v.z = c.z + t * d.z) ∧
    (∃ k < p.nmax, p.z k ≤ v.z ∧ v.z ≤ p.z (k + 1) ∧
      (if 0 < d.z then ownStatus p c ≠ lineStatus p c (revDir d) k ∧
        ∀ i, k < i → i ≤ segIdFrom p.z 0 c.z p.nmax → ownStatus p c = lineStatus p c (revDir d) i
       else ownStatus p c ≠ lineStatus p c (revDir d) (k + 1) ∧
        ∀ i, segIdFrom p.z 0 c.z p.nmax < i → i ≤ k → ownStatus p c = lineStatus p c (revDir d) i)) ∧
    e' = e := by
  have hid := segId_lt p.z 0 c.z p.nmax hn
  unfold pcIntersect at h
  by_cases h0 : d.z = 0
  · simp [h0] at h
  have hz0 : (d.z ==. (lit 0 : ℝ)) = false := by simpa using h0
  simp only [hz0, Bool.false_eq_true, if_false] at h
  by_cases h1 : ownStatus p c = 1
  · have h1' := h1
    unfold ownStatus at h1'
    simp [h1'] at h
  have h1' := h1
  unfold ownStatus at h1'
  simp only [h1', if_false] at h
  -- the reversed unit direction
  have hsq : 0 < d.x * d.x + d.y * d.y + d.z * d.z := by
    have : 0 < d.z * d.z := mul_self_pos.mpr h0
    nlinarith [mul_self_nonneg d.x, mul_self_nonneg d.y]
  have hrev : ∃ s > 0, revDir d = ⟨-(s * d.x), -(s * d.y), -(s * d.z)⟩ := by
    refine ⟨1 / Real.sqrt (d.x * d.x + d.y * d.y + d.z * d.z), div_pos one_pos (Real.sqrt_pos.mpr hsq), ?_⟩
    simp only [revDir, vnorm, real_mul, real_lit, real_div, real_add, real_sqrt]
    norm_num
    refine ⟨?_, ?_, ?_⟩ <;> ring
  obtain ⟨s, hs, hrd⟩ := hrev
  have hline : ∀ zz : ℝ, ∃ t : ℝ, proj3 c (revDir d) zz = ⟨c.x + t * d.x, c.y + t * d.y, c.z + t * d.z⟩ ∧
      (proj3 c (revDir d) zz).z = zz := by
    intro zz
    refine ⟨(zz - c.z) / d.z, ?_, ?_⟩
    · simp only [proj3, hrd, real_add, real_mul, real_sub, real_div]
      congr 1 <;> field_simp
    · simp only [proj3, hrd, real_add, real_mul, real_sub, real_div]
      field_simp
      ring
  have hrz : ((revDir d).z <. (lit 0 : ℝ)) = decide (0 < d.z) := by
    rw [hrd]
    simp only [real_lt, real_lit, Rat.cast_zero]
    congr 1
    apply propext
    constructor
    · intro h; by_contra hc; push Not at hc; nlinarith
    · intro h; have := mul_pos hs h; linarith
  -- the final computation
  have hfin : ∀ dir j r, ValidIdx p.nmax j → ValidIdx p.nmax (j - dir) → dir ≠ 0 →
      (if dir < 0 then p.z j.toNat ≤ p.z (j - dir).toNat else p.z (j - dir).toNat ≤ p.z j.toNat) →
      pcFinish p c (revDir d) dir j = .ok (some r) →
      (∃ t : ℝ, r.x = c.x + t * d.x ∧ r.y = c.y + t * d.y ∧ r.z = c.z + t * d.z) ∧
      (if dir < 0 then p.z j.toNat ≤ r.z ∧ r.z ≤ p.z (j - dir).toNat
        else p.z (j - dir).toNat ≤ r.z ∧ r.z ≤ p.z j.toNat) := by
    intro dir j r hj hk hdir hle hr
    unfold pcFinish at hr
    unfold ValidIdx at hj hk
    simp only [rd, hj, hk, and_self, if_true, Out.bind_ok] at hr
    by_cases hneg : dir < 0
    · simp only [hneg, if_true] at hr ⊢
      rw [if_pos hneg] at hle
      set sel := selectZ (α := ℝ) _ _ _ _ _ _ _ _ with hsel
      rcases hcase : sel with _ | _ | zf
      · simp [hcase] at hr
      · simp only [hcase, Out.ok.injEq, Option.some.injEq] at hr
        obtain ⟨t, ht1, ht2⟩ := hline (p.z (j - dir).toNat)
        rw [hr] at ht1 ht2
        refine ⟨⟨t, by rw [ht1], by rw [ht1], by rw [ht1]⟩, by rw [ht2]; exact ⟨hle, le_refl _⟩⟩
      · simp only [hcase, Out.ok.injEq, Option.some.injEq] at hr
        obtain ⟨t, ht1, ht2⟩ := hline zf
        rw [hr] at ht1 ht2
        have hv := selectZ_viable (P := fun z => z >=. p.z j.toNat && z <=. p.z (j - dir).toNat) (hsel.symm.trans hcase)
        simp only [real_le, Bool.and_eq_true, decide_eq_true_eq] at hv
        refine ⟨⟨t, by rw [ht1], by rw [ht1], by rw [ht1]⟩, by rw [ht2]; exact hv⟩
    · simp only [hneg, if_false] at hr ⊢
      rw [if_neg hneg] at hle
      set sel := selectZ (α := ℝ) _ _ _ _ _ _ _ _ with hsel
      rcases hcase : sel with _ | _ | zf
      · simp [hcase] at hr
      · simp only [hcase, Out.ok.injEq, Option.some.injEq] at hr
        obtain ⟨t, ht1, ht2⟩ := hline (p.z (j - dir).toNat)
        rw [hr] at ht1 ht2
        refine ⟨⟨t, by rw [ht1], by rw [ht1], by rw [ht1]⟩, by rw [ht2]; exact ⟨le_refl _, hle⟩⟩
      · simp only [hcase, Out.ok.injEq, Option.some.injEq] at hr
        obtain ⟨t, ht1, ht2⟩ := hline zf
        rw [hr] at ht1 ht2
        have hv := selectZ_viable (P := fun z => z <=. p.z j.toNat && z >=. p.z (j - dir).toNat) (hsel.symm.trans hcase)
        simp only [real_le, Bool.and_eq_true, decide_eq_true_eq] at hv
        refine ⟨⟨t, by rw [ht1], by rw [ht1], by rw [ht1]⟩, by rw [ht2]; exact hv.symm⟩
  change (pcSearch p c (revDir d) (ownStatus p c) (if (revDir d).z <. lit 0 then -1 else 1) (p.nmax + 3)
    (if (revDir d).z <. lit 0 then ↑(segIdFrom p.z 0 c.z p.nmax) + 1 else ↑(segIdFrom p.z 0 c.z p.nmax)) >>= _) = _ at h
  rw [hrz] at h
  by_cases hd : 0 < d.z
  · simp only [hd, decide_true, if_true] at h
    rw [show ((segIdFrom p.z 0 c.z p.nmax : ℕ) : ℤ) + 1 = ((segIdFrom p.z 0 c.z p.nmax + 1 : ℕ) : ℤ) by push_cast; ring] at h
    rcases pcSearch_down p c (revDir d) (ownStatus p c) (p.nmax + 3) (segIdFrom p.z 0 c.z p.nmax + 1) (by omega) (by omega) with
      ⟨j, h2, h3, h4, h5⟩ | ⟨h2, h3⟩
    · rw [h5] at h
      simp only [Out.bind_ok] at h
      obtain ⟨r, hr, h⟩ := Out.bind_eq_ok.mp h
      simp only [Out.ok.injEq, Prod.mk.injEq] at h
      obtain ⟨h, he⟩ := h
      subst h
      have hj1 : ((j:ℤ) - -1).toNat = j + 1 := by omega
      obtain ⟨f1, f2⟩ := hfin (-1) j v (by unfold ValidIdx; omega) (by unfold ValidIdx; omega) (by norm_num)
        (by simp only [hj1, Int.toNat_natCast]; simpa using (hz j (by omega)).le) hr
      simp only [hj1, Int.toNat_natCast] at f2
      refine ⟨f1, ⟨j, by omega, ?_, ?_, ?_⟩, he.symm⟩
      · simpa using f2.1
      · simpa using f2.2
      · simp only [hd, if_true]
        exact ⟨h3, fun i h1 h2 => h4 i h1 (by omega)⟩
    · rw [h3] at h; simp at h
  · simp only [hd, decide_false, Bool.false_eq_true, if_false] at h
    rcases pcSearch_up p c (revDir d) (ownStatus p c) (p.nmax + 3) (segIdFrom p.z 0 c.z p.nmax) (by omega) (by omega) with
      ⟨j, h2, h3, h4, h5, h6⟩ | ⟨h2, h3⟩
    · rw [h6] at h
      simp only [Out.bind_ok] at h
      obtain ⟨r, hr, h⟩ := Out.bind_eq_ok.mp h
      simp only [Out.ok.injEq, Prod.mk.injEq] at h
      obtain ⟨h, he⟩ := h
      subst h
      have hj1 : ((j:ℤ) - 1).toNat = j - 1 := by omega
      have hj2 : j - 1 + 1 = j := by omega
      obtain ⟨f1, f2⟩ := hfin 1 j v (by unfold ValidIdx; omega) (by unfold ValidIdx; omega) (by norm_num)
        (by simp only [hj1, Int.toNat_natCast]
            have := (hz (j - 1) (by omega)).le
            rw [hj2] at this
            simpa using this) hr
      simp only [hj1, Int.toNat_natCast] at f2
      refine ⟨f1, ⟨j - 1, by omega, ?_, ?_, ?_⟩, he.symm⟩
      · simpa using f2.1
      · rw [hj2]; simpa using f2.2
      · simp only [hd, if_false]
        rw [hj2]
        exact ⟨h4, fun i h1 h2 => h5 i h1 (by omega)⟩
    · rw [h3] at h; simp at h

/-! ## The search can leave the arrays -/

theorem withinPc_outside (r x y : ℝ) (hr : 0 < r) (h : Real.sqrt 3 / 2 * r < |y|) : withinPcBoundary r x y = 0 := by
  rcases boundary_range r x y with h1 | h1 | h1
  · have := (boundary_one_iff r x y).mp h1
    have := this.2.1
    linarith
  · exact h1
  · have := (boundary_error_iff r x y).mp h1
    linarith

/-- **C44 is false of the code:** for a straight optic of radius 1 and length 2 and a photon outside of it
flying parallel to the axis, the search reads `z[-1]`. -/
theorem pc_intersect_oob : pcIntersect (straight (1/10) 1) ⟨0, 2, 2⟩ ⟨0, 0, 1⟩ (some none) = .ub := by
  obtain ⟨s1, s2⟩ := sqrt3_bounds
  have hrev : revDir (⟨0, 0, 1⟩ : V3 ℝ) = ⟨0, 0, -1⟩ := by
    simp [revDir, vnorm]
  have hcur : ∀ id, interpAt (straight (1/10) 1) (straight (1/10) 1).ext id (2:ℝ) = 1 := by
    intro id; simp [interpAt, interp, straight]
  have hout : withinPcBoundary (1:ℝ) 0 2 = 0 := withinPc_outside _ _ _ (by norm_num) (by rw [abs_of_pos (by norm_num)]; linarith)
  have hown : ownStatus (straight (1/10) 1) ⟨0, 2, 2⟩ = 0 := by
    unfold ownStatus
    rw [hcur, hout]
  rw [pc_intersect_oob_iff _ (by simp [straight]), hown, hrev]
  refine ⟨by simp, by norm_num, ?_⟩
  rw [if_pos (by simp)]
  intro j _
  unfold lineStatus
  have : projXY (⟨0, 2, 2⟩ : V3 ℝ) ⟨0, 0, -1⟩ ((straight (1/10) 1).z j) = (0, 2) := by
    simp [projXY]
  rw [this]
  exact hout.symm

/-- Non-vacuity of `pc_intersect_sound_partial`, and a finding: for a straight optic of radius 1 and a photon
that left it through the side on the line `y = z`, the point returned is (0, 1, 1), which is
*outside* the optic (the wall is at `y = √3/2`) – the source interpolates `ext` where it should
interpolate `z` (polycap-photon.c:260-262). -/
theorem pc_intersect_off_surface :
    pcIntersect (straight (1/10) 1) ⟨0, 2, 2⟩ ⟨0, 1, 1⟩ (some none) = .ok (some ⟨0, 1, 1⟩, some none) ∧
    withinPcBoundary (1:ℝ) 0 1 = 0 := by
  obtain ⟨s1, s2⟩ := sqrt3_bounds
  have hout : ∀ y : ℝ, 1 ≤ y → withinPcBoundary (1:ℝ) 0 y = 0 := fun y hy =>
    withinPc_outside _ _ _ (by norm_num) (by rw [abs_of_pos (by linarith)]; linarith)
  refine ⟨?_, hout 1 (le_refl _)⟩
  have hpos : 0 < Real.sqrt (1 + 1) := by positivity
  have hrev : revDir (⟨0, 1, 1⟩ : V3 ℝ) = ⟨0, -1 / Real.sqrt (1+1), -1 / Real.sqrt (1+1)⟩ := by
    simp [revDir, vnorm]
  have hseg : segIdFrom (straight (1/10) 1).z 0 (2:ℝ) (straight (1/10) 1).nmax = 1 := by
    simp [straight, segIdFrom]
  have hcur : interpAt (straight (1/10) 1) (straight (1/10) 1).ext 1 (2:ℝ) = 1 := by
    simp [interpAt, interp, straight]
  have hproj : ∀ zz : ℝ, projXY (⟨0, 2, 2⟩ : V3 ℝ) ⟨0, -1 / Real.sqrt (1+1), -1 / Real.sqrt (1+1)⟩ zz = (0, zz) := by
    intro zz
    simp only [projXY, real_add, real_mul, real_sub, real_div]
    refine Prod.ext ?_ ?_
    · simp
    · show 2 + -1 / Real.sqrt (1+1) * (zz - 2) / (-1 / Real.sqrt (1+1)) = zz
      field_simp; ring
  have hproj3 : ∀ zz : ℝ, proj3 (⟨0, 2, 2⟩ : V3 ℝ) ⟨0, -1 / Real.sqrt (1+1), -1 / Real.sqrt (1+1)⟩ zz = ⟨0, zz, zz⟩ := by
    intro zz
    simp only [proj3, real_add, real_mul, real_sub, real_div]
    congr 1
    · simp
    · field_simp; ring
    · field_simp; ring
  have hst : ∀ j : ℕ, lineStatus (straight (1/10) 1) ⟨0, 2, 2⟩ ⟨0, -1 / Real.sqrt (1+1), -1 / Real.sqrt (1+1)⟩ j =
      withinPcBoundary (1:ℝ) 0 j := by
    intro j; unfold lineStatus; rw [hproj]; simp [straight]
  have hin : withinPcBoundary (1:ℝ) 0 0 = 1 :=
    (boundary_one_iff _ _ _).mpr ⟨by norm_num, by simp [InHex]; positivity⟩
  unfold pcIntersect
  simp only [hrev, hseg, hcur, hout 2 (by norm_num)]
  have hlt : ((-1 / Real.sqrt (1 + 1)) <. (lit 0 : ℝ)) = true := by
    simp only [real_lt, real_lit, Rat.cast_zero, decide_eq_true_eq]
    exact div_neg_of_neg_of_pos (by norm_num) hpos
  simp only [hlt, if_true]
  have search : pcSearch (straight (1/10) 1) ⟨0, 2, 2⟩ ⟨0, -1 / Real.sqrt (1+1), -1 / Real.sqrt (1+1)⟩ 0 (-1)
      ((straight (1/10) 1).nmax + 3) ((1:ℕ) + 1) = .ok (some 0) := by
    rw [pcSearch_step, if_pos (by simp [ValidIdx, straight]), hst, if_neg (by
      simp only [ne_eq, not_not]; norm_num; exact (hout 1 (le_refl _)).symm)]
    rw [pcSearch_step, if_pos (by simp [ValidIdx]), hst, if_pos (by
      norm_num; rw [hin]; norm_num)]
    norm_num
  rw [search]
  simp only [Out.bind_ok]
  have fin : pcFinish (straight (1/10) 1) ⟨0, 2, 2⟩ ⟨0, -1 / Real.sqrt (1+1), -1 / Real.sqrt (1+1)⟩ (-1) 0 =
      .ok (some ⟨0, 1, 1⟩) := by
    unfold pcFinish
    have e0 : ∀ db de dpb dpe : ℝ, edgeZ 1 1 db de dpb dpe = 1 := by
      intro db de dpb dpe; simp [edgeZ]
    simp [rd, straight, hproj3, e0, selectZ]
  rw [fin]
  simp

end Polycap
