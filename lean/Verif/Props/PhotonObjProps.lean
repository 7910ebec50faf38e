import Verif.PhotonObj
import Verif.Props.LaunchFindings
import Verif.Props.LaunchSafe

/-!
# C76: a photon object reports what it was made with

Specification: the arguments of `polycap_photon_new` themselves.  Histories: any list of launches (`Call`), with good or bad arguments, with or
without leak calculation.
-/
namespace Polycap.Obj
open CNum

/-- **C76**, domain of `polycap_photon_new`: an object exactly for a description, a start point and direction that do not point upstream, and
enough memory; NULL comes with an error, an object without. -/
theorem photon_new_iff (hasD mem : Bool) (c d E : V3 ℝ) (e : EArg) :
    ((photonNewE hasD mem c d E e).1.isSome ↔ hasD = true ∧ 0 ≤ c.z ∧ 0 ≤ d.z ∧ mem = true) ∧
    ((photonNewE hasD mem c d E e).1.isSome → (photonNewE hasD mem c d E e).2 = e) ∧
    ((photonNewE hasD mem c d E e).1 = none →
      (photonNewE hasD mem c d E e).2 = e.set (if hasD = true ∧ 0 ≤ c.z ∧ 0 ≤ d.z then .memory else .invalidArgument)) := by
  have e0 : ((0:ℚ):ℝ) = 0 := by norm_num
  unfold photonNewE
  by_cases h1 : hasD = true
  · by_cases h2 : c.z < 0
    · simp [h1, h2]; rw [if_neg (by rintro ⟨a, -⟩; linarith)]
    · by_cases h3 : d.z < 0
      · simp [h1, h2, h3]; rw [if_neg (by rintro ⟨-, a⟩; linarith)]
      · by_cases h4 : mem = true
        · simp [h1, h2, h3, h4, photonNew]; exact ⟨not_lt.1 h2, not_lt.1 h3⟩
        · simp [h1, h2, h3, h4]
          rw [if_pos ⟨not_lt.1 h2, not_lt.1 h3⟩]
  · simp [h1]

/-- **C76**, a new photon: every getter gives the start value, no distance, no reflections. -/
theorem new_photon_reads (hasD mem : Bool) (c d E : V3 ℝ) (e e' : EArg) (P : Photon ℝ) (h : photonNewE hasD mem c d E e = (some P, e')) :
    getStartC (some P) = .ok c ∧ getStartD (some P) = .ok d ∧ getStartE (some P) = .ok E ∧
    getExitC (some P) = .ok c ∧ getExitD (some P) = .ok d ∧ getExitE (some P) = .ok E ∧
    getDtravel (some P) = .ok 0 ∧ getIrefl (some P) = .ok 0 := by
  unfold photonNewE at h
  split at h
  · cases h
  split at h
  · cases h
  split at h
  · cases h
  split at h
  · cases h
  · next h1 h2 h3 h4 =>
    rw [photonNew, if_neg h2, if_neg h3] at h
    cases h
    simp [getStartC, getStartD, getStartE, getExitC, getExitD, getExitE, getDtravel, getIrefl, deref]

/-- one call of `polycap_photon_launch` on the photon -/
structure Call where
  leak : Bool
  fuel : Nat
  k : Nat
  energies : Option (List ℝ)
  wptr : Bool

/-- the call has an energy list in [1,100] and a place for the weights -/
def Call.Good (c : Call) : Prop := ∃ es, c.energies = some es ∧ es ≠ [] ∧ (∀ e ∈ es, 1 ≤ e ∧ e ≤ 100) ∧ c.wptr = true

/-- a history of launches of one photon made from the optic `D` -/
noncomputable def history (lib : Xray ℝ) (D : Descr ℝ) : List Call → Photon ℝ → Out (Option (Photon ℝ))
  | [], P => .ok (some P)
  | c :: cs, P => do
    let r ← launch lib (some D) c.leak c.fuel c.k (some P) c.energies c.wptr
    match r.2.2 with
    | some P' => history lib D cs P'
    | none => .ok none

theorem good_iff (lib : Xray ℝ) (D : Descr ℝ) (P : Photon ℝ) (c : Call) : ¬ ArgsBad (some D) (some P) c.energies c.wptr ↔ c.Good := by
  unfold ArgsBad Call.Good
  cases he : c.energies with
  | none => simp
  | some es =>
    simp [energyBad]

open Classical in
/-- the direction a photon made with `d` reports after the calls: `d` itself until the first good call, then the unit vector along `d` -/
noncomputable def reported (d : V3 ℝ) (cs : List Call) : V3 ℝ := if ∃ c ∈ cs, c.Good then vnorm d else d

theorem launch_call (lib : Xray ℝ) (D : Descr ℝ) (P : Photon ℝ) (c : Call) (hd : dot P.startD P.startD ≠ 0) (r : Int × WOut ℝ × Option (Photon ℝ))
    (h : launch lib (some D) c.leak c.fuel c.k (some P) c.energies c.wptr = .ok r) :
    ∃ P', r.2.2 = some P' ∧ P'.startC = P.startC ∧ P'.startE = P.startE ∧ P'.startD = reported P.startD [c] := by
  by_cases hg : c.Good
  · obtain ⟨es, he, h1, h2, h3⟩ := hg
    rw [he, h3] at h
    obtain ⟨a, o, P'⟩ := r
    cases P' with
    | none =>
      exfalso
      obtain ⟨D', Q, es', e1, e2, e3, -, -, -, h'⟩ := launch_valid lib (some D) c.leak c.fuel c.k (some P) (some es) true (not_argsBad h1 h2)
      rw [h', Out.bind_eq_ok] at h
      obtain ⟨x, -, h⟩ := h
      cases h
    | some P' =>
      obtain ⟨s1, s2, s3⟩ := launch_start lib D c.leak c.fuel c.k P es h1 h2 hd a o P' h
      refine ⟨P', rfl, s1, s3, ?_⟩
      rw [s2, reported, if_pos ⟨c, by simp, es, he, h1, h2, h3⟩]
  · obtain ⟨P', e1, e2, e3⟩ := launch_invalid lib (some D) c.leak c.fuel c.k (some P) c.energies c.wptr
      (by by_contra hb; exact hg ((good_iff lib D P c).1 hb))
    rw [h] at e1
    injection e1 with e1
    subst e1
    cases P' with
    | none => simp at e2
    | some P' =>
      have := e3 P P' rfl rfl
      refine ⟨P', rfl, by rw [this], by rw [this], ?_⟩
      rw [reported, if_neg (by simpa using hg), this]

/-- **C76.**  Whatever launches are made, a photon's start point and electric vector read as given to `polycap_photon_new`, its start direction as given
until the first launch with good arguments, then as the unit vector along it. -/
theorem photon_keeps_start (lib : Xray ℝ) (D : Descr ℝ) (c d E : V3 ℝ) (hd : d ≠ ⟨0, 0, 0⟩) (e e' : EArg) (P : Photon ℝ)
    (h : photonNewE true true c d E e = (some P, e')) (cs : List Call) (P' : Option (Photon ℝ)) (hh : history lib D cs P = .ok P') :
    getStartC P' = .ok c ∧ getStartE P' = .ok E ∧ getStartD P' = .ok (reported d cs) := by
  have hd0 : dot d d ≠ 0 := by
    intro h0
    unfold dot at h0
    have := mul_self_nonneg d.x
    have := mul_self_nonneg d.y
    have := mul_self_nonneg d.z
    have hx : d.x = 0 := by nlinarith
    have hy : d.y = 0 := by nlinarith
    have hz : d.z = 0 := by nlinarith
    apply hd
    cases d
    simp_all
  obtain ⟨a1, a2, a3, -⟩ := new_photon_reads _ _ _ _ _ _ _ _ h
  simp only [getStartC, getStartD, getStartE, deref, Out.ok.injEq] at a1 a2 a3
  clear h
  have key : ∀ (cs : List Call) (P : Photon ℝ) (P' : Option (Photon ℝ)), dot P.startD P.startD ≠ 0 → history lib D cs P = .ok P' →
      ∃ Q, P' = some Q ∧ Q.startC = P.startC ∧ Q.startE = P.startE ∧ Q.startD = reported P.startD cs := by
    intro cs
    induction cs with
    | nil =>
      intro P P' _ h
      injection h with h
      exact ⟨P, h.symm, rfl, rfl, by simp [reported]⟩
    | cons c cs ih =>
      intro P P' hs h
      unfold history at h
      rw [Out.bind_eq_ok] at h
      obtain ⟨r, hr, h⟩ := h
      obtain ⟨Q, e1, e2, e3, e4⟩ := launch_call lib D P c hs r hr
      rw [e1] at h
      have hv : vnorm (vnorm P.startD) = vnorm P.startD := vnorm_unit _ (vnorm_dot _ hs)
      have hQ : dot Q.startD Q.startD ≠ 0 := by
        rw [e4]; unfold reported
        split
        · rw [vnorm_dot _ hs]; norm_num
        · exact hs
      obtain ⟨R, f1, f2, f3, f4⟩ := ih Q P' hQ h
      refine ⟨R, f1, f2.trans e2, f3.trans e3, ?_⟩
      rw [f4, e4]
      unfold reported
      by_cases g1 : c.Good
      · by_cases g2 : ∃ c ∈ cs, c.Good
        · simp [g1, g2, hv]
        · simp [g1, g2]
      · by_cases g2 : ∃ c ∈ cs, c.Good
        · simp [g1, g2]
        · simp [g1, g2]
  obtain ⟨Q, rfl, b1, b2, b3⟩ := key cs P P' (by rw [a2]; exact hd0) hh
  simp only [getStartC, getStartD, getStartE, deref, b1, b2, b3, a1, a2, a3, and_self]

/-- the unit vector along `d`, for a photon that moves downstream -/
theorem reported_direction (d : V3 ℝ) (hd : 0 < d.z) (cs : List Call) :
    ∃ s > 0, reported d cs = ⟨s * d.x, s * d.y, s * d.z⟩ ∧ ((∃ c ∈ cs, c.Good) → dot (reported d cs) (reported d cs) = 1) := by
  unfold reported
  split
  · obtain ⟨s, hs, h1, h2⟩ := vnorm_scale d hd
    refine ⟨s, hs, h1, fun _ => ?_⟩
    rw [h1]; unfold dot; simp only; nlinarith
  · next h => exact ⟨1, one_pos, by simp, fun g => absurd g h⟩

/-- **C76**, the getter of the start direction does not keep what was given: a photon made with direction (0,3,4) -/
theorem start_direction_changes : reported ⟨0, 3, 4⟩ [⟨false, 0, 0, some [10], true⟩] = ⟨0, 3/5, 4/5⟩ := by
  rw [reported, if_pos ⟨⟨false, 0, 0, some [10], true⟩, by simp, [10], rfl, by simp, by simp; norm_num, rfl⟩]
  simp only [vnorm, real_mul, real_add, real_sqrt, real_div]
  rw [show (0 * 0 + 3 * 3 + 4 * 4 : ℝ) = 5 ^ 2 by norm_num, Real.sqrt_sq (by norm_num)]
  norm_num

/-- the getters dereference their argument -/
theorem null_photon : getStartC (none : Option (Photon ℝ)) = .ub ∧ getStartD (none : Option (Photon ℝ)) = .ub ∧ getStartE (none : Option (Photon ℝ)) = .ub ∧
    getExitC (none : Option (Photon ℝ)) = .ub ∧ getExitD (none : Option (Photon ℝ)) = .ub ∧ getExitE (none : Option (Photon ℝ)) = .ub ∧
    getDtravel (none : Option (Photon ℝ)) = .ub ∧ getIrefl (none : Option (Photon ℝ)) = .ub := by
  simp [getStartC, getStartD, getStartE, getExitC, getExitD, getExitE, getDtravel, getIrefl, deref]

/-- a photon of the tube of the examples, launched and then launched again with bad arguments -/
example (lib : Xray ℝ) : ∃ P P', photonNewE (α := ℝ) true true ⟨0, 0, 0⟩ ⟨0, 3, 4⟩ ⟨1, 0, 0⟩ (some none) = (some P, some none) ∧
    history lib exD [⟨false, 3, 4, some [10], true⟩, ⟨true, 0, 0, some [], true⟩] P = .ok (some P') ∧ P'.startD = ⟨0, 3/5, 4/5⟩ := by
  obtain ⟨P, hP⟩ : ∃ P, photonNewE (α := ℝ) true true ⟨0, 0, 0⟩ ⟨0, 3, 4⟩ ⟨1, 0, 0⟩ (some none) = (some P, some none) := by
    simp only [photonNewE, photonNew, real_lt, real_lit]
    norm_num
  obtain ⟨a1, -⟩ := new_photon_reads _ _ _ _ _ _ _ _ hP
  simp only [getStartC, deref, Out.ok.injEq] at a1
  obtain ⟨c, o, P', h⟩ := launch_noleak_returns lib exD exGrid 3 3 P (by rw [a1]) [10] ex_scatf
  have hh : history lib exD [⟨false, 3, 4, some [10], true⟩, ⟨true, 0, 0, some [], true⟩] P = .ok (some P') := by
    unfold history
    simp only
    rw [h]
    rfl
  refine ⟨P, P', hP, hh, ?_⟩
  have := (photon_keeps_start lib exD _ _ _ (by simp) _ _ P hP _ _ hh).2.2
  simp only [getStartD, deref, Out.ok.injEq] at this
  rw [this, ← start_direction_changes]
  unfold reported
  rw [if_pos ⟨⟨false, 3, 4, some [10], true⟩, by simp, [10], rfl, by simp, by simp; norm_num, rfl⟩,
    if_pos ⟨⟨false, 0, 0, some [10], true⟩, by simp, [10], rfl, by simp, by simp; norm_num, rfl⟩]

end Polycap.Obj
