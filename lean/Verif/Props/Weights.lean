import Verif.Description

/-!
# C12: composition weights
-/
namespace Polycap
open CNum

theorem sumFrom_real (ws : List ℝ) : ∀ s, sumFrom s ws = s + ws.sum := by
  induction ws with
  | nil => intro s; simp [sumFrom]
  | cons w ws ih => intro s; simp [sumFrom, ih]; ring

theorem percentLoop_real (ws : List ℝ) : ∀ s,
    ((∀ w ∈ ws, 0 ≤ w) → percentLoop s ws = (ws.map (· / 100), some (s + ws.sum / 100))) ∧
    ((∃ w ∈ ws, w < 0) → (percentLoop s ws).2 = none) := by
  induction ws with
  | nil => intro s; simp [percentLoop]
  | cons w ws ih =>
    intro s
    constructor
    · intro h
      have hw : 0 ≤ w := h w (List.mem_cons_self ..)
      have h2 := (ih (s + w / 100)).1 (fun x hx => h x (List.mem_cons_of_mem _ hx))
      have hn : ¬ (w / 100 < 0) := by rw [not_lt]; positivity
      simp only [percentLoop, real_div, real_lit, real_lt, real_add]
      push_cast
      rw [if_neg (by simpa using hn), h2]
      simp; ring
    · rintro ⟨x, hx, hneg⟩
      simp only [percentLoop, real_div, real_lit, real_lt, real_add]
      push_cast
      split
      · rfl
      · rename_i hn
        have hw : 0 ≤ w := by
          by_contra hc
          apply hn
          simp only [decide_eq_true_eq]
          push Not at hc
          exact div_neg_of_neg_of_pos hc (by norm_num)
        apply (ih _).2
        rcases List.mem_cons.mp hx with rfl | hx
        · linarith
        · exact ⟨x, hx, hneg⟩

/-- A composition the library accepts without complaint. -/
def WeightsAccepted (ws : List ℝ) : Prop := (checkWeight ws (some none)).2 = some none

/-- **C12 (exact characterisation).**  Accepted compositions are exactly: fractions summing to 1 (kept as
they are), and non-negative percentages summing to 100 (each divided by 100). -/
theorem weights_accepted_iff (ws : List ℝ) :
    WeightsAccepted ws ↔ ws.sum = 1 ∨ (ws.sum = 100 ∧ ∀ w ∈ ws, 0 ≤ w) := by
  simp only [WeightsAccepted, checkWeight, sumFrom_real, real_lit, gt, real_lt, real_beq]
  push_cast
  rw [zero_add]
  by_cases hs : 1 < ws.sum
  · simp only [hs, decide_true, if_true]
    by_cases hneg : ∃ w ∈ ws, w < 0
    · have := (percentLoop_real ws 0).2 hneg
      rcases hp : percentLoop 0 ws with ⟨l, o⟩
      rw [hp] at this
      simp only at this
      subst this
      simp only [EArg.set_empty, Option.some.injEq, reduceCtorEq, false_iff, not_or]
      refine ⟨by linarith, ?_⟩
      rintro ⟨_, hall⟩
      obtain ⟨w, hw, hw'⟩ := hneg
      have := hall w hw; linarith
    · push Not at hneg
      rw [(percentLoop_real ws 0).1 hneg]
      simp only [zero_add]
      constructor
      · intro h
        right
        refine ⟨?_, hneg⟩
        by_contra hc
        have : ws.sum / 100 ≠ 1 := by
          intro h2; apply hc; linarith
        simp [this] at h
      · rintro (h | ⟨h, _⟩)
        · linarith
        · rw [h]; norm_num
  · have hs' : decide (1 < ws.sum) = false := by simp [hs]
    simp only [hs', Bool.false_eq_true, if_false]
    constructor
    · intro h
      left
      by_contra hc
      simp [hc] at h
    · rintro (h | ⟨h, _⟩)
      · simp [h]
      · rw [h] at hs; norm_num at hs

/-- **C12.**  What an accepted composition is stored as. -/
theorem weights_stored (ws : List ℝ) :
    (ws.sum = 1 → (checkWeight ws (some none)).1 = ws) ∧
    (ws.sum = 100 → (∀ w ∈ ws, 0 ≤ w) → (checkWeight ws (some none)).1 = ws.map (· / 100)) := by
  simp only [checkWeight, sumFrom_real, real_lit, gt, real_lt, real_beq]
  push_cast
  rw [zero_add]
  constructor
  · intro h; simp [h]
  · intro h hall
    rw [h, if_pos (by norm_num), (percentLoop_real ws 0).1 hall]

/-- **C12.**  An accepted composition, as stored, sums to exactly 1. -/
theorem weights_normalised (ws : List ℝ) (h : WeightsAccepted ws) : (checkWeight ws (some none)).1.sum = 1 := by
  rcases (weights_accepted_iff ws).mp h with hs | ⟨hs, hall⟩
  · rw [(weights_stored ws).1 hs]; exact hs
  · rw [(weights_stored ws).2 hs hall]
    have : ∀ l : List ℝ, (l.map (· / 100)).sum = l.sum / 100 := by
      intro l; induction l with
      | nil => simp
      | cons a l ih => simp [ih]; ring
    rw [this, hs]; norm_num

/-- **C12.**  Checking an accepted composition again (as `polycap_source_new` does) changes nothing. -/
theorem weights_recheck (ws : List ℝ) (h : WeightsAccepted ws) (e : EArg) :
    checkWeight (checkWeight ws (some none)).1 e = ((checkWeight ws (some none)).1, e) := by
  have hs := weights_normalised ws h
  generalize (checkWeight ws (some none)).1 = l at hs
  simp only [checkWeight, sumFrom_real, real_lit, gt, real_lt, real_beq]
  push_cast
  rw [zero_add, hs]
  norm_num

/-- **C12.**  Given non-negative input weights, an accepted composition has no negative weight. -/
theorem weights_nonneg_partial (ws : List ℝ) (h : WeightsAccepted ws) (hn : ∀ w ∈ ws, 0 ≤ w) :
    ∀ w ∈ (checkWeight ws (some none)).1, 0 ≤ w := by
  rcases (weights_accepted_iff ws).mp h with hs | ⟨hs, hall⟩
  · rw [(weights_stored ws).1 hs]; exact hn
  · rw [(weights_stored ws).2 hs hall]
    intro w hw
    obtain ⟨x, hx, rfl⟩ := List.mem_map.mp hw
    have := hn x hx
    positivity

/-- Finding (C12): "no negative weight" is not enforced for fractions: `(2, -1)` is accepted unchanged. -/
theorem weights_negative_accepted : checkWeight [(2:ℝ), -1] (some none) = ([2, -1], some none) := by
  simp [checkWeight, sumFrom]; norm_num

/-- Finding (C12): a *rejected* composition is still divided by 100, and again by each re-check: 150 is
stored as 1.5 by the description and as 0.015 in the copy made by `polycap_source_new`, which
reports nothing because that copy is made with a NULL error slot. -/
theorem weights_rejected_rescaled :
    checkWeight [(150:ℝ)] (some none) = ([1.5], some (some .invalidArgument)) ∧
    checkWeight [(1.5:ℝ)] none = ([0.015], none) := by
  constructor <;> simp [checkWeight, sumFrom, percentLoop] <;> norm_num

/-- the hypotheses above are met: percentages and fractions -/
example : WeightsAccepted [25, 75] ∧ WeightsAccepted [0.25, 0.75] := by
  rw [weights_accepted_iff, weights_accepted_iff]
  constructor
  · right; norm_num
  · left; norm_num

end Polycap
