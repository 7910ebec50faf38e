import Verif.Rng
import Mathlib.Tactic.Linarith
import Mathlib.Data.List.Basic

/-!
# C72: random number generators
-/
namespace Polycap.Rng
open CM
variable {γ α : Type} (G : Gen γ α)

/-! ## Specification -/

/-- the state after `k` draws -/
def after (s : γ) : Nat → γ
  | 0 => s
  | k + 1 => (G.next (after s k)).2

/-- the numbers the external generator gives for a seed -/
def stream (seed k : Nat) : α := (G.next (after G (G.seeded seed) k)).1

/-- the seeds of the generators made, in order -/
def seeds : List Op → List Nat
  | [] => []
  | .new s :: ops => s :: seeds ops
  | _ :: ops => seeds ops

/-- only generators that were made and not freed are used -/
def Legal (ops : List Op) : Prop :=
  ∀ pre op post, ops = pre ++ op :: post → ∀ i, (op = .draw i ∨ op = .free i) → i < (seeds pre).length ∧ .free i ∉ pre

/-! ## Proof -/

theorem seeds_append : ∀ (a b : List Op), seeds (a ++ b) = seeds a ++ seeds b
  | [], b => rfl
  | .new s :: a, b => by simp [seeds, seeds_append a b]
  | .draw _ :: a, b => by simp [seeds, seeds_append a b]
  | .free _ :: a, b => by simp [seeds, seeds_append a b]

structure Inv (m0 : Nat → Option (Blk γ)) (pre : List Op) (h : Heap (Blk γ)) (vars : List Ptr) (as : List (Option (Nat × Nat))) : Prop where
  wf : h.WF
  orc : ∀ k, h.orc k = true
  vars : vars = as.map (Option.map (·.1))
  len : as.length = (seeds pre).length
  bound : ∀ i : Nat, (.free i ∈ pre ∨ .draw i ∈ pre) → i < (seeds pre).length
  dead : ∀ i : Nat, as[i]? = some none → .free i ∈ pre
  alive : ∀ (i : Nat) (x : Nat × Nat), as[i]? = some (some x) → .free i ∉ pre
  live : ∀ (i : Nat) (x : Nat × Nat) (s : Nat), as[i]? = some (some x) → (seeds pre)[i]? = some s →
    h.mem x.1 = some (.rng (some x.2)) ∧ h.mem x.2 = some (.gen (after G (G.seeded s) (pre.count (.draw i))))
  apart : ∀ (i j : Nat) (x y : Nat × Nat), i ≠ j → as[i]? = some (some x) → as[j]? = some (some y) → x.1 ≠ y.1 ∧ x.2 ≠ y.2
  frame : ∀ z : Nat, (∀ (i : Nat) (x : Nat × Nat), as[i]? = some (some x) → z ≠ x.1 ∧ z ≠ x.2) → h.mem z = m0 z
  fresh : ∀ (i : Nat) (x : Nat × Nat), as[i]? = some (some x) → m0 x.1 = none ∧ m0 x.2 = none

theorem newWithSeed_run (h : Heap (Blk γ)) (horc : ∀ k, h.orc k = true) (s : Nat) :
    (rngNewWithSeed G s).run h = some (some h.next, ⟨upd (upd h.mem h.next (some (.rng (some (h.next + 1))))) (h.next + 1) (some (.gen (G.seeded s))),
      h.next + 2, h.orc⟩) := by
  simp [rngNewWithSeed, rngSet, run_bind, run_malloc, horc, run_store, run_load, upd]
  funext x; simp only [upd]; grind

/-- what one step sees -/
def seen (pre : List Op) : Op → Option α
  | .draw i => (seeds pre)[i]?.map fun s => stream G s (pre.count (.draw i))
  | _ => none

theorem inv_step {m0 : Nat → Option (Blk γ)} {pre h vars as} (I : Inv G m0 pre h vars as) (hm0 : ∀ x, h.next ≤ x → m0 x = none) (op : Op)
    (hl : ∀ i, (op = .draw i ∨ op = .free i) → i < (seeds pre).length ∧ .free i ∉ pre) :
    ∃ h' vars' as', (step G op vars).run h = some ((vars', seen G pre op), h') ∧ Inv G m0 (pre ++ [op]) h' vars' as' ∧ h.next ≤ h'.next := by
  have neq : ∀ {i : Nat} {x : Nat × Nat} {s : Nat}, as[i]? = some (some x) → (seeds pre)[i]? = some s → x.1 ≠ x.2 := fun hx hs he => by
    have := I.live _ _ _ hx hs
    rw [he, this.2] at this; cases this.1
  have cross : ∀ {i j : Nat} {x y : Nat × Nat} {s t : Nat}, as[i]? = some (some x) → (seeds pre)[i]? = some s → as[j]? = some (some y) → (seeds pre)[j]? = some t → x.1 ≠ y.2 :=
    fun hx hs hy ht he => by
      have a := (I.live _ _ _ hx hs).1
      rw [he, (I.live _ _ _ hy ht).2] at a; cases a
  have seedOf : ∀ {i : Nat} {o : Option (Nat × Nat)}, as[i]? = some o → ∃ s, (seeds pre)[i]? = some s := fun {i o} hx => by
    have : i < (seeds pre).length := by rw [← I.len]; exact (List.getElem?_eq_some_iff.1 hx).1
    exact ⟨_, List.getElem?_eq_getElem this⟩
  cases op with
  | new s =>
    refine ⟨_, vars ++ [some h.next], as ++ [some (h.next, h.next + 1)], by
      show (rngNewWithSeed G s >>= _).run h = _
      rw [run_bind_some (newWithSeed_run G h I.orc s)]; rfl, ?_, by simp⟩
    have lt : ∀ {i : Nat} {x : Nat × Nat}, as[i]? = some (some x) → x.1 < h.next ∧ x.2 < h.next := fun {i x} hx => by
      obtain ⟨s, hs⟩ := seedOf hx
      have := I.live _ _ _ hx hs
      constructor
      · by_contra hc; rw [I.wf _ (by omega)] at this; cases this.1
      · by_contra hc; rw [I.wf x.2 (by omega)] at this; cases this.2
    have get : ∀ {i : Nat} {o : Option (Nat × Nat)}, (as ++ [some (h.next, h.next + 1)])[i]? = some o → as[i]? = some o ∨ (i = as.length ∧ o = some (h.next, h.next + 1)) := fun {i o} hx => by
      rcases lt_trichotomy i as.length with hi | hi | hi
      · rw [List.getElem?_append_left hi] at hx; exact Or.inl hx
      · subst hi; simp at hx; exact Or.inr ⟨rfl, hx.symm⟩
      · rw [List.getElem?_eq_none (by simp; omega)] at hx; cases hx
    have hcnt : ∀ i, (pre ++ [Op.new s]).count (.draw i) = pre.count (.draw i) := fun i => by simp [List.count_append]
    refine ⟨?_, I.orc, by rw [I.vars]; simp, by simp [seeds_append, seeds, I.len], ?_, ?_, ?_, ?_, ?_, ?_, ?_⟩
    · intro x hx
      have hx' : h.next + 2 ≤ x := hx
      show upd (upd h.mem _ _) _ _ x = none
      rw [upd_other _ _ (by omega), upd_other _ _ (by omega)]; exact I.wf x (by omega)
    · intro i hi
      have := I.bound i (by simpa using hi)
      simp [seeds_append, seeds]; omega
    · intro i hi
      rcases get hi with hi | ⟨-, hi⟩
      · simp [I.dead i hi]
      · cases hi
    · intro i x hi
      rcases get hi with hi | ⟨hi, -⟩
      · simp [I.alive i x hi]
      · intro hm
        have := I.bound i (Or.inl (by simpa using hm))
        rw [← I.len] at this; omega
    · intro i x t hi ht
      rw [hcnt]
      show upd (upd h.mem _ _) _ _ x.1 = _ ∧ upd (upd h.mem _ _) _ _ x.2 = _
      rw [seeds_append] at ht
      rcases get hi with hi | ⟨hil, hx⟩
      · have hil : i < (seeds pre).length := by rw [← I.len]; exact (List.getElem?_eq_some_iff.1 hi).1
        rw [List.getElem?_append_left hil] at ht
        have hlt := lt hi
        rw [upd_other _ _ (by omega), upd_other _ _ (by omega), upd_other _ _ (by omega), upd_other _ _ (by omega)]
        exact I.live _ _ _ hi ht
      · cases hx
        rw [hil, I.len] at ht
        have ht : s = t := by simpa [seeds] using ht
        subst ht
        have h0 : pre.count (.draw i) = 0 := List.count_eq_zero.2 fun hm => by
          have := I.bound i (Or.inr hm)
          rw [← I.len, hil] at this; omega
        rw [h0]
        constructor
        · rw [upd_other _ _ (by simp)]; simp [upd]
        · simp [upd, after]
    · intro i j x y hij hi hj
      rcases get hi with hi | ⟨hi, hx⟩ <;> rcases get hj with hj | ⟨hj, hy⟩
      · exact I.apart _ _ _ _ hij hi hj
      · cases hy; have := lt hi; constructor <;> simp <;> omega
      · cases hx; have := lt hj; constructor <;> simp <;> omega
      · omega
    · intro z hz
      show upd (upd h.mem _ _) _ _ z = _
      have := hz as.length (h.next, h.next + 1) (by simp)
      rw [upd_other _ _ this.2, upd_other _ _ this.1]
      refine I.frame z fun i x hi => hz i x ?_
      rw [List.getElem?_append_left (List.getElem?_eq_some_iff.1 hi).1]; exact hi
    · intro i x hi
      rcases get hi with hi | ⟨hi, hx⟩
      · exact I.fresh _ _ hi
      · cases hx; exact ⟨hm0 _ (Nat.le_refl _), hm0 _ (Nat.le_succ _)⟩
  | draw i =>
    obtain ⟨hb, hf⟩ := hl i (Or.inl rfl)
    obtain ⟨s, hs⟩ : ∃ s, (seeds pre)[i]? = some s := ⟨_, List.getElem?_eq_getElem hb⟩
    obtain ⟨x, hx⟩ : ∃ x, as[i]? = some (some x) := by
      have h1 : i < as.length := by rw [I.len]; exact hb
      cases hc : as[i] with
      | none => exact absurd (I.dead i (by rw [List.getElem?_eq_getElem h1, hc])) hf
      | some x => exact ⟨x, by rw [List.getElem?_eq_getElem h1, hc]⟩
    obtain ⟨l1, l2⟩ := I.live _ _ _ hx hs
    have hv : vars[i]? = some (some x.1) := by rw [I.vars, List.getElem?_map, hx]; rfl
    have hseeds : seeds (pre ++ [Op.draw i]) = seeds pre := by simp [seeds_append, seeds]
    have hcnt : ∀ j, (pre ++ [Op.draw i]).count (.draw j) = pre.count (.draw j) + if j = i then 1 else 0 := fun j => by
      by_cases hj : j = i <;> simp [List.count_append, hj]
      simp [List.count_singleton]; exact fun h => hj h.symm
    refine ⟨⟨upd h.mem x.2 (some (.gen (after G (G.seeded s) (pre.count (.draw i) + 1)))), h.next, h.orc⟩, vars, as, ?_, ?_, Nat.le_refl _⟩
    · simp [step, hv, rngUniform, run_bind, run_load, l1, l2, run_store, seen, hs, stream, after]
    · refine ⟨?_, I.orc, I.vars, by rw [hseeds]; exact I.len, ?_, ?_, ?_, ?_, I.apart, ?_, I.fresh⟩
      · intro z hz
        show upd h.mem _ _ z = none
        by_cases hzx : z = x.2
        · rw [hzx] at hz; rw [I.wf _ hz] at l2; cases l2
        · rw [upd_other _ _ hzx]; exact I.wf z hz
      · intro j hj
        rw [hseeds]
        simp only [List.mem_append, List.mem_singleton, reduceCtorEq, or_false, Op.draw.injEq] at hj
        rcases hj with hj | hj | hj
        · exact I.bound j (Or.inl hj)
        · exact I.bound j (Or.inr hj)
        · subst hj; exact hb
      · intro j hj; simp [I.dead j hj]
      · intro j y hj; simp [I.alive j y hj]
      · intro j y t hj ht
        rw [hseeds] at ht
        show upd h.mem _ _ y.1 = _ ∧ upd h.mem _ _ y.2 = _
        rw [upd_other _ _ (cross hj ht hx hs), hcnt]
        refine ⟨(I.live _ _ _ hj ht).1, ?_⟩
        by_cases hji : j = i
        · subst hji
          rw [hx] at hj; cases hj; rw [hs] at ht; cases ht
          simp [upd]
        · rw [upd_other _ _ (I.apart _ _ _ _ hji hj hx).2, if_neg hji]
          exact (I.live _ _ _ hj ht).2
      · intro z hz
        show upd h.mem _ _ z = _
        rw [upd_other _ _ (hz i x hx).2]
        exact I.frame z hz
  | free i =>
    obtain ⟨hb, hf⟩ := hl i (Or.inr rfl)
    obtain ⟨s, hs⟩ : ∃ s, (seeds pre)[i]? = some s := ⟨_, List.getElem?_eq_getElem hb⟩
    obtain ⟨x, hx⟩ : ∃ x, as[i]? = some (some x) := by
      have h1 : i < as.length := by rw [I.len]; exact hb
      cases hc : as[i] with
      | none => exact absurd (I.dead i (by rw [List.getElem?_eq_getElem h1, hc])) hf
      | some x => exact ⟨x, by rw [List.getElem?_eq_getElem h1, hc]⟩
    obtain ⟨l1, l2⟩ := I.live _ _ _ hx hs
    have hne := neq hx hs
    have hv : vars[i]? = some (some x.1) := by rw [I.vars, List.getElem?_map, hx]; rfl
    have hseeds : seeds (pre ++ [Op.free i]) = seeds pre := by simp [seeds_append, seeds]
    have hcnt : ∀ j, (pre ++ [Op.free i]).count (.draw j) = pre.count (.draw j) := fun j => by simp [List.count_append]
    have get : ∀ {j : Nat} {y : Nat × Nat}, (as.set i none)[j]? = some (some y) → j ≠ i ∧ as[j]? = some (some y) := fun {j y} hj => by
      rw [List.getElem?_set] at hj
      by_cases hji : i = j
      · subst hji; rw [if_pos rfl] at hj; split at hj <;> cases hj
      · rw [if_neg hji] at hj; exact ⟨Ne.symm hji, hj⟩
    refine ⟨⟨upd (upd h.mem x.2 none) x.1 none, h.next, h.orc⟩, vars.set i none, as.set i none, ?_, ?_, Nat.le_refl _⟩
    · simp [step, hv, rngFree, run_bind, run_load, l1, l2, run_free, seen, upd, hne]
    · refine ⟨?_, I.orc, by rw [I.vars, List.map_set]; rfl, by rw [hseeds, List.length_set]; exact I.len, ?_, ?_, ?_, ?_, ?_, ?_, ?_⟩
      · intro z hz
        have := I.wf z hz
        show upd (upd h.mem _ _) _ _ z = none
        simp only [upd]; split <;> [rfl; split <;> [rfl; exact this]]
      · intro j hj
        rw [hseeds]
        simp only [List.mem_append, List.mem_singleton, reduceCtorEq, or_false, Op.free.injEq] at hj
        rcases hj with (hj | hj) | hj
        · exact I.bound j (Or.inl hj)
        · subst hj; exact hb
        · exact I.bound j (Or.inr hj)
      · intro j hj
        by_cases hji : j = i
        · simp [hji]
        · rw [List.getElem?_set_ne (Ne.symm hji)] at hj
          simp [I.dead j hj]
      · intro j y hj
        obtain ⟨h1, h2⟩ := get hj
        simp [I.alive j y h2, h1]
      · intro j y t hj ht
        obtain ⟨h1, h2⟩ := get hj
        rw [hseeds] at ht
        show upd (upd h.mem _ _) _ _ y.1 = _ ∧ upd (upd h.mem _ _) _ _ y.2 = _
        have ap := I.apart _ _ _ _ h1 h2 hx
        rw [hcnt, upd_other _ _ ap.1, upd_other _ _ (cross h2 ht hx hs), upd_other _ _ (Ne.symm (cross hx hs h2 ht)), upd_other _ _ ap.2]
        exact I.live _ _ _ h2 ht
      · intro j k y z hjk hj hk
        exact I.apart _ _ _ _ hjk (get hj).2 (get hk).2
      · intro z hz
        show upd (upd h.mem _ _) _ _ z = _
        by_cases h1 : z = x.1
        · subst h1; rw [(I.fresh _ _ hx).1]; simp [upd]
        by_cases h2 : z = x.2
        · subst h2; rw [(I.fresh _ _ hx).2, upd_other _ _ h1]; simp [upd]
        rw [upd_other _ _ h1, upd_other _ _ h2]
        refine I.frame z fun j y hj => ?_
        by_cases hji : j = i
        · subst hji; rw [hx] at hj; cases hj; exact ⟨h1, h2⟩
        · exact hz j y (by rw [List.getElem?_set_ne (Ne.symm hji)]; exact hj)
      · intro j y hj; exact I.fresh _ _ (get hj).2

/-- what a program sees, in order -/
def allSeen (pre : List Op) : List Op → List (Option α)
  | [] => []
  | op :: ops => seen G pre op :: allSeen (pre ++ [op]) ops

theorem allSeen_get : ∀ (pre ops : List Op) (t : Nat) (op : Op), ops[t]? = some op →
    (allSeen G pre ops)[t]? = some (seen G (pre ++ ops.take t) op)
  | pre, op' :: ops, 0, op, h => by simp at h; subst h; simp [allSeen]
  | pre, op' :: ops, t + 1, op, h => by
    have := allSeen_get (pre ++ [op']) ops t op (by simpa using h)
    simpa [allSeen] using this

theorem legal_tail {pre op ops} (h : Legal (pre ++ op :: ops)) : Legal ((pre ++ [op]) ++ ops) := by simpa using h

theorem run_inv {m0 : Nat → Option (Blk γ)} (ops : List Op) : ∀ {pre h vars as}, Inv G m0 pre h vars as → (∀ x, h.next ≤ x → m0 x = none) → Legal (pre ++ ops) →
    ∃ h' vars' as', (run G ops vars).run h = some ((vars', allSeen G pre ops), h') ∧ Inv G m0 (pre ++ ops) h' vars' as' := by
  induction ops with
  | nil => intro pre h vars as I _ _; exact ⟨h, vars, as, rfl, by simpa using I⟩
  | cons op ops ih =>
    intro pre h vars as I hm hl
    obtain ⟨h1, v1, a1, e1, I1, hn⟩ := inv_step G I hm op (hl pre op ops rfl)
    obtain ⟨h2, v2, a2, e2, I2⟩ := ih I1 (fun x hx => hm x (by omega)) (legal_tail hl)
    refine ⟨h2, v2, a2, ?_, by simpa using I2⟩
    show (step G op vars >>= _).run h = _
    rw [run_bind_some e1]
    show (run G ops v1 >>= _).run h1 = _
    rw [run_bind_some e2]; rfl

/-- C72.  A program that uses only generators it made and did not free: no undefined behaviour; the number it draws from generator `i` after `k` earlier draws
from it is number `k` of the stream of that generator's seed, whatever else was done with other generators; and when it has freed them all, the memory is as before. -/
theorem generators (h : Heap (Blk γ)) (wf : h.WF) (horc : ∀ k, h.orc k = true) (ops : List Op) (hl : Legal ops) :
    ∃ vars outs h', (run G ops []).run h = some ((vars, outs), h') ∧ outs.length = ops.length ∧
      (∀ (t i : Nat), ops[t]? = some (.draw i) → ∃ seed, (seeds ops)[i]? = some seed ∧ outs[t]? = some (some (stream G seed ((ops.take t).count (.draw i))))) ∧
      ((∀ i, i < (seeds ops).length → .free i ∈ ops) → h'.mem = h.mem) := by
  have I0 : Inv G h.mem [] h [] [] := ⟨wf, horc, rfl, rfl, by simp, by simp, by simp, by simp, by simp, fun _ _ => rfl, by simp⟩
  obtain ⟨h', vars, as, e, I⟩ := run_inv G ops I0 (fun x hx => wf x hx) hl
  refine ⟨vars, allSeen G [] ops, h', e, ?_, ?_, ?_⟩
  · have : ∀ (ops pre : List Op), (allSeen G pre ops).length = ops.length := fun ops => by
      induction ops with
      | nil => intro pre; rfl
      | cons op ops ih => intro pre; simp [allSeen, ih]
    exact this ops []
  · intro t i ht
    have hlt : t < ops.length := (List.getElem?_eq_some_iff.1 ht).1
    have hsp : ops = ops.take t ++ .draw i :: ops.drop (t + 1) := by
      conv_lhs => rw [← List.take_append_drop t ops]
      rw [List.drop_eq_getElem_cons hlt, (List.getElem?_eq_some_iff.1 ht).2]
    obtain ⟨hb, -⟩ := hl _ _ _ hsp i (Or.inl rfl)
    have hs : (seeds (ops.take t))[i]? = some (seeds (ops.take t))[i] := List.getElem?_eq_getElem hb
    refine ⟨(seeds (ops.take t))[i], ?_, ?_⟩
    · conv_lhs => rw [hsp]
      rw [seeds_append, List.getElem?_append_left hb, hs]
    · rw [allSeen_get G [] ops t _ ht]
      simp [seen, hs]
  · intro hall
    funext z
    refine I.frame z fun i x hx => ?_
    exact absurd (hall i (by have := (List.getElem?_eq_some_iff.1 hx).1; rw [I.len] at this; simpa using this)) (by simpa using I.alive i x hx)

/-- C72.  Two generators with the same seed give the same numbers, draw by draw. -/
theorem same_seed (h : Heap (Blk γ)) (wf : h.WF) (horc : ∀ k, h.orc k = true) (ops : List Op) (hl : Legal ops) (i j t u : Nat)
    (hs : (seeds ops)[i]? = (seeds ops)[j]?) (ht : ops[t]? = some (.draw i)) (hu : ops[u]? = some (.draw j))
    (hk : (ops.take t).count (.draw i) = (ops.take u).count (.draw j)) :
    ∃ vars outs h', (run G ops []).run h = some ((vars, outs), h') ∧ outs[t]? = outs[u]? := by
  obtain ⟨vars, outs, h', e, -, hd, -⟩ := generators G h wf horc ops hl
  refine ⟨vars, outs, h', e, ?_⟩
  obtain ⟨s, h1, h2⟩ := hd t i ht
  obtain ⟨s', h3, h4⟩ := hd u j hu
  rw [hs, h3] at h1; cases h1
  rw [h2, h4, hk]

/-- a program for the hypotheses: two generators with equal seeds, used in turn -/
example : Legal [.new 7, .new 7, .draw 0, .draw 1, .free 0, .draw 1, .free 1] ∧
    ∃ (h : Heap (Blk Nat)), h.WF ∧ (∀ k, h.orc k = true) ∧
      ∃ vars h', (run ⟨id, fun s => (s * s, s + 1)⟩ [.new 7, .new 7, .draw 0, .draw 1, .free 0, .draw 1, .free 1] []).run h
        = some ((vars, [none, none, some 49, some 49, none, some 64, none]), h') ∧ h'.mem = h.mem := by
  have hl : Legal [.new 7, .new 7, .draw 0, .draw 1, .free 0, .draw 1, .free 1] := by
    intro pre op post hp i hi
    match pre, hp with
    | [], hp => simp at hp; obtain ⟨rfl, -⟩ := hp; simp at hi
    | [_], hp => simp at hp; obtain ⟨-, rfl, -⟩ := hp; simp at hi
    | [_, _], hp => simp at hp; obtain ⟨rfl, rfl, rfl, -⟩ := hp; simp at hi; subst hi; simp [seeds]
    | [_, _, _], hp => simp at hp; obtain ⟨rfl, rfl, rfl, rfl, -⟩ := hp; simp at hi; subst hi; simp [seeds]
    | [_, _, _, _], hp => simp at hp; obtain ⟨rfl, rfl, rfl, rfl, rfl, -⟩ := hp; simp at hi; subst hi; simp [seeds]
    | [_, _, _, _, _], hp => simp at hp; obtain ⟨rfl, rfl, rfl, rfl, rfl, rfl, -⟩ := hp; simp at hi; subst hi; simp [seeds]
    | [_, _, _, _, _, _], hp => simp at hp; obtain ⟨rfl, rfl, rfl, rfl, rfl, rfl, rfl, -⟩ := hp; simp at hi; subst hi; simp [seeds]
    | _ :: _ :: _ :: _ :: _ :: _ :: _ :: _, hp => simp at hp
  refine ⟨hl, ⟨fun _ => none, 0, fun _ => true⟩, fun _ _ => rfl, fun _ => rfl, ?_⟩
  refine ⟨[none, none], ⟨fun _ => none, 4, fun _ => true⟩, ?_, rfl⟩
  simp [run, step, rngNewWithSeed, rngSet, rngUniform, rngFree, run_bind, run_malloc, run_load, run_store, run_free, upd]
  funext x; simp only [upd]; grind

/-! ## Findings -/

/-- when memory runs out, making a generator is undefined behaviour: neither allocation is checked -/
theorem new_out_of_memory (h : Heap (Blk γ)) (seed : Nat) (hf : h.orc h.next = false ∨ h.orc (h.next + 1) = false) : (rngNewWithSeed G seed).run h = none := by
  cases h1 : h.orc h.next with
  | false => simp [rngNewWithSeed, run_bind, run_malloc, h1, run_store]; cases h.orc (h.next + 1) <;> rfl
  | true =>
    have h2 : h.orc (h.next + 1) = false := by rcases hf with hf | hf <;> simp_all
    simp [rngNewWithSeed, rngSet, run_bind, run_malloc, h1, h2, run_store, run_load, upd]

/-- when the random device cannot be opened and the microsecond part of the clock is 0, making a generator without a seed divides by zero -/
theorem new_division_by_zero (h : Heap (Blk γ)) (sec : Nat) : (rngNew G .missing sec 0).run h = none := rfl

/-- the number of bytes read from the random device is not checked -/
theorem new_short_read (h : Heap (Blk γ)) (sec usec : Nat) : (rngNew G .short sec usec).run h = none := rfl

/-- without the random device there are fewer than a million seeds, and generators made in the same microsecond have the same seed -/
theorem new_fallback (sec usec : Nat) (hu : usec < 1000000) : ∀ s, newSeed .missing sec usec = some s → s < 999999 ∧ s = sec % usec := by
  intro s hs
  by_cases h0 : usec = 0
  · simp [newSeed, h0] at hs
  · simp [newSeed, h0] at hs
    have := Nat.mod_lt sec (Nat.pos_of_ne_zero h0)
    omega

/-- with the random device, `polycap_rng_new` is `polycap_rng_new_with_seed` with the number read -/
theorem new_is_seeded (dev : Device) (sec usec s : Nat) (hs : newSeed dev sec usec = some s) : rngNew G dev sec usec = rngNewWithSeed G s := by
  simp [rngNew, hs]

/-- using a generator after freeing it is undefined behaviour -/
theorem draw_after_free (h : Heap (Blk γ)) (a g : Nat) (hr : h.mem a = some (.rng (some g))) (hg : (h.mem g).isSome) :
    (do rngFree (some a); rngUniform G (some a)).run h = none := by
  obtain ⟨b, hb⟩ := Option.isSome_iff_exists.1 hg
  by_cases hag : g = a
  · subst hag
    simp [rngFree, rngUniform, run_bind, run_load, run_free, hr, upd]
  · simp [rngFree, rngUniform, run_bind, run_load, run_free, hr, hb, upd, Ne.symm hag, hag]
end Polycap.Rng
