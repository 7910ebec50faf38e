import Verif.Props.SourceLaw
import Verif.Sim
import Mathlib.MeasureTheory.Function.SpecialFunctions.Arctan
import Mathlib.MeasureTheory.Function.SpecialFunctions.Basic
import Mathlib.MeasureTheory.Function.Floor
import Mathlib.MeasureTheory.Function.SpecialFunctions.Inner

/-!
# C100, measurability: everything the program computes is a piecewise measurable function of the numbers drawn
-/
namespace Polycap
namespace Meas
open CNum MeasureTheory

variable {Ω : Type} [MeasurableSpace Ω]

/-! ## Real operations -/

section ops
variable {f g : Ω → ℝ}
@[fun_prop] theorem m_add (hf : Measurable f) (hg : Measurable g) : Measurable fun ω => f ω +. g ω := hf.add hg
@[fun_prop] theorem m_sub (hf : Measurable f) (hg : Measurable g) : Measurable fun ω => f ω -. g ω := hf.sub hg
@[fun_prop] theorem m_mul (hf : Measurable f) (hg : Measurable g) : Measurable fun ω => f ω *. g ω := hf.mul hg
@[fun_prop] theorem m_div (hf : Measurable f) (hg : Measurable g) : Measurable fun ω => f ω /. g ω := hf.div hg
@[fun_prop] theorem m_neg (hf : Measurable f) : Measurable fun ω => CNum.neg (f ω) := hf.neg
@[fun_prop] theorem m_sqrt (hf : Measurable f) : Measurable fun ω => CNum.sqrt (f ω) := hf.sqrt
@[fun_prop] theorem m_exp (hf : Measurable f) : Measurable fun ω => CNum.exp (f ω) := hf.exp
@[fun_prop] theorem m_sin (hf : Measurable f) : Measurable fun ω => CNum.sin (f ω) := hf.sin
@[fun_prop] theorem m_cos (hf : Measurable f) : Measurable fun ω => CNum.cos (f ω) := hf.cos
@[fun_prop] theorem m_tan (hf : Measurable f) : Measurable fun ω => CNum.tan (f ω) := by
  have : (fun ω => CNum.tan (f ω)) = fun ω => Real.sin (f ω) / Real.cos (f ω) := by funext ω; exact Real.tan_eq_sin_div_cos _
  rw [this]; exact hf.sin.div hf.cos
@[fun_prop] theorem m_atan (hf : Measurable f) : Measurable fun ω => CNum.atan (f ω) := hf.arctan
@[fun_prop] theorem m_acos (hf : Measurable f) : Measurable fun ω => CNum.acos (f ω) := Real.measurable_arccos.comp hf
@[fun_prop] theorem m_fabs (hf : Measurable f) : Measurable fun ω => CNum.fabs (f ω) := (continuous_abs.measurable).comp hf
@[fun_prop] theorem m_lt (hf : Measurable f) (hg : Measurable g) : Measurable fun ω => f ω <. g ω := by
  refine measurable_to_bool ?_
  have : (fun ω => f ω <. g ω) ⁻¹' {true} = {ω | f ω < g ω} := by ext ω; simp
  rw [this]; exact measurableSet_lt hf hg
@[fun_prop] theorem m_le (hf : Measurable f) (hg : Measurable g) : Measurable fun ω => f ω <=. g ω := by
  refine measurable_to_bool ?_
  have : (fun ω => f ω <=. g ω) ⁻¹' {true} = {ω | f ω ≤ g ω} := by ext ω; simp
  rw [this]; exact measurableSet_le hf hg
@[fun_prop] theorem m_gt (hf : Measurable f) (hg : Measurable g) : Measurable fun ω => f ω >. g ω := m_lt hg hf
@[fun_prop] theorem m_ge (hf : Measurable f) (hg : Measurable g) : Measurable fun ω => f ω >=. g ω := m_le hg hf
@[fun_prop] theorem m_beq (hf : Measurable f) (hg : Measurable g) : Measurable fun ω => f ω ==. g ω := by
  refine measurable_to_bool ?_
  have : (fun ω => f ω ==. g ω) ⁻¹' {true} = {ω | f ω = g ω} := by ext ω; simp
  rw [this]; exact measurableSet_eq_fun hf hg
theorem measurable_floor_int : Measurable fun x : ℝ => ⌊x⌋ := Int.measurable_floor
@[fun_prop] theorem m_roundI (hf : Measurable f) : Measurable fun ω => CNum.roundI (f ω) := by
  show Measurable fun ω => realRoundAway (f ω)
  unfold realRoundAway
  refine Measurable.ite (measurableSet_le measurable_const hf) ?_ ?_
  · exact measurable_floor_int.comp (hf.add_const _)
  · have : Measurable fun z : ℤ => -z := measurable_from_top
    exact this.comp (measurable_floor_int.comp (hf.neg.add_const _))
end ops

section bools
variable {a b : Ω → Bool}
@[fun_prop] theorem m_or (ha : Measurable a) (hb : Measurable b) : Measurable fun ω => (a ω || b ω) :=
  (measurable_of_countable (fun p : Bool × Bool => p.1 || p.2)).comp (ha.prodMk hb)
@[fun_prop] theorem m_and (ha : Measurable a) (hb : Measurable b) : Measurable fun ω => (a ω && b ω) :=
  (measurable_of_countable (fun p : Bool × Bool => p.1 && p.2)).comp (ha.prodMk hb)
@[fun_prop] theorem m_not (ha : Measurable a) : Measurable fun ω => !(a ω) := (measurable_from_top (f := fun p : Bool => !p)).comp ha
@[fun_prop] theorem m_bne {f g : Ω → ℝ} (hf : Measurable f) (hg : Measurable g) : Measurable fun ω => f ω !=. g ω := m_not (m_beq hf hg)
theorem m_true (ha : Measurable a) : MeasurableSet {ω | a ω = true} := ha (measurableSet_singleton true)
end bools

/-! ## Vectors -/

instance : MeasurableSpace (V3 ℝ) := MeasurableSpace.comap (fun v => (v.x, v.y, v.z)) inferInstance

theorem m_v3 {f : Ω → V3 ℝ} : Measurable f ↔ Measurable (fun ω => (f ω).x) ∧ Measurable (fun ω => (f ω).y) ∧ Measurable (fun ω => (f ω).z) := by
  rw [measurable_comap_iff]
  constructor
  · intro h
    exact ⟨measurable_fst.comp h, measurable_fst.comp (measurable_snd.comp h), measurable_snd.comp (measurable_snd.comp h)⟩
  · rintro ⟨h1, h2, h3⟩
    exact h1.prodMk (h2.prodMk h3)
@[fun_prop] theorem m_x {f : Ω → V3 ℝ} (h : Measurable f) : Measurable fun ω => (f ω).x := (m_v3.1 h).1
@[fun_prop] theorem m_y {f : Ω → V3 ℝ} (h : Measurable f) : Measurable fun ω => (f ω).y := (m_v3.1 h).2.1
@[fun_prop] theorem m_z {f : Ω → V3 ℝ} (h : Measurable f) : Measurable fun ω => (f ω).z := (m_v3.1 h).2.2
@[fun_prop] theorem m_mk {f g h : Ω → ℝ} (hf : Measurable f) (hg : Measurable g) (hh : Measurable h) : Measurable fun ω => (⟨f ω, g ω, h ω⟩ : V3 ℝ) :=
  m_v3.2 ⟨hf, hg, hh⟩

section vec
variable {a b c d : Ω → V3 ℝ} {f g h : Ω → ℝ}
@[fun_prop] theorem m_vnorm (ha : Measurable a) : Measurable fun ω => vnorm (a ω) := by unfold vnorm; fun_prop
@[fun_prop] theorem m_scalar (ha : Measurable a) (hb : Measurable b) : Measurable fun ω => scalar (a ω) (b ω) := by unfold scalar; fun_prop
@[fun_prop] theorem m_vsub (ha : Measurable a) (hb : Measurable b) : Measurable fun ω => vsub (a ω) (b ω) := by unfold vsub; fun_prop
@[fun_prop] theorem m_cross (ha : Measurable a) (hb : Measurable b) : Measurable fun ω => cross (a ω) (b ω) := by unfold cross; fun_prop
@[fun_prop] theorem m_dist3 (ha : Measurable a) (hb : Measurable b) : Measurable fun ω => dist3 (a ω) (b ω) := by unfold dist3; fun_prop
@[fun_prop] theorem m_projXY1 (ha : Measurable a) (hb : Measurable b) (hf : Measurable f) : Measurable fun ω => (projXY (a ω) (b ω) (f ω)).1 := by unfold projXY; fun_prop
@[fun_prop] theorem m_projXY2 (ha : Measurable a) (hb : Measurable b) (hf : Measurable f) : Measurable fun ω => (projXY (a ω) (b ω) (f ω)).2 := by unfold projXY; fun_prop
@[fun_prop] theorem m_proj3 (ha : Measurable a) (hb : Measurable b) (hf : Measurable f) : Measurable fun ω => proj3 (a ω) (b ω) (f ω) := by unfold proj3; fun_prop
@[fun_prop] theorem m_atGrid (p : Profile ℝ) (ha : Measurable a) (hb : Measurable b) (i : Nat) : Measurable fun ω => atGrid p (a ω) (b ω) i := by
  unfold atGrid; dsimp only; fun_prop
@[fun_prop] theorem m_segNormal (c0 c1 : V3 ℝ) (r0 r1 : ℝ) (ha : Measurable a) (hb : Measurable b) (hd : Measurable d) (hf : Measurable f) :
    Measurable fun ω => segNormal c0 r0 r1 (a ω) (b ω) c1 (d ω) (f ω) := by unfold segNormal; fun_prop
@[fun_prop] theorem m_interpAt (p : Profile ℝ) (v : Nat → ℝ) (i : Nat) (hf : Measurable f) : Measurable fun ω => interpAt p v i (f ω) := by unfold interpAt interp; fun_prop
@[fun_prop] theorem m_along (ha : Measurable a) (hb : Measurable b) (hf : Measurable f) : Measurable fun ω => along (a ω) (b ω) (f ω) := by unfold along; fun_prop
@[fun_prop] theorem m_toExit (p : Profile ℝ) (ha : Measurable a) (hb : Measurable b) : Measurable fun ω => toExit p (a ω) (b ω) := by unfold toExit; fun_prop
@[fun_prop] theorem m_reflectDir (ha : Measurable a) (hb : Measurable b) (hf : Measurable f) : Measurable fun ω => reflectDir (a ω) (b ω) (f ω) := by unfold reflectDir; fun_prop
@[fun_prop] theorem m_roughFactor (s e : ℝ) (hf : Measurable f) : Measurable fun ω => roughFactor s e (f ω) := by unfold roughFactor; fun_prop
end vec

/-! ## Piecewise measurable functions

`nice f`: the discrete parts of `f ω` do not depend on `ω`, and the numbers in it are measurable functions of `ω`.
`PW f`: there are countably many measurable pieces, which cover everything, on each of which `f` agrees with a nice function. -/

class Nice (Ω : Type) [MeasurableSpace Ω] (β : Type) where
  nice : (Ω → β) → Prop

/-- see above -/
def nice {β : Type} [Nice Ω β] (f : Ω → β) : Prop := Nice.nice f

/-- see above -/
def PW {β : Type} [Nice Ω β] (f : Ω → β) : Prop :=
  ∃ (A : ℕ → Set Ω) (g : ℕ → Ω → β), (∀ n, MeasurableSet (A n)) ∧ (∀ ω, ∃ n, ω ∈ A n) ∧ (∀ n, nice (g n)) ∧ ∀ n, ∀ ω ∈ A n, f ω = g n ω

section pw
variable {β γ : Type} [Nice Ω β] [Nice Ω γ]

theorem PW.of {f : Ω → β} (h : nice f) : PW f := ⟨fun _ => Set.univ, fun _ => f, fun _ => MeasurableSet.univ, fun _ => ⟨0, trivial⟩, fun _ => h, fun _ _ _ => rfl⟩

theorem PW.bind {f : Ω → β} {k : Ω → β → γ} (hf : PW f) (hk : ∀ g : Ω → β, nice g → PW fun ω => k ω (g ω)) : PW fun ω => k ω (f ω) := by
  obtain ⟨A, g, hA, hc, hg, he⟩ := hf
  choose B h hB hcB hn heB using fun n => hk (g n) (hg n)
  refine ⟨fun n => A n.unpair.1 ∩ B n.unpair.1 n.unpair.2, fun n => h n.unpair.1 n.unpair.2, fun n => (hA _).inter (hB _ _), ?_, fun n => hn _ _, ?_⟩
  · intro ω
    obtain ⟨n, hn⟩ := hc ω
    obtain ⟨m, hm⟩ := hcB n ω
    exact ⟨Nat.pair n m, by simpa using ⟨hn, hm⟩⟩
  · rintro n ω ⟨h1, h2⟩
    show k ω (f ω) = h _ _ ω
    rw [he _ ω h1]
    exact heB _ _ ω h2

theorem PW.on {f : Ω → β} {F : Ω → γ} (hf : PW f) (hk : ∀ g : Ω → β, nice g → ∃ h : Ω → γ, (∀ ω, f ω = g ω → F ω = h ω) ∧ PW h) : PW F := by
  obtain ⟨A, g, hA, hc, hg, he⟩ := hf
  choose h' hFh hPW using fun n => hk (g n) (hg n)
  choose B h hB hcB hn heB using hPW
  refine ⟨fun n => A n.unpair.1 ∩ B n.unpair.1 n.unpair.2, fun n => h n.unpair.1 n.unpair.2, fun n => (hA _).inter (hB _ _), ?_, fun n => hn _ _, ?_⟩
  · intro ω
    obtain ⟨n, hn⟩ := hc ω
    obtain ⟨m, hm⟩ := hcB n ω
    exact ⟨Nat.pair n m, by simpa using ⟨hn, hm⟩⟩
  · rintro n ω ⟨h1, h2⟩
    rw [hFh _ ω (he _ ω h1)]
    exact heB _ _ ω h2

theorem PW.congr {f g : Ω → β} (h : PW f) (e : ∀ ω, g ω = f ω) : PW g := by rw [show g = f from funext e]; exact h

theorem PW.iteSet {p : Ω → Prop} [∀ ω, Decidable (p ω)] (hp : MeasurableSet {ω | p ω}) {a b : Ω → β} (ha : PW a) (hb : PW b) : PW fun ω => if p ω then a ω else b ω := by
  obtain ⟨A, g, hA, hcA, hg, hgA⟩ := ha
  obtain ⟨B, h, hB, hcB, hh, hhB⟩ := hb
  refine ⟨fun n => if n.unpair.1 = 0 then {ω | p ω} ∩ A n.unpair.2 else {ω | p ω}ᶜ ∩ B n.unpair.2, fun n => if n.unpair.1 = 0 then g n.unpair.2 else h n.unpair.2, ?_, ?_, ?_, ?_⟩
  · intro n; dsimp only; split_ifs
    · exact hp.inter (hA _)
    · exact hp.compl.inter (hB _)
  · intro ω
    by_cases h : p ω
    · obtain ⟨m, hm⟩ := hcA ω
      exact ⟨Nat.pair 0 m, by simpa using ⟨h, hm⟩⟩
    · obtain ⟨m, hm⟩ := hcB ω
      exact ⟨Nat.pair 1 m, by simpa using ⟨h, hm⟩⟩
  · intro n; dsimp only; split_ifs
    · exact hg _
    · exact hh _
  · intro n ω hω
    by_cases hn : n.unpair.1 = 0
    · simp only [hn, if_true] at hω ⊢
      rw [if_pos (show p ω from hω.1), hgA _ ω hω.2]
    · simp only [hn, if_false] at hω ⊢
      rw [if_neg (show ¬ p ω from hω.1), hhB _ ω hω.2]

theorem PW.ite {c : Ω → Bool} (hc : Measurable c) {a b : Ω → β} (ha : PW a) (hb : PW b) : PW fun ω => if c ω = true then a ω else b ω := PW.iteSet (m_true hc) ha hb

theorem PW.iteC (p : Prop) [Decidable p] {a b : Ω → β} (ha : p → PW a) (hb : ¬ p → PW b) : PW fun ω => if p then a ω else b ω := by
  by_cases h : p
  · simp only [if_pos h]; exact ha h
  · simp only [if_neg h]; exact hb h
end pw

/-- go on with the nice function in place of the function -/
macro "pw_step" : tactic => `(tactic| (refine ⟨_, fun ω e => by rw [e], ?_⟩; try dsimp only))

instance : Nice Ω ℝ := ⟨Measurable⟩
instance : Nice Ω (V3 ℝ) := ⟨Measurable⟩
instance : Nice Ω Int := ⟨fun f => ∃ c, f = fun _ => c⟩
instance : Nice Ω Nat := ⟨fun f => ∃ c, f = fun _ => c⟩
instance : Nice Ω Bool := ⟨fun f => ∃ c, f = fun _ => c⟩
instance {β γ : Type} [Nice Ω β] [Nice Ω γ] : Nice Ω (β × γ) := ⟨fun f => nice (fun ω => (f ω).1) ∧ nice fun ω => (f ω).2⟩
instance {β γ : Type} [Nice Ω β] [Nice Ω γ] : Nice Ω (β ⊕ γ) := ⟨fun f => (∃ g : Ω → β, nice g ∧ f = fun ω => .inl (g ω)) ∨ ∃ g : Ω → γ, nice g ∧ f = fun ω => .inr (g ω)⟩
instance {β : Type} [Nice Ω β] : Nice Ω (Option β) := ⟨fun f => (f = fun _ => none) ∨ ∃ g : Ω → β, nice g ∧ f = fun ω => some (g ω)⟩
instance {β : Type} [Nice Ω β] : Nice Ω (List β) := ⟨fun f => ∃ L : List (Ω → β), (∀ g ∈ L, nice g) ∧ f = fun ω => L.map (· ω)⟩
instance {β : Type} [Nice Ω β] : Nice Ω (Out β) := ⟨fun f => (f = fun _ => .ub) ∨ (f = fun _ => .fuel) ∨ ∃ g : Ω → β, nice g ∧ f = fun ω => .ok (g ω)⟩

section basics
variable {β γ : Type} [Nice Ω β] [Nice Ω γ]
theorem PW.real {f : Ω → ℝ} (h : Measurable f) : PW f := PW.of h
theorem PW.v3 {f : Ω → V3 ℝ} (h : Measurable f) : PW f := PW.of h
theorem PW.int (c : Int) : PW fun _ : Ω => c := PW.of ⟨c, rfl⟩
theorem PW.nat (c : Nat) : PW fun _ : Ω => c := PW.of ⟨c, rfl⟩
theorem PW.bool (c : Bool) : PW fun _ : Ω => c := PW.of ⟨c, rfl⟩
theorem nice_int (c : Int) : nice fun _ : Ω => c := ⟨c, rfl⟩
theorem nice_nat (c : Nat) : nice fun _ : Ω => c := ⟨c, rfl⟩
theorem nice_bool (c : Bool) : nice fun _ : Ω => c := ⟨c, rfl⟩
theorem nice_pair {f : Ω → β} {g : Ω → γ} (hf : nice f) (hg : nice g) : nice fun ω => (f ω, g ω) := ⟨hf, hg⟩
theorem PW.pair {f : Ω → β} {g : Ω → γ} (hf : PW f) (hg : PW g) : PW fun ω => (f ω, g ω) :=
  PW.bind (k := fun ω x => (x, g ω)) hf fun _ hx => PW.bind (k := fun _ y => (_, y)) hg fun _ hy => PW.of ⟨hx, hy⟩
theorem PW.ok {f : Ω → β} (hf : PW f) : PW fun ω => Out.ok (f ω) := PW.bind (k := fun _ x => Out.ok x) hf fun g hg => PW.of (Or.inr (Or.inr ⟨g, hg, rfl⟩))
theorem PW.ub : PW fun _ : Ω => (Out.ub : Out β) := PW.of (Or.inl rfl)
theorem PW.fuel : PW fun _ : Ω => (Out.fuel : Out β) := PW.of (Or.inr (Or.inl rfl))
theorem PW.obind {f : Ω → Out β} {k : Ω → β → Out γ} (hf : PW f) (hk : ∀ g : Ω → β, nice g → PW fun ω => k ω (g ω)) : PW fun ω => f ω >>= k ω := by
  refine PW.bind (k := fun ω x => x >>= k ω) hf fun g hg => ?_
  rcases hg with rfl | rfl | ⟨g, hg, rfl⟩
  · exact PW.ub
  · exact PW.fuel
  · exact hk g hg
theorem PW.osome {f : Ω → β} (hf : PW f) : PW fun ω => some (f ω) := PW.bind (k := fun _ x => some x) hf fun g hg => PW.of (Or.inr ⟨g, hg, rfl⟩)
theorem PW.onone : PW fun _ : Ω => (none : Option β) := PW.of (Or.inl rfl)
theorem PW.inl {f : Ω → β} (hf : PW f) : PW fun ω => (Sum.inl (f ω) : β ⊕ γ) := PW.bind (k := fun _ x => (Sum.inl x : β ⊕ γ)) hf fun g hg => PW.of (Or.inl ⟨g, hg, rfl⟩)
theorem PW.inr {f : Ω → γ} (hf : PW f) : PW fun ω => (Sum.inr (f ω) : β ⊕ γ) := PW.bind (k := fun _ x => (Sum.inr x : β ⊕ γ)) hf fun g hg => PW.of (Or.inr ⟨g, hg, rfl⟩)

/-- a piecewise measurable number is measurable -/
theorem PW.measurable {f : Ω → ℝ} (h : PW f) : Measurable f := by
  obtain ⟨A, g, hA, hc, hg, he⟩ := h
  intro s hs
  have : f ⁻¹' s = ⋃ n, A n ∩ g n ⁻¹' s := by
    ext ω
    simp only [Set.mem_preimage, Set.mem_iUnion, Set.mem_inter_iff]
    constructor
    · intro h
      obtain ⟨n, hn⟩ := hc ω
      exact ⟨n, hn, by rw [← he n ω hn]; exact h⟩
    · rintro ⟨n, hn, h⟩
      rw [he n ω hn]; exact h
  rw [this]
  exact MeasurableSet.iUnion fun n => (hA n).inter (hg n hs)

/-- measurable choices from a countable set are piecewise constant -/
theorem PW.ofInt {f : Ω → Int} (h : Measurable f) : PW f := by
  obtain ⟨e⟩ : Nonempty (ℕ ≃ ℤ) := ⟨(Denumerable.eqv ℤ).symm⟩
  exact ⟨fun n => f ⁻¹' {e n}, fun n _ => e n, fun n => h (measurableSet_singleton _), fun ω => ⟨e.symm (f ω), by simp⟩, fun n => ⟨_, rfl⟩, fun n ω hω => hω⟩
theorem PW.ofBool {f : Ω → Bool} (h : Measurable f) : PW f :=
  (PW.ite h (PW.bool true) (PW.bool false)).congr fun ω => by cases f ω <;> rfl

theorem PW.iteInt {f : Ω → Int} (hf : PW f) (p : Int → Prop) [DecidablePred p] {a b : Ω → β} (ha : PW a) (hb : PW b) : PW fun ω => if p (f ω) then a ω else b ω := by
  refine PW.bind (k := fun ω x => if p x then a ω else b ω) hf ?_
  rintro g ⟨c, rfl⟩
  exact PW.iteC _ (fun _ => ha) fun _ => hb
end basics

section lists
variable {β γ : Type} [Nice Ω β] [Nice Ω γ]
theorem nice_nil : nice fun _ : Ω => ([] : List β) := ⟨[], by simp, rfl⟩
theorem nice_cons {f : Ω → β} {l : Ω → List β} (hf : nice f) (hl : nice l) : nice fun ω => f ω :: l ω := by
  obtain ⟨L, hL, rfl⟩ := hl
  exact ⟨f :: L, by simpa using ⟨hf, hL⟩, rfl⟩
theorem nice_append {l m : Ω → List β} (hl : nice l) (hm : nice m) : nice fun ω => l ω ++ m ω := by
  obtain ⟨L, hL, rfl⟩ := hl
  obtain ⟨M, hM, rfl⟩ := hm
  refine ⟨L ++ M, ?_, by funext ω; rw [List.map_append]⟩
  intro g hg
  rcases List.mem_append.1 hg with h | h
  · exact hL g h
  · exact hM g h
theorem nice_map {l : Ω → List β} (hl : nice l) {h : Ω → β → γ} (hh : ∀ g : Ω → β, nice g → nice fun ω => h ω (g ω)) : nice fun ω => (l ω).map (h ω) := by
  obtain ⟨L, hL, rfl⟩ := hl
  refine ⟨L.map fun g ω => h ω (g ω), ?_, by funext ω; rw [List.map_map, List.map_map]; rfl⟩
  intro g hg
  obtain ⟨g', hg', rfl⟩ := List.mem_map.1 hg
  exact hh g' (hL g' hg')
theorem nice_empty {l : Ω → List β} (hl : nice l) : ∃ b, ∀ ω, (l ω).isEmpty = b := by
  obtain ⟨L, hL, rfl⟩ := hl
  exact ⟨L.isEmpty, fun ω => by simp⟩
end lists

/-! ## Complex numbers and reflectivity -/

instance : MeasurableSpace (Cx ℝ) := MeasurableSpace.comap (fun v => (v.re, v.im)) inferInstance
theorem m_cx {f : Ω → Cx ℝ} : Measurable f ↔ Measurable (fun ω => (f ω).re) ∧ Measurable (fun ω => (f ω).im) := by
  rw [measurable_comap_iff]
  exact ⟨fun h => ⟨measurable_fst.comp h, measurable_snd.comp h⟩, fun h => h.1.prodMk h.2⟩
@[fun_prop] theorem m_re {f : Ω → Cx ℝ} (h : Measurable f) : Measurable fun ω => (f ω).re := (m_cx.1 h).1
@[fun_prop] theorem m_im {f : Ω → Cx ℝ} (h : Measurable f) : Measurable fun ω => (f ω).im := (m_cx.1 h).2
@[fun_prop] theorem m_cmk {f g : Ω → ℝ} (hf : Measurable f) (hg : Measurable g) : Measurable fun ω => (⟨f ω, g ω⟩ : Cx ℝ) := m_cx.2 ⟨hf, hg⟩

section refl
variable {a b : Ω → Cx ℝ} {e f g h i j : Ω → ℝ} {u v w x : Ω → V3 ℝ}
@[fun_prop] theorem m_cmul (ha : Measurable a) (hb : Measurable b) : Measurable fun ω => cmul (a ω) (b ω) := by unfold cmul; fun_prop
@[fun_prop] theorem m_cinv (ha : Measurable a) : Measurable fun ω => cinv (a ω) := by unfold cinv; fun_prop
@[fun_prop] theorem m_cscale (ha : Measurable a) (hf : Measurable f) : Measurable fun ω => cscale (a ω) (f ω) := by unfold cscale; fun_prop
@[fun_prop] theorem m_cabs (ha : Measurable a) : Measurable fun ω => cabs (a ω) := by unfold cabs; fun_prop
@[fun_prop] theorem m_csqrt (ha : Measurable a) : Measurable fun ω => csqrt (a ω) := by
  unfold csqrt
  dsimp only
  refine m_cmk (by fun_prop) ?_
  exact Measurable.ite (m_true (by fun_prop)) (by fun_prop) (by fun_prop)
@[fun_prop] theorem m_reflW (ha : Measurable a) (hf : Measurable f) : Measurable fun ω => reflW (a ω) (f ω) := by unfold reflW; fun_prop
@[fun_prop] theorem m_reflRs (ha : Measurable a) (hb : Measurable b) (hf : Measurable f) : Measurable fun ω => reflRs (a ω) (b ω) (f ω) := by unfold reflRs; fun_prop
@[fun_prop] theorem m_reflRp (ha : Measurable a) (hb : Measurable b) (hf : Measurable f) : Measurable fun ω => reflRp (a ω) (b ω) (f ω) := by unfold reflRp; fun_prop
@[fun_prop] theorem m_reflN (he : Measurable e) (hf : Measurable f) (hg : Measurable g) (hh : Measurable h) : Measurable fun ω => reflN (e ω) (f ω) (g ω) (h ω) := by
  unfold reflN reflAlfa reflBeta; fun_prop
@[fun_prop] theorem m_reflTot (ha : Measurable a) (hf : Measurable f) (hg : Measurable g) : Measurable fun ω => reflTot (a ω) (f ω) (g ω) := by
  unfold reflTot; dsimp only; fun_prop
@[fun_prop] theorem m_normIfNot1 (hu : Measurable u) : Measurable fun ω => normIfNot1 (u ω) := by
  unfold normIfNot1
  exact Measurable.ite (m_true (by fun_prop)) (by fun_prop) hu
@[fun_prop] theorem m_newE (he : Measurable e) (hf : Measurable f) (hg : Measurable g) (hh : Measurable h) (hi : Measurable i) (hj : Measurable j) :
    Measurable fun ω => newE (e ω) (f ω) (g ω) (h ω) (i ω) (j ω) := by unfold newE; fun_prop
@[fun_prop] theorem m_polarRejects (he : Measurable e) (hf : Measurable f) (hg : Measurable g) (hh : Measurable h) : Measurable fun ω => polarRejects (e ω) (f ω) (g ω) (h ω) := by
  unfold polarRejects; fun_prop

theorem pw_reflPolar (he : Measurable e) (hf : Measurable f) (hg : Measurable g) (hh : Measurable h) (hu : Measurable u) (hv : Measurable v) (hw : Measurable w) (hx : Measurable x) :
    PW fun ω => reflPolar (e ω) (f ω) (g ω) (h ω) (u ω) (v ω) (w ω) (x ω) := by
  unfold reflPolar
  dsimp only
  refine PW.ite (by fun_prop) ?_ (PW.ite (by fun_prop) ?_ ?_)
  · exact PW.of ⟨measurable_const, hx, hw⟩
  · exact PW.of ⟨measurable_const, hx, hw⟩
  · refine PW.of ⟨?_, ?_, ?_⟩
    · show Measurable _; fun_prop
    · show Measurable _; fun_prop
    · show Measurable _; fun_prop
end refl

/-! ## Photons -/

structure NChan (f : Ω → Chan ℝ) : Prop where
  e : Measurable fun ω => (f ω).e
  w : Measurable fun ω => (f ω).w
  amu : Measurable fun ω => (f ω).amu
  scatf : Measurable fun ω => (f ω).scatf
instance : Nice Ω (Chan ℝ) := ⟨NChan⟩

structure NLeak (f : Ω → Leak ℝ) : Prop where
  coords : Measurable fun ω => (f ω).coords
  dir : Measurable fun ω => (f ω).dir
  elecv : Measurable fun ω => (f ω).elecv
  n_refl : nice fun ω => (f ω).n_refl
  weight : nice fun ω => (f ω).weight
instance : Nice Ω (Leak ℝ) := ⟨NLeak⟩

structure NPhoton (f : Ω → Photon ℝ) : Prop where
  startC : Measurable fun ω => (f ω).startC
  startD : Measurable fun ω => (f ω).startD
  startE : Measurable fun ω => (f ω).startE
  exitC : Measurable fun ω => (f ω).exitC
  exitD : Measurable fun ω => (f ω).exitD
  exitE : Measurable fun ω => (f ω).exitE
  i_refl : nice fun ω => (f ω).i_refl
  d_travel : Measurable fun ω => (f ω).d_travel
  ext : nice fun ω => (f ω).ext
  int : nice fun ω => (f ω).int
  chans : nice fun ω => (f ω).chans
  coef : nice fun ω => (f ω).coef
instance : Nice Ω (Photon ℝ) := ⟨NPhoton⟩

structure NERes (f : Ω → ERes ℝ) : Prop where
  chans : nice fun ω => (f ω).chans
  wl : nice fun ω => (f ω).wl
  E : Measurable fun ω => (f ω).E
  ev : Measurable fun ω => (f ω).ev
  leakFlag : nice fun ω => (f ω).leakFlag
  weightFlag : nice fun ω => (f ω).weightFlag
  ok : nice fun ω => (f ω).ok
instance : Nice Ω (ERes ℝ) := ⟨NERes⟩

structure NWall (f : Ω → Wall ℝ) : Prop where
  code : nice fun ω => (f ω).code
  d : Measurable fun ω => (f ω).d
  q : nice fun ω => (f ω).q
  r : nice fun ω => (f ω).r
instance : Nice Ω (Wall ℝ) := ⟨NWall⟩

/-! ## Positions -/

section pos
variable {e f g h : Ω → ℝ} {u v w x : Ω → V3 ℝ}
theorem pw_within (hf : Measurable f) (hg : Measurable g) (hh : Measurable h) : PW fun ω => withinPcBoundary (f ω) (g ω) (h ω) := by
  unfold withinPcBoundary
  exact PW.ite (by fun_prop) (PW.int _) (PW.ite (by fun_prop) (PW.int _) (PW.int _))

theorem pw_segId (z : Nat → ℝ) (init : Nat) (hf : Measurable f) (n : Nat) : PW fun ω => segIdFrom z init (f ω) n := by
  induction n with
  | zero => exact PW.nat _
  | succ n ih =>
    simp only [segIdFrom]
    exact PW.ite (by fun_prop) (PW.nat _) ih

theorem pw_cubeRound (hf : Measurable f) (hg : Measurable g) : PW fun ω => cubeRound (f ω) (g ω) := by
  unfold cubeRound
  dsimp only
  have h1 : PW fun ω => roundI (f ω) := PW.ofInt (by fun_prop)
  have h2 : PW fun ω => roundI (g ω) := PW.ofInt (by fun_prop)
  have h3 : PW fun ω => roundI (lit (-1) *. f ω -. g ω) := PW.ofInt (by fun_prop)
  refine PW.on h1 ?_
  rintro _ ⟨a, rfl⟩
  pw_step
  refine PW.on h2 ?_
  rintro _ ⟨b, rfl⟩
  pw_step
  refine PW.on h3 ?_
  rintro _ ⟨c, rfl⟩
  pw_step
  exact PW.ite (by fun_prop) (PW.pair (PW.int _) (PW.int _)) (PW.ite (by fun_prop) (PW.pair (PW.int _) (PW.int _)) (PW.pair (PW.int _) (PW.int _)))

theorem pw_hexRound (ns : Int) (hf : Measurable f) (hg : Measurable g) (hh : Measurable h) : PW fun ω => hexRound ns (f ω) (g ω) (h ω) := by
  unfold hexRound hexFrac hexCell
  exact pw_cubeRound (by fun_prop) (by fun_prop)

theorem pw_segSolve {a b c p q : Ω → ℝ} (z0 z1 : ℝ) (ha : Measurable a) (hb : Measurable b) (hc : Measurable c) (hp : Measurable p) (hq : Measurable q) :
    PW fun ω => segSolve (a ω) (b ω) (c ω) (p ω) z0 z1 (q ω) := by
  unfold segSolve segBad
  dsimp only
  refine PW.ite (by fun_prop) (PW.inl (PW.int _)) (PW.ite (by fun_prop) (PW.inr (PW.real (by fun_prop))) ?_)
  refine PW.ite (by fun_prop) (PW.ite (by fun_prop) (PW.inl (PW.int _)) (PW.inr (PW.real (by fun_prop)))) ?_
  refine PW.ite (by fun_prop) (PW.inr (PW.real (by fun_prop))) ?_
  exact PW.ite (by fun_prop) (PW.inr (PW.real (by fun_prop))) (PW.inr (PW.real (by fun_prop)))

theorem pw_segment {p0 p1 d cur nrm : Ω → V3 ℝ} (c0 c1 : V3 ℝ) (r0 r1 : ℝ) (h0 : Measurable p0) (h1 : Measurable p1) (hd : Measurable d) (hc : Measurable cur) (hn : Measurable nrm) :
    PW fun ω => segment c0 c1 r0 r1 (p0 ω) (p1 ω) (d ω) (cur ω) (nrm ω) := by
  unfold segment segRejects
  dsimp only
  refine PW.ite (by fun_prop) (PW.of ⟨nice_int _, hc, hn⟩) ?_
  have hs := pw_segSolve (a := fun ω => segA c0 c1 r0 r1 (vnorm (d ω)) (vsub c1 c0)) (b := fun ω => segB c0 c1 r0 r1 (p0 ω) (vnorm (d ω)) (vsub c1 c0)) (c := fun ω => segC c0 r0 (p0 ω))
    (p := fun ω => (p0 ω).z) (q := fun ω => (cur ω).z) c0.z c1.z (by unfold segA segSlopes segTaper; fun_prop) (by unfold segB segSlopes segTaper; fun_prop) (by unfold segC; fun_prop) (by fun_prop) (by fun_prop)
  refine PW.on hs ?_
  rintro s (⟨g, ⟨c, rfl⟩, rfl⟩ | ⟨z, hz, rfl⟩)
  · pw_step
    exact PW.of ⟨nice_int _, hc, measurable_const⟩
  · have hz : Measurable z := hz
    pw_step
    refine PW.ite (by fun_prop) (PW.of ⟨nice_int _, hc, measurable_const⟩) (PW.ite (by fun_prop) (PW.of ⟨nice_int _, hc, measurable_const⟩)
      (PW.ite (by fun_prop) (PW.of ⟨nice_int _, hc, measurable_const⟩) (PW.of ⟨nice_int _, ?_, ?_⟩)))
    · show Measurable _; fun_prop
    · show Measurable _
      refine m_segNormal _ _ _ _ ?_ ?_ ?_ ?_ <;> fun_prop
end pos

/-! ## Reflection -/

theorem leakWeight_m {a b c d e : Ω → ℝ} (ha : Measurable a) (hb : Measurable b) (hc : Measurable c) (hd : Measurable d) (he : Measurable e) :
    Measurable fun ω => leakWeight (a ω) (b ω) (c ω) (d ω) (e ω) := by unfold leakWeight; fun_prop
theorem rough_m (s : ℝ) {e f : Ω → ℝ} (he : Measurable e) (hf : Measurable f) : Measurable fun ω => roughFactor s (e ω) (f ω) := by unfold roughFactor; fun_prop

theorem pw_reflEnergies (D : Descr ℝ) {norm dir : Ω → V3 ℝ} {alfa d : Ω → ℝ} (leak : Bool) (hn : Measurable norm) (hd : Measurable dir) (ha : Measurable alfa) (hdd : Measurable d)
    (L : List (Ω → Chan ℝ)) (hL : ∀ g ∈ L, nice g) : ∀ {E ev : Ω → V3 ℝ}, Measurable E → Measurable ev →
    PW fun ω => reflEnergies D (norm ω) (dir ω) (alfa ω) leak (d ω) (L.map (· ω)) (E ω) (ev ω) := by
  induction L with
  | nil =>
    intro E ev hE hev
    exact PW.of ⟨nice_nil, nice_nil, hE, hev, nice_bool _, nice_bool _, nice_bool _⟩
  | cons c cs ih =>
    intro E ev hE hev
    have hc : NChan c := hL c (List.mem_cons_self)
    have hcs : ∀ g ∈ cs, nice g := fun g hg => hL g (List.mem_cons_of_mem _ hg)
    have he := hc.e
    have hw := hc.w
    have hamu := hc.amu
    have hsc := hc.scatf
    simp only [List.map_cons, reflEnergies]
    refine PW.on (pw_reflPolar (f := fun _ => D.density) he measurable_const hsc hamu hn hd hE hev) ?_
    rintro x ⟨h1, h2, h3⟩
    have h1 : Measurable fun ω => (x ω).1 := h1
    have h2 : Measurable fun ω => (x ω).2.1 := h2
    have h3 : Measurable fun ω => (x ω).2.2 := h3
    pw_step
    refine PW.ite (by fun_prop) (PW.of ⟨?_, nice_nil, h3, h2, nice_bool _, nice_bool _, nice_bool _⟩) ?_
    · exact nice_cons hc ⟨cs, hcs, rfl⟩
    refine PW.on (ih hcs h3 h2) ?_
    intro r hr
    have hr : NERes r := hr
    pw_step
    have hrr := rough_m D.sig_rough he ha
    have hwl : Measurable fun ω => leakWeight (x ω).1 (roughFactor D.sig_rough (c ω).e (alfa ω)) (c ω).w (d ω) (c ω).amu := leakWeight_m h1 hrr hw hdd hamu
    obtain ⟨lf, hlf⟩ := hr.leakFlag
    obtain ⟨wf, hwf⟩ := hr.weightFlag
    have b1 : PW fun ω => (leak && leakWeight (x ω).1 (roughFactor D.sig_rough (c ω).e (alfa ω)) (c ω).w (d ω) (c ω).amu >=. lit (1/10^4)) || (r ω).leakFlag := by
      rw [show (fun ω => (leak && leakWeight (x ω).1 (roughFactor D.sig_rough (c ω).e (alfa ω)) (c ω).w (d ω) (c ω).amu >=. lit (1/10^4)) || (r ω).leakFlag) =
        fun ω => (leak && leakWeight (x ω).1 (roughFactor D.sig_rough (c ω).e (alfa ω)) (c ω).w (d ω) (c ω).amu >=. lit (1/10^4)) || lf from by funext ω; rw [congrFun hlf ω]]
      exact PW.ofBool (by fun_prop)
    have b2 : PW fun ω => ((c ω).w *. (x ω).1 *. roughFactor D.sig_rough (c ω).e (alfa ω) >=. lit (1/10^4)) || (r ω).weightFlag := by
      rw [show (fun ω => ((c ω).w *. (x ω).1 *. roughFactor D.sig_rough (c ω).e (alfa ω) >=. lit (1/10^4)) || (r ω).weightFlag) =
        fun ω => ((c ω).w *. (x ω).1 *. roughFactor D.sig_rough (c ω).e (alfa ω) >=. lit (1/10^4)) || wf from by funext ω; rw [congrFun hwf ω]]
      exact PW.ofBool (by fun_prop)
    refine PW.on b1 ?_
    rintro _ ⟨v1, rfl⟩
    pw_step
    refine PW.on b2 ?_
    rintro _ ⟨v2, rfl⟩
    pw_step
    refine PW.of ⟨nice_cons ?_ hr.chans, nice_cons hwl hr.wl, hr.E, hr.ev, nice_bool _, nice_bool _, hr.ok⟩
    exact ⟨he, (by show Measurable _; fun_prop), hamu, hsc⟩

/-! ## Leaving the optic -/

instance : Nice Ω Code := ⟨fun f => ∃ c, f = fun _ => c⟩
instance instNiceEArg : Nice Ω EArg := ⟨fun f => ∃ c, f = fun _ => c⟩

theorem pw_pcSearch (p : Profile ℝ) {c d : Ω → V3 ℝ} (hc : Measurable c) (hd : Measurable d) (here dir : Int) :
    ∀ (k : Nat) (zid : Int), PW fun ω => pcSearch p (c ω) (d ω) here dir k zid := by
  intro k
  induction k with
  | zero => intro zid; exact PW.fuel
  | succ k ih =>
    intro zid
    simp only [pcSearch]
    cases rd p.z p.nmax (zid + dir) with
    | ub => exact PW.ub
    | fuel => exact PW.fuel
    | ok zj =>
      simp only [Out.bind_ok]
      cases rd p.ext p.nmax (zid + dir) with
      | ub => exact PW.ub
      | fuel => exact PW.fuel
      | ok ej =>
        simp only [Out.bind_ok]
        refine PW.on (pw_within (f := fun _ => ej) (g := fun ω => (projXY (c ω) (d ω) zj).1) (h := fun ω => (projXY (c ω) (d ω) zj).2) measurable_const (by fun_prop) (by fun_prop)) ?_
        rintro _ ⟨b, rfl⟩
        pw_step
        refine PW.iteC _ (fun _ => PW.ok (PW.osome (PW.int _))) fun _ => PW.iteC _ (fun _ => ih _) fun _ => PW.ok PW.onone

theorem pw_selectZ {ge gt : ℝ → ℝ → Bool} (hge : ∀ {f g : Ω → ℝ}, Measurable f → Measurable g → Measurable fun ω => ge (f ω) (g ω))
    (hgt : ∀ {f g : Ω → ℝ}, Measurable f → Measurable g → Measurable fun ω => gt (f ω) (g ω)) {a b c : Ω → Bool} {x y z : Ω → ℝ}
    (ha : Measurable a) (hb : Measurable b) (hc : Measurable c) (hx : Measurable x) (hy : Measurable y) (hz : Measurable z) :
    PW fun ω => selectZ ge gt (a ω) (b ω) (c ω) (x ω) (y ω) (z ω) := by
  have X := PW.osome (PW.osome (PW.real hx))
  have Y := PW.osome (PW.osome (PW.real hy))
  have Z := PW.osome (PW.osome (PW.real hz))
  unfold selectZ
  exact PW.ite (by fun_prop) (PW.ite (m_and (hge hx hy) (hge hx hz)) X (PW.ite (m_and (hge hy hx) (hge hy hz)) Y (PW.ite (m_and (hge hz hx) (hge hz hy)) Z PW.onone)))
    (PW.ite (by fun_prop) (PW.ite (hgt hz hy) Z Y) (PW.ite (by fun_prop) (PW.ite (hgt hx hz) X Z) (PW.ite (by fun_prop) (PW.ite (hgt hx hy) X Y)
      (PW.ite (by fun_prop) X (PW.ite (by fun_prop) Y (PW.ite (by fun_prop) Z (PW.osome PW.onone)))))))

theorem m_edgeZ {a b c d e f : Ω → ℝ} (ha : Measurable a) (hb : Measurable b) (hc : Measurable c) (hd : Measurable d) (he : Measurable e) (hf : Measurable f) :
    Measurable fun ω => edgeZ (a ω) (b ω) (c ω) (d ω) (e ω) (f ω) := by unfold edgeZ; fun_prop

theorem pw_pcFinish (p : Profile ℝ) {c d : Ω → V3 ℝ} (hc : Measurable c) (hd : Measurable d) (dir j : Int) : PW fun ω => pcFinish p (c ω) (d ω) dir j := by
  unfold pcFinish
  cases rd p.z p.nmax j with
  | ub => exact PW.ub
  | fuel => exact PW.fuel
  | ok zj =>
  simp only [Out.bind_ok]
  cases rd p.z p.nmax (j - dir) with
  | ub => exact PW.ub
  | fuel => exact PW.fuel
  | ok zk =>
  simp only [Out.bind_ok]
  cases rd p.ext p.nmax j with
  | ub => exact PW.ub
  | fuel => exact PW.fuel
  | ok ej =>
  simp only [Out.bind_ok]
  cases rd p.ext p.nmax (j - dir) with
  | ub => exact PW.ub
  | fuel => exact PW.fuel
  | ok ek =>
  simp only [Out.bind_ok]
  have h1 : Measurable fun ω => edgeZ ej ek (hexApothem ej) (hexApothem ek) (fabs (lit 0 *. (proj3 (c ω) (d ω) zj).x +. lit 1 *. (proj3 (c ω) (d ω) zj).y))
      (fabs (lit 0 *. (proj3 (c ω) (d ω) zk).x +. lit 1 *. (proj3 (c ω) (d ω) zk).y)) := by
    refine m_edgeZ ?_ ?_ ?_ ?_ ?_ ?_ <;> fun_prop
  have h2 : Measurable fun ω => edgeZ ej ek (hexApothem ej) (hexApothem ek) (fabs (cospi6 *. (proj3 (c ω) (d ω) zj).x +. lit (1/2) *. (proj3 (c ω) (d ω) zj).y))
      (fabs (cospi6 *. (proj3 (c ω) (d ω) zk).x +. lit (1/2) *. (proj3 (c ω) (d ω) zk).y)) := by
    refine m_edgeZ ?_ ?_ ?_ ?_ ?_ ?_ <;> fun_prop
  have h3 : Measurable fun ω => edgeZ ej ek (hexApothem ej) (hexApothem ek) (fabs (cospi6 *. (proj3 (c ω) (d ω) zj).x +. lit (-1/2) *. (proj3 (c ω) (d ω) zj).y))
      (fabs (cospi6 *. (proj3 (c ω) (d ω) zk).x +. lit (-1/2) *. (proj3 (c ω) (d ω) zk).y)) := by
    refine m_edgeZ ?_ ?_ ?_ ?_ ?_ ?_ <;> fun_prop
  by_cases hdir : dir < 0
  · simp only [hdir, if_true]
    refine PW.on (pw_selectZ (ge := fun a b => a >=. b) (gt := fun a b => a >. b) (fun hf hg => m_ge hf hg) (fun hf hg => m_gt hf hg)
      (m_and (m_ge h1 (measurable_const (a := zj))) (m_le h1 (measurable_const (a := zk)))) (m_and (m_ge h2 (measurable_const (a := zj))) (m_le h2 (measurable_const (a := zk)))) (m_and (m_ge h3 (measurable_const (a := zj))) (m_le h3 (measurable_const (a := zk)))) h1 h2 h3) ?_
    rintro _ (rfl | ⟨_, (rfl | ⟨z, hz, rfl⟩), rfl⟩)
    · exact ⟨_, fun ω e => by rw [e], PW.ok PW.onone⟩
    · refine ⟨_, fun ω e => by rw [e], PW.ok (PW.osome (PW.v3 ?_))⟩
      fun_prop
    · have hz : Measurable z := hz
      refine ⟨_, fun ω e => by rw [e], PW.ok (PW.osome (PW.v3 ?_))⟩
      fun_prop
  · simp only [hdir, if_false]
    refine PW.on (pw_selectZ (ge := fun a b => a <=. b) (gt := fun a b => a <. b) (fun hf hg => m_le hf hg) (fun hf hg => m_lt hf hg)
      (m_and (m_le h1 (measurable_const (a := zj))) (m_ge h1 (measurable_const (a := zk)))) (m_and (m_le h2 (measurable_const (a := zj))) (m_ge h2 (measurable_const (a := zk)))) (m_and (m_le h3 (measurable_const (a := zj))) (m_ge h3 (measurable_const (a := zk)))) h1 h2 h3) ?_
    rintro _ (rfl | ⟨_, (rfl | ⟨z, hz, rfl⟩), rfl⟩)
    · exact ⟨_, fun ω e => by rw [e], PW.ok PW.onone⟩
    · refine ⟨_, fun ω e => by rw [e], PW.ok (PW.osome (PW.v3 ?_))⟩
      fun_prop
    · have hz : Measurable z := hz
      refine ⟨_, fun ω e => by rw [e], PW.ok (PW.osome (PW.v3 ?_))⟩
      fun_prop

theorem pw_pcIntersect (p : Profile ℝ) {c d : Ω → V3 ℝ} (hc : Measurable c) (hd : Measurable d) (e : EArg) : PW fun ω => pcIntersect p (c ω) (d ω) e := by
  have hE : ∀ e : EArg, nice fun _ : Ω => e := fun e => ⟨e, rfl⟩
  have hr : Measurable fun ω => revDir (d ω) := by unfold revDir; fun_prop
  unfold pcIntersect
  dsimp only
  refine PW.ite (by fun_prop) (PW.ok (PW.pair PW.onone (PW.of (hE _)))) ?_
  refine PW.on (pw_segId p.z 0 (f := fun ω => (c ω).z) (by fun_prop) p.nmax) ?_
  rintro _ ⟨id, rfl⟩
  pw_step
  refine PW.on (pw_within (f := fun ω => interpAt p p.ext id (c ω).z) (g := fun ω => (c ω).x) (h := fun ω => (c ω).y) (by fun_prop) (by fun_prop) (by fun_prop)) ?_
  rintro _ ⟨b, rfl⟩
  pw_step
  refine PW.iteC _ (fun _ => PW.ok (PW.pair PW.onone (PW.of (hE _)))) fun _ => ?_
  have hb : PW fun ω => (revDir (d ω)).z <. (lit 0 : ℝ) := PW.ofBool (by fun_prop)
  refine PW.on hb ?_
  rintro _ ⟨s, rfl⟩
  pw_step
  refine PW.obind (pw_pcSearch p hc hr b _ _ _) ?_
  rintro _ (rfl | ⟨_, ⟨j, rfl⟩, rfl⟩)
  · exact PW.ok (PW.pair PW.onone (PW.of (hE _)))
  · exact PW.obind (pw_pcFinish p hc hr _ _) fun g hg => PW.ok (PW.pair (PW.of hg) (PW.of (hE _)))

/-! ## Through the wall -/

instance : Nice Ω (Step ℝ) := ⟨fun f => (∃ d : Ω → ℝ, Measurable d ∧ f = fun ω => .stumbled (d ω)) ∨
  ∃ (d : Ω → ℝ) (z : Nat) (ph : Ω → V3 ℝ) (q r : Int), Measurable d ∧ Measurable ph ∧ f = fun ω => .left (d ω) z (ph ω) q r⟩

theorem PW.wall {d : Ω → ℝ} (h : Measurable d) (c q r : Int) : PW fun ω => (⟨c, d ω, q, r⟩ : Wall ℝ) := PW.of ⟨nice_int _, h, nice_int _, nice_int _⟩

section wall
variable (p : Profile ℝ) (ns : Int) {c d : Ω → V3 ℝ} (hc : Measurable c) (hd : Measurable d)
include hc hd

theorem pw_wallSegs (q r : Int) : ∀ (k zid : Nat) {cur : Ω → V3 ℝ}, Measurable cur → PW fun ω => wallSegs p ns q r (c ω) (d ω) k zid (cur ω) := by
  intro k
  induction k with
  | zero =>
    intro zid cur hcur
    simp only [wallSegs]
    refine PW.on (pw_segment (nrm := fun _ => ⟨lit 0, lit 0, lit 0⟩) (axisAt p ns q r zid) (axisAt p ns q r (zid + 1)) (p.cap zid) (p.cap (zid + 1)) (m_atGrid p hc hd zid) (m_atGrid p hc hd (zid + 1)) hd hcur measurable_const) ?_
    rintro x ⟨⟨v, hv⟩, h2, h3⟩
    pw_step
    simp only [fun ω => congrFun hv ω, ite_self]
    exact PW.of ⟨nice_int _, nice_nat _, h2⟩
  | succ k ih =>
    intro zid cur hcur
    simp only [wallSegs]
    refine PW.on (pw_segment (nrm := fun _ => ⟨lit 0, lit 0, lit 0⟩) (axisAt p ns q r zid) (axisAt p ns q r (zid + 1)) (p.cap zid) (p.cap (zid + 1)) (m_atGrid p hc hd zid) (m_atGrid p hc hd (zid + 1)) hd hcur measurable_const) ?_
    rintro x ⟨⟨v, hv⟩, h2, h3⟩
    pw_step
    simp only [fun ω => congrFun hv ω]
    exact PW.iteC _ (fun _ => PW.of ⟨nice_int _, nice_nat _, h2⟩) fun _ => ih _ h2

theorem pw_wallStep (qi ri : Int) : ∀ (k : Nat) {dist : Ω → ℝ} (zid : Nat), Measurable dist → PW fun ω => wallStep p ns qi ri (c ω) (d ω) k (dist ω) zid := by
  intro k
  induction k with
  | zero => intro dist zid h; exact PW.fuel
  | succ k ih =>
    intro dist zid hdist
    simp only [wallStep]
    have hph : Measurable fun ω => (⟨(c ω).x +. (dist ω +. p.cap zid /. lit 10) *. (d ω).x, (c ω).y +. (dist ω +. p.cap zid /. lit 10) *. (d ω).y,
      (c ω).z +. (dist ω +. p.cap zid /. lit 10) *. (d ω).z⟩ : V3 ℝ) := by fun_prop
    refine PW.on (pw_segId p.z zid (f := fun ω => (c ω).z +. (dist ω +. p.cap zid /. lit 10) *. (d ω).z) (by fun_prop) p.nmax) ?_
    rintro _ ⟨id, rfl⟩
    pw_step
    refine PW.on (pw_hexRound ns (f := fun ω => interpAt p p.ext id ((c ω).z +. (dist ω +. p.cap zid /. lit 10) *. (d ω).z)) (g := fun ω => (c ω).x +. (dist ω +. p.cap zid /. lit 10) *. (d ω).x)
      (h := fun ω => (c ω).y +. (dist ω +. p.cap zid /. lit 10) *. (d ω).y) (by fun_prop) (by fun_prop) (by fun_prop)) ?_
    rintro qr ⟨⟨q, hq⟩, ⟨r, hr⟩⟩
    pw_step
    simp only [fun ω => congrFun hq ω, fun ω => congrFun hr ω]
    refine PW.ite ?_ (PW.ok (PW.of (Or.inl ⟨_, ?_, rfl⟩))) (PW.ite (by fun_prop) (ih _ (by fun_prop)) (PW.ok (PW.of (Or.inr ⟨_, _, _, _, _, ?_, hph, rfl⟩))))
    · unfold capCentre hexCell; fun_prop
    · fun_prop
    · fun_prop

theorem pw_wallExit {last : Ω → V3 ℝ} (hl : Measurable last) (q r : Int) : PW fun ω => wallExit p (c ω) (d ω) (last ω) q r := by
  unfold wallExit
  dsimp only
  have ht := m_atGrid p hc hd p.nmax
  refine PW.on (pw_within (f := fun _ => p.ext p.nmax) (g := fun ω => (atGrid p (c ω) (d ω) p.nmax).x) (h := fun ω => (atGrid p (c ω) (d ω) p.nmax).y) measurable_const (by fun_prop) (by fun_prop)) ?_
  rintro _ ⟨b, rfl⟩
  pw_step
  refine PW.iteC _ (fun _ => ?_) fun _ => PW.ok (PW.wall (m_dist3 hl hc) _ _ _)
  refine PW.obind (pw_pcIntersect p ht hd none) ?_
  rintro x ⟨h1, -⟩
  rcases h1 with h1 | ⟨v, hv, h1⟩
  · simp only [fun ω => congrFun h1 ω]
    exact PW.ok (PW.wall (m_dist3 hl hc) _ _ _)
  · simp only [fun ω => congrFun h1 ω]
    exact PW.ok (PW.wall (m_dist3 hv hc) _ _ _)

theorem pw_wallEnd (s1 : Int) (s2 : Nat) {s3 : Ω → V3 ℝ} (h3 : Measurable s3) (q r : Int) : PW fun ω => wallEnd p (c ω) (d ω) (s1, s2, s3 ω) q r := by
  unfold wallEnd
  dsimp only
  by_cases h : s1 ≠ 1
  · simp only [if_pos h]
    exact pw_wallExit p hc hd (m_atGrid p hc hd p.nmax) q r
  · simp only [if_neg h]
    by_cases h' : p.nmax ≤ s2
    · simp only [if_pos h']; exact PW.ok (PW.wall (m_dist3 h3 hc) _ _ _)
    · simp only [if_neg h']; exact PW.ok (PW.wall (m_dist3 h3 hc) _ _ _)

theorem pw_wallHex (g : Nat) : ∀ (f : Nat) (qi ri : Int) {dist : Ω → ℝ} (zid : Nat) {cur : Ω → V3 ℝ}, Measurable dist → Measurable cur →
    PW fun ω => wallHex p ns (c ω) (d ω) g f qi ri (dist ω) zid (cur ω) := by
  intro f
  induction f with
  | zero => intros; exact PW.fuel
  | succ f ih =>
    intro qi ri dist zid cur hdist hcur
    simp only [wallHex]
    refine PW.obind (pw_wallStep p ns hc hd qi ri g zid hdist) ?_
    rintro _ (⟨dd, hdd, rfl⟩ | ⟨dd, z, ph, q, r, hdd, hph, rfl⟩)
    · exact PW.ok (PW.wall hdd _ _ _)
    · dsimp only
      refine PW.ite (by fun_prop) (pw_wallExit p hc hd hph q r) ?_
      refine PW.on (pw_wallSegs p ns hc hd q r (p.nmax - 1 - (z + 1)) z hcur) ?_
      rintro s ⟨⟨s1, h1⟩, ⟨s2, h2⟩, h3⟩
      pw_step
      have e : s = fun ω => (s1, s2, (s ω).2.2) := by
        funext ω
        have e1 := congrFun h1 ω
        have e2 := congrFun h2 ω
        simp only at e1 e2
        rw [← e1, ← e2]
      have h3 : Measurable fun ω => (s ω).2.2 := h3
      generalize hs3 : (fun ω => (s ω).2.2) = s3 at h3 e
      have e' : ∀ ω, s ω = (s1, s2, s3 ω) := fun ω => by rw [← hs3]; exact congrFun e ω
      simp only [e']
      exact PW.iteC _ (fun _ => ih _ _ _ hdd h3) fun _ => pw_wallEnd p hc hd s1 s2 h3 q r
end wall

theorem pw_traceWall (D : Descr ℝ) (fuel : Nat) {c d : Ω → V3 ℝ} (hc : Measurable c) (hd : Measurable d) : PW fun ω => traceWall D fuel (c ω) (d ω) := by
  unfold traceWall
  dsimp only
  refine PW.ite (by fun_prop) (PW.ok (PW.wall measurable_const _ _ _)) ?_
  refine PW.on (pw_segId D.prof.z 0 (f := fun ω => (c ω).z) (by fun_prop) D.prof.nmax) ?_
  rintro _ ⟨id, rfl⟩
  pw_step
  have hw : Measurable fun ω => wallExt D.prof id (c ω).z := by
    unfold wallExt
    exact Measurable.ite (m_true (by fun_prop)) (by fun_prop) measurable_const
  refine PW.iteC _ (fun _ => ?_) fun _ => ?_
  · refine PW.ite (m_gt (by fun_prop) hw) (PW.ok (PW.wall measurable_const _ _ _)) ?_
    refine PW.on (pw_wallSegs D.prof (nShells (α := ℝ) D.n_cap) hc hd 0 0 (D.prof.nmax - 1 - (id + 1)) id hc) ?_
    rintro s ⟨⟨s1, h1⟩, ⟨s2, h2⟩, h3⟩
    have e : s = fun ω => (s1, s2, (s ω).2.2) := by
      funext ω
      have e1 := congrFun h1 ω
      have e2 := congrFun h2 ω
      simp only at e1 e2
      rw [← e1, ← e2]
    refine ⟨fun ω => wallEnd D.prof (c ω) (d ω) (s1, s2, (s ω).2.2) 0 0, fun ω e' => by rw [e']; exact congrArg (wallEnd D.prof (c ω) (d ω) · 0 0) (congrFun e ω), pw_wallEnd D.prof hc hd s1 s2 h3 0 0⟩
  · refine PW.on (pw_within (f := fun ω => wallExt D.prof id (c ω).z) (g := fun ω => (c ω).x) (h := fun ω => (c ω).y) hw (by fun_prop) (by fun_prop)) ?_
    rintro _ ⟨b, rfl⟩
    pw_step
    refine PW.iteC _ (fun _ => PW.ok (PW.wall measurable_const _ _ _)) fun _ => ?_
    refine PW.on (pw_hexRound (nShells (α := ℝ) D.n_cap) (f := fun ω => wallExt D.prof id (c ω).z) (g := fun ω => (c ω).x) (h := fun ω => (c ω).y) hw (by fun_prop) (by fun_prop)) ?_
    rintro qr ⟨⟨q, hq⟩, ⟨r, hr⟩⟩
    pw_step
    simp only [fun ω => congrFun hq ω, fun ω => congrFun hr ω]
    exact pw_wallHex D.prof _ hc hd fuel fuel q r id measurable_const hc

/-! ## `polycap_capil_reflect` and `polycap_capil_trace` -/

theorem pw_wallCode (D : Descr ℝ) (code : Int) {lc : Ω → V3 ℝ} (h : Measurable lc) : PW fun ω => wallCode D code (lc ω) := by
  unfold wallCode
  dsimp only
  refine PW.iteC _ (fun _ => ?_) fun _ => PW.int _
  unfold extAt
  refine PW.on (pw_segId D.prof.z 0 (f := fun ω => (lc ω).z) (by fun_prop) D.prof.nmax) ?_
  rintro _ ⟨id, rfl⟩
  pw_step
  refine PW.iteC _ (fun _ => ?_) fun _ => ?_
  · exact PW.ite (by fun_prop) (PW.int _) (PW.int _)
  · exact PW.iteInt (pw_within (f := fun ω => interpAt D.prof D.prof.ext id (lc ω).z) (g := fun ω => (lc ω).x) (h := fun ω => (lc ω).y) (by fun_prop) (by fun_prop) (by fun_prop)) (· = 0) (PW.int _) (PW.int _)

theorem nice_leakW {l : Ω → List (Chan ℝ)} (h : nice l) : nice fun ω => (l ω).map (·.w) :=
  nice_map (h := fun _ c => c.w) h fun _ hg => NChan.w hg

theorem nice_snoc {β : Type} [Nice Ω β] {l : Ω → List β} {f : Ω → β} (hl : nice l) (hf : nice f) : nice fun ω => l ω ++ [f ω] := nice_append hl (nice_cons hf nice_nil)

theorem pw_traceLoop {trace : Nat → Photon ℝ → Out (Int × Nat × Photon ℝ)} (ht : ∀ ix {P : Ω → Photon ℝ}, nice P → PW fun ω => trace ix (P ω)) :
    ∀ (k : Nat) (iesc : Int) (ix : Nat) {P : Ω → Photon ℝ}, nice P → PW fun ω => traceLoop trace k iesc ix (P ω) := by
  intro k
  induction k with
  | zero => intro iesc ix P hP; exact PW.ok (PW.of ⟨nice_int _, nice_nat _, hP⟩)
  | succ k ih =>
    intro iesc ix P hP
    simp only [traceLoop]
    refine PW.obind (ht ix hP) ?_
    rintro x ⟨⟨a, ha⟩, ⟨b, hb⟩, h3⟩
    have e1 : ∀ ω, (x ω).1 = a := fun ω => congrFun ha ω
    have e2 : ∀ ω, (x ω).2.1 = b := fun ω => congrFun hb ω
    simp only [e1, e2]
    exact PW.iteC _ (fun _ => PW.ok (PW.of ⟨⟨a, ha⟩, ⟨b, hb⟩, h3⟩)) fun _ => ih _ _ h3

theorem nice_zipW {l : Ω → List (Chan ℝ)} {m : Ω → List ℝ} (hl : nice l) (hm : nice m) : nice fun ω => List.zipWith (fun c w => { c with w := w }) (l ω) (m ω) := by
  obtain ⟨L, hL, rfl⟩ := hl
  obtain ⟨M, hM, rfl⟩ := hm
  induction L generalizing M with
  | nil => simp only [List.map_nil, List.zipWith_nil_left]; exact nice_nil
  | cons g L ih =>
    cases M with
    | nil => simp only [List.map_nil, List.zipWith_nil_right]; exact nice_nil
    | cons h M =>
      simp only [List.map_cons, List.zipWith_cons_cons]
      have hg : NChan g := hL g List.mem_cons_self
      exact nice_cons ⟨hg.e, hM h List.mem_cons_self, hg.amu, hg.scatf⟩ (ih (fun g hg => hL g (List.mem_cons_of_mem _ hg)) M fun g hg => hM g (List.mem_cons_of_mem _ hg))

theorem pw_photonNew {c d E : Ω → V3 ℝ} (hc : Measurable c) (hd : Measurable d) (hE : Measurable E) : PW fun ω => photonNew (c ω) (d ω) (E ω) := by
  unfold photonNew
  refine PW.ite (by fun_prop) PW.onone (PW.ite (by fun_prop) PW.onone (PW.osome (PW.of ?_)))
  exact ⟨hc, hd, hE, hc, hd, hE, nice_int _, measurable_const, nice_nil, nice_nil, nice_nil, nice_bool _⟩

theorem pw_recordTemp (D : Descr ℝ) {P T : Ω → Photon ℝ} (hP : NPhoton P) (hT : NPhoton T) (iesc : Int) : PW fun ω => recordTemp D (P ω) (T ω) iesc := by
  unfold recordTemp
  dsimp only
  refine PW.iteC _ (fun _ => ?_) fun _ => PW.of hP
  have h1 := hT.exitC
  have h2 := hT.exitD
  refine PW.on (pw_within (f := fun _ => D.prof.ext D.prof.nmax) (g := fun ω => (toExit D.prof (T ω).exitC (T ω).exitD).x) (h := fun ω => (toExit D.prof (T ω).exitC (T ω).exitD).y)
    measurable_const (by fun_prop) (by fun_prop)) ?_
  rintro _ ⟨b, rfl⟩
  pw_step
  have lk : nice fun ω => (⟨toExit D.prof (T ω).exitC (T ω).exitD, (P ω).exitD, (P ω).exitE, (P ω).i_refl, (T ω).chans.map (·.w)⟩ : Leak ℝ) :=
    ⟨by show Measurable _; fun_prop, hP.exitD, hP.exitE, hP.i_refl, nice_leakW hT.chans⟩
  refine PW.iteC _ (fun _ => PW.of ?_) fun _ => ?_
  · exact { hP with ext := nice_snoc hP.ext lk }
  · refine PW.iteC _ (fun _ => PW.of ?_) fun _ => PW.of hP
    exact { hP with int := nice_snoc hP.int lk }

theorem pw_reflectLeak (D : Descr ℝ) {trace : Int → Int → Nat → Photon ℝ → Out (Int × Nat × Photon ℝ)} (ht : ∀ q r ix {P : Ω → Photon ℝ}, nice P → PW fun ω => trace q r ix (P ω))
    {P : Ω → Photon ℝ} (hP : NPhoton P) {w : Ω → Wall ℝ} (hw : NWall w) {wl : Ω → List ℝ} (hwl : nice wl) (iesc : Int) : PW fun ω => reflectLeak D trace (P ω) (w ω) (wl ω) iesc := by
  obtain ⟨wc, hwc⟩ := hw.code
  obtain ⟨wq, hwq⟩ := hw.q
  obtain ⟨wr, hwr⟩ := hw.r
  have e1 : ∀ ω, (w ω).code = wc := fun ω => congrFun hwc ω
  have e2 : ∀ ω, (w ω).q = wq := fun ω => congrFun hwq ω
  have e3 : ∀ ω, (w ω).r = wr := fun ω => congrFun hwr ω
  have hd := hw.d
  have h1 := hP.exitC
  have h2 := hP.exitD
  have hlc : Measurable fun ω => along (P ω).exitC (P ω).exitD (w ω).d := by fun_prop
  have lk : nice fun ω => (⟨along (P ω).exitC (P ω).exitD (w ω).d, (P ω).exitD, (P ω).exitE, (P ω).i_refl, wl ω⟩ : Leak ℝ) := ⟨hlc, hP.exitD, hP.exitE, hP.i_refl, hwl⟩
  unfold reflectLeak
  simp only [e1, e2, e3]
  refine PW.on (pw_wallCode D wc hlc) ?_
  rintro _ ⟨code, rfl⟩
  pw_step
  refine PW.iteC _ (fun _ => PW.ok (PW.of ⟨nice_int _, ?_⟩)) fun _ => ?_
  · exact { hP with ext := nice_snoc hP.ext lk }
  refine PW.iteC _ (fun _ => PW.ok (PW.of ⟨nice_int _, ?_⟩)) fun _ => ?_
  · exact { hP with int := nice_snoc hP.int lk }
  have hb : PW fun ω => (along (P ω).exitC (P ω).exitD (w ω).d).z <. D.prof.z D.prof.nmax := PW.ofBool (by fun_prop)
  refine PW.on hb ?_
  rintro _ ⟨b, rfl⟩
  pw_step
  refine PW.iteC _ (fun _ => ?_) fun _ => PW.ok (PW.of ⟨nice_int _, hP⟩)
  refine PW.on (pw_photonNew hlc hP.exitD hP.exitE) ?_
  rintro _ (rfl | ⟨T, hT, rfl⟩)
  · exact ⟨_, fun ω e => by rw [e], PW.ub⟩
  have hT : NPhoton T := hT
  pw_step
  have hT' : NPhoton fun ω => tempPhoton (P ω) (T ω) (w ω).d (wl ω) := by
    unfold tempPhoton
    have := hP.d_travel
    exact { hT with i_refl := hP.i_refl, d_travel := (by show Measurable _; fun_prop), chans := nice_zipW hP.chans hwl, coef := hP.coef }
  have hTz := hT'.exitC
  refine PW.on (pw_segId D.prof.z 0 (f := fun ω => (tempPhoton (P ω) (T ω) (w ω).d (wl ω)).exitC.z) (by fun_prop) (D.prof.nmax + 1)) ?_
  rintro _ ⟨ix, rfl⟩
  pw_step
  refine PW.obind (pw_traceLoop (ht wq wr) _ 0 ix hT') ?_
  rintro x ⟨⟨a, ha⟩, -, h3⟩
  have e4 : ∀ ω, (x ω).1 = a := fun ω => congrFun ha ω
  have h3 : NPhoton fun ω => (x ω).2.2 := h3
  simp only [e4]
  refine PW.iteC _ (fun _ => PW.ok (PW.of ⟨nice_int _, hP⟩)) fun _ => PW.ok (PW.pair (PW.int _) ?_)
  refine pw_recordTemp D (P := fun ω => { P ω with ext := (P ω).ext ++ (x ω).2.2.ext, int := (P ω).int ++ (x ω).2.2.int }) ?_ h3 a
  exact { hP with ext := nice_append hP.ext h3.ext, int := nice_append hP.int h3.int }

theorem pw_reflectRest (D : Descr ℝ) (leak : Bool) {trace : Int → Int → Nat → Photon ℝ → Out (Int × Nat × Photon ℝ)}
    (ht : ∀ q r ix {P : Ω → Photon ℝ}, nice P → PW fun ω => trace q r ix (P ω)) {norm : Ω → V3 ℝ} (hn : Measurable norm) {alfa : Ω → ℝ} (ha : Measurable alfa)
    {P : Ω → Photon ℝ} (hP : NPhoton P) {w : Ω → Wall ℝ} (hw : NWall w) : PW fun ω => reflectRest D leak trace (norm ω) (alfa ω) (P ω) (w ω) := by
  obtain ⟨wc, hwc⟩ := hw.code
  obtain ⟨cf, hcf⟩ := hP.coef
  obtain ⟨em, hem⟩ := nice_empty hP.chans
  obtain ⟨L, hL, hch⟩ := hP.chans
  have e1 : ∀ ω, (w ω).code = wc := fun ω => congrFun hwc ω
  have e2 : ∀ ω, (P ω).coef = cf := fun ω => congrFun hcf ω
  unfold reflectRest
  simp only [e1, e2, hem]
  refine PW.iteC _ (fun _ => PW.ok (PW.of ⟨nice_int _, hP⟩)) fun _ => PW.iteC _ (fun _ => PW.ub) fun _ => ?_
  have hE := pw_reflEnergies D leak hn hP.exitD ha hw.d L hL hP.exitE hP.exitE
  have hE' : PW fun ω => reflEnergies D (norm ω) (P ω).exitD (alfa ω) leak (w ω).d (P ω).chans (P ω).exitE (P ω).exitE := hE.congr fun ω => by rw [congrFun hch ω]
  refine PW.on hE' ?_
  intro r hr
  have hr : NERes r := hr
  pw_step
  obtain ⟨rok, h1⟩ := hr.ok
  obtain ⟨rl, h2⟩ := hr.leakFlag
  obtain ⟨rw', h3⟩ := hr.weightFlag
  have e3 : ∀ ω, (r ω).ok = rok := fun ω => congrFun h1 ω
  have e4 : ∀ ω, (r ω).leakFlag = rl := fun ω => congrFun h2 ω
  have e5 : ∀ ω, (r ω).weightFlag = rw' := fun ω => congrFun h3 ω
  simp only [e3, e4, e5]
  have hP2 : NPhoton fun ω => { P ω with chans := (r ω).chans, exitE := (r ω).ev, coef := cf } := { hP with chans := hr.chans, exitE := hr.ev, coef := nice_bool cf }
  refine PW.iteC _ (fun _ => PW.ok (PW.of ⟨nice_int _, ?_⟩)) fun _ => PW.iteC _ (fun _ => ?_) fun _ => PW.ok (PW.of ⟨nice_int _, hP2⟩)
  · exact { hP with chans := hr.chans, exitE := hr.E, coef := nice_bool cf }
  · exact pw_reflectLeak D ht hP2 hw hr.wl _

theorem pw_reflectBody (D : Descr ℝ) (leak : Bool) (fuel : Nat) {trace : Int → Int → Nat → Photon ℝ → Out (Int × Nat × Photon ℝ)}
    (ht : ∀ q r ix {P : Ω → Photon ℝ}, nice P → PW fun ω => trace q r ix (P ω)) {norm : Ω → V3 ℝ} (hn : Measurable norm) {P : Ω → Photon ℝ} (hP : NPhoton P) :
    PW fun ω => reflectBody D leak fuel trace (norm ω) (P ω) := by
  unfold reflectBody
  dsimp only
  have h1 := hP.exitC
  have h2 := hP.exitD
  have hP1 : NPhoton fun ω => { P ω with exitD := vnorm (P ω).exitD } := { hP with exitD := m_vnorm h2 }
  refine PW.ite (by fun_prop) (PW.ok (PW.of ⟨nice_int _, hP1⟩)) ?_
  have hW : PW fun ω => wallOf D leak fuel { P ω with exitD := vnorm (P ω).exitD } := by
    unfold wallOf
    exact PW.iteC _ (fun _ => pw_traceWall D fuel hP.exitC (m_vnorm (m_vnorm h2))) fun _ => PW.ok (PW.wall measurable_const _ _ _)
  refine PW.obind hW ?_
  intro w hw
  have hP2 : NPhoton fun ω => renorm leak { P ω with exitD := vnorm (P ω).exitD } := by
    unfold renorm
    refine { hP with exitD := ?_ }
    cases leak
    · exact m_vnorm h2
    · exact m_vnorm (m_vnorm h2)
  exact pw_reflectRest D leak ht (norm := fun ω => vnorm (norm ω)) (by fun_prop) (alfa := fun ω => scalar (vnorm (P ω).exitD) (vnorm (norm ω))) (by fun_prop) hP2 hw

instance : Nice Ω (Hit ℝ) := ⟨fun f => (∃ c, f = fun _ => .ret c) ∨ (f = fun _ => .miss) ∨
  ∃ (i : Nat) (v n : Ω → V3 ℝ) (c : Ω → ℝ), Measurable v ∧ Measurable n ∧ Measurable c ∧ f = fun ω => .hit i (v ω) (n ω) (c ω)⟩

theorem pw_traceSearch (D : Descr ℝ) (capx capy : Nat → ℝ) {P : Ω → Photon ℝ} (hP : NPhoton P) : ∀ (k i : Nat) {cur nrm : Ω → V3 ℝ}, Measurable cur → Measurable nrm →
    PW fun ω => traceSearch D capx capy (P ω) k i (cur ω) (nrm ω) := by
  intro k
  have hC := hP.exitC
  have hD := hP.exitD
  induction k with
  | zero => intro i cur nrm _ _; exact PW.of (Or.inr (Or.inl rfl))
  | succ k ih =>
    intro i cur nrm hcur hnrm
    have ret : ∀ c, PW fun _ : Ω => (Hit.ret c : Hit ℝ) := fun c => PW.of (Or.inl ⟨c, rfl⟩)
    simp only [traceSearch]
    refine PW.iteC _ (fun _ => ret _) fun _ => ?_
    refine PW.on (pw_segment ⟨capx i, capy i, D.prof.z i⟩ ⟨capx (i + 1), capy (i + 1), D.prof.z (i + 1)⟩ (D.prof.cap i) (D.prof.cap (i + 1))
      (m_atGrid D.prof hC hD i) (m_atGrid D.prof hC hD (i + 1)) hD hcur hnrm) ?_
    rintro s ⟨⟨a, ha⟩, h2, h3⟩
    have h2 : Measurable fun ω => (s ω).2.1 := h2
    have h3 : Measurable fun ω => (s ω).2.2 := h3
    have e1 : ∀ ω, (s ω).1 = a := fun ω => congrFun ha ω
    pw_step
    simp only [e1]
    have hb : PW fun ω => (acos (scalar (s ω).2.2 (P ω).exitD) >. mpi /. lit 2 || acos (scalar (s ω).2.2 (P ω).exitD) <. (lit 0 : ℝ)) := PW.ofBool (by fun_prop)
    refine PW.on hb ?_
    rintro _ ⟨b, rfl⟩
    pw_step
    have hit : PW fun ω => (Hit.hit i (s ω).2.1 (s ω).2.2 (scalar (s ω).2.2 (P ω).exitD) : Hit ℝ) := PW.of (Or.inr (Or.inr ⟨i, _, _, _, h2, h3, by fun_prop, rfl⟩))
    refine PW.iteC _ (fun _ => ?_) fun _ => ?_
    · have hcu : Measurable fun ω => interp (D.prof.z (i + 1)) (D.prof.z i) (D.prof.ext (i + 1)) (D.prof.ext i) (s ω).2.1.z := by unfold interp; fun_prop
      refine PW.iteC _ (fun _ => PW.ite (m_ge (by fun_prop) hcu) (ret _) hit) fun _ => ?_
      exact PW.iteInt (pw_within hcu (g := fun ω => (s ω).2.1.x) (h := fun ω => (s ω).2.1.y) (by fun_prop) (by fun_prop)) (· = 0) (ret _) hit
    · exact PW.iteInt (pw_within (f := fun _ => D.prof.ext i) measurable_const (g := fun ω => (atGrid D.prof (P ω).exitC (P ω).exitD i).x) (h := fun ω => (atGrid D.prof (P ω).exitC (P ω).exitD i).y)
        (by fun_prop) (by fun_prop)) (· = 0) (ret _) (ih _ h2 h3)

theorem pw_traceHit (D : Descr ℝ) {refl : V3 ℝ → Photon ℝ → Out (Int × Photon ℝ)} (hr : ∀ {n : Ω → V3 ℝ} {P : Ω → Photon ℝ}, Measurable n → nice P → PW fun ω => refl (n ω) (P ω))
    {P : Ω → Photon ℝ} (hP : NPhoton P) (i : Nat) {v n : Ω → V3 ℝ} {c : Ω → ℝ} (hv : Measurable v) (hn : Measurable n) (hc : Measurable c) :
    PW fun ω => traceHit D refl (P ω) i (v ω) (n ω) (c ω) := by
  unfold traceHit
  dsimp only
  have hC := hP.exitC
  have hd := hP.d_travel
  have hP1 : NPhoton fun ω => { P ω with d_travel := (P ω).d_travel +. dist3 (v ω) (P ω).exitC, exitC := v ω } := { hP with d_travel := m_add hd (m_dist3 hv hC), exitC := hv }
  refine PW.ite (by fun_prop) (PW.ok (PW.of ⟨nice_int _, nice_nat _, hP1⟩)) ?_
  refine PW.on (pw_segId D.prof.z (i + 1) (f := fun ω => (v ω).z) (by fun_prop) D.prof.nmax) ?_
  rintro _ ⟨ix, rfl⟩
  pw_step
  refine PW.iteC _ (fun _ => PW.ub) fun _ => ?_
  have hb : PW fun ω => ((v ω).x *. (v ω).x +. (v ω).y *. (v ω).y >=. interpAt D.prof D.prof.ext ix (v ω).z) := PW.ofBool (by fun_prop)
  refine PW.on hb ?_
  rintro _ ⟨b, rfl⟩
  pw_step
  refine PW.iteC _ (fun _ => PW.ok (PW.of ⟨nice_int _, nice_nat _, hP1⟩)) fun _ => ?_
  refine PW.on (pw_within (f := fun ω => interpAt D.prof D.prof.ext ix (v ω).z) (by fun_prop) (g := fun ω => (v ω).x) (h := fun ω => (v ω).y) (by fun_prop) (by fun_prop)) ?_
  rintro _ ⟨b, rfl⟩
  pw_step
  refine PW.iteC _ (fun _ => PW.ok (PW.of ⟨nice_int _, nice_nat _, hP1⟩)) fun _ => ?_
  refine PW.obind (hr hn hP1) ?_
  rintro x ⟨⟨a, ha⟩, h2⟩
  have e1 : ∀ ω, (x ω).1 = a := fun ω => congrFun ha ω
  have h2 : NPhoton fun ω => (x ω).2 := h2
  have h2d := h2.exitD
  unfold afterReflect
  simp only [e1]
  obtain ⟨ir, hir⟩ := h2.i_refl
  refine PW.ok (PW.iteC _ (fun _ => PW.of ⟨nice_int _, nice_nat _, ?_⟩) fun _ => PW.iteC _ (fun _ => PW.of ⟨nice_int _, nice_nat _, h2⟩) fun _ => PW.of ⟨nice_int _, nice_nat _, h2⟩)
  exact { h2 with exitD := m_reflectDir h2d hn hc, i_refl := ⟨ir + 1, funext fun ω => congrArg (· + 1) (congrFun hir ω)⟩ }

theorem pw_capilTrace (D : Descr ℝ) {refl : V3 ℝ → Photon ℝ → Out (Int × Photon ℝ)} (hr : ∀ {n : Ω → V3 ℝ} {P : Ω → Photon ℝ}, Measurable n → nice P → PW fun ω => refl (n ω) (P ω))
    (capx capy : Nat → ℝ) (ix : Nat) {P : Ω → Photon ℝ} (hP : NPhoton P) : PW fun ω => capilTrace D refl capx capy ix (P ω) := by
  unfold capilTrace
  dsimp only
  have hP1 : NPhoton fun ω => { P ω with exitD := vnorm (P ω).exitD, startD := vnorm (P ω).startD } := { hP with exitD := m_vnorm hP.exitD, startD := m_vnorm hP.startD }
  refine PW.on (pw_traceSearch D capx capy hP1 (D.prof.nmax - ix) ix hP.exitC (nrm := fun _ => ⟨lit 0, lit 0, lit 0⟩) measurable_const) ?_
  rintro _ (⟨c, rfl⟩ | rfl | ⟨i, v, n, c, hv, hn, hc, rfl⟩)
  · pw_step
    exact PW.ok (PW.of ⟨nice_int _, nice_nat _, hP1⟩)
  · pw_step
    exact PW.ok (PW.of ⟨nice_int _, nice_nat _, hP1⟩)
  · pw_step
    exact pw_traceHit D hr hP1 i hv hn hc

theorem pw_reflect (D : Descr ℝ) (leak : Bool) (fuel : Nat) : ∀ (k : Nat) {n : Ω → V3 ℝ} {P : Ω → Photon ℝ}, Measurable n → nice P → PW fun ω => reflect D leak fuel k (n ω) (P ω) := by
  intro k
  induction k with
  | zero => intro n P _ _; exact PW.fuel
  | succ k ih =>
    intro n P hn hP
    simp only [reflect]
    exact pw_reflectBody D leak fuel (fun q r ix P hP => pw_capilTrace D ih (capxOf D q r) (capyOf D q r) ix hP) hn hP

theorem pw_trace (D : Descr ℝ) (leak : Bool) (fuel k : Nat) (capx capy : Nat → ℝ) (ix : Nat) {P : Ω → Photon ℝ} (hP : nice P) : PW fun ω => trace D leak fuel k capx capy ix (P ω) :=
  pw_capilTrace D (pw_reflect D leak fuel k) capx capy ix hP

/-! ## `polycap_photon_launch` -/

instance : Nice Ω (WOut ℝ) := ⟨fun f => (f = fun _ => .untouched) ∨ (f = fun _ => .uninit) ∨ ∃ l : Ω → List ℝ, nice l ∧ f = fun ω => .filled (l ω)⟩

theorem nice_uninit : nice fun _ : Ω => (WOut.uninit : WOut ℝ) := Or.inr (Or.inl rfl)

theorem nice_constList {l : List (Chan ℝ)} : nice fun _ : Ω => l :=
  ⟨l.map fun c _ => c, by intro g hg; obtain ⟨c, -, rfl⟩ := List.mem_map.1 hg; exact ⟨measurable_const, measurable_const, measurable_const, measurable_const⟩,
    by funext ω; rw [List.map_map]; exact (List.map_id l).symm⟩

theorem nice_launchInit (lib : Xray ℝ) (D : Descr ℝ) (es : List ℝ) {P : Ω → Photon ℝ} (hP : NPhoton P) : NPhoton fun ω => launchInit lib D es (P ω) := by
  unfold launchInit
  exact { hP with startD := m_vnorm hP.startD, exitC := hP.startC, exitD := m_vnorm (m_vnorm hP.startD), i_refl := nice_int _, ext := nice_nil, int := nice_nil,
                  chans := nice_constList, coef := nice_bool _ }

theorem nice_finish {P : Ω → Photon ℝ} (hP : NPhoton P) : NPhoton fun ω => finish (P ω) := by
  unfold finish
  exact { hP with chans := nice_nil, coef := nice_bool _ }

theorem nice_clearWall (D : Descr ℝ) {P : Ω → Photon ℝ} (hP : NPhoton P) : NPhoton fun ω => clearWall D (P ω) := by
  unfold clearWall
  exact { hP with exitC := measurable_const, exitD := m_vnorm hP.startD }

theorem pw_launchSeg (p : Profile ℝ) {f : Ω → ℝ} (hf : Measurable f) : PW fun ω => launchSeg p (f ω) := by
  unfold launchSeg
  exact PW.ite (by fun_prop) (pw_segId _ _ hf _) (PW.nat _)

theorem pw_launchCap (D : Descr ℝ) {c : Ω → V3 ℝ} (hc : Measurable c) : PW fun ω => launchCap D (c ω) := by
  unfold launchCap launchExt
  dsimp only
  refine PW.on (pw_launchSeg D.prof (f := fun ω => (c ω).z) (by fun_prop)) ?_
  rintro _ ⟨i, rfl⟩
  pw_step
  have he : Measurable fun ω => interpL (D.prof.z i) (D.prof.z (i + 1)) (D.prof.ext i) (D.prof.ext (i + 1)) (c ω).z := by unfold interpL; fun_prop
  refine PW.iteC _ (fun _ => ?_) fun _ => ?_
  · exact PW.ite (m_gt (by fun_prop) he) PW.onone (PW.osome (PW.of ⟨nice_int _, nice_int _⟩))
  · exact PW.iteInt (pw_within he (g := fun ω => (c ω).x) (h := fun ω => (c ω).y) (by fun_prop) (by fun_prop)) (· = 0) PW.onone
      (PW.osome (pw_hexRound _ he (g := fun ω => (c ω).x) (h := fun ω => (c ω).y) (by fun_prop) (by fun_prop)))

theorem pw_startsInWall (D : Descr ℝ) (qr : Int × Int) {c : Ω → V3 ℝ} (hc : Measurable c) : PW fun ω => startsInWall D qr (c ω) := by
  unfold startsInWall atStart
  dsimp only
  refine PW.on (pw_launchSeg D.prof (f := fun ω => (c ω).z) (by fun_prop)) ?_
  rintro _ ⟨i, rfl⟩
  pw_step
  have hb : PW fun ω => ((c ω).z >. (lit 0 : ℝ)) := PW.ofBool (by fun_prop)
  refine PW.on hb ?_
  rintro _ ⟨b, rfl⟩
  pw_step
  cases b
  · simp only [Bool.false_eq_true, if_false]
    exact PW.ofBool (by fun_prop)
  · simp only [if_true]
    exact PW.ofBool (by fun_prop)

theorem pw_recordLaunch (D : Descr ℝ) {P : Ω → Photon ℝ} (hP : NPhoton P) (iesc : Int) : PW fun ω => recordLaunch D (P ω) iesc := by
  unfold recordLaunch
  dsimp only
  refine PW.iteC _ (fun _ => ?_) fun _ => PW.of hP
  have h1 := hP.exitC
  have h2 := hP.exitD
  have hv : Measurable fun ω => toExit D.prof (P ω).exitC (P ω).exitD := by fun_prop
  refine PW.on (pw_within (f := fun _ => D.prof.ext D.prof.nmax) (g := fun ω => (toExit D.prof (P ω).exitC (P ω).exitD).x) (h := fun ω => (toExit D.prof (P ω).exitC (P ω).exitD).y)
    measurable_const (by fun_prop) (by fun_prop)) ?_
  rintro _ ⟨b, rfl⟩
  pw_step
  have lk : nice fun ω => (⟨toExit D.prof (P ω).exitC (P ω).exitD, (P ω).exitD, (P ω).exitE, (P ω).i_refl, (P ω).chans.map (·.w)⟩ : Leak ℝ) :=
    ⟨hv, hP.exitD, hP.exitE, hP.i_refl, nice_leakW hP.chans⟩
  refine PW.iteC _ (fun _ => PW.of ?_) fun _ => ?_
  · exact { hP with exitC := hv, ext := nice_snoc hP.ext lk }
  · refine PW.iteC _ (fun _ => PW.of ?_) fun _ => PW.of ?_
    · exact { hP with exitC := hv, int := nice_snoc hP.int lk }
    · exact { hP with exitC := hv }

theorem pw_launchWall (D : Descr ℝ) (leak : Bool) (fuel k : Nat) {P : Ω → Photon ℝ} (hP : NPhoton P) {w : Ω → Wall ℝ} (hw : NWall w) : PW fun ω => launchWall D leak fuel k (P ω) (w ω) := by
  obtain ⟨wc, hwc⟩ := hw.code
  obtain ⟨wq, hwq⟩ := hw.q
  obtain ⟨wr, hwr⟩ := hw.r
  obtain ⟨cf, hcf⟩ := hP.coef
  obtain ⟨em, hem⟩ := nice_empty hP.chans
  have e1 : ∀ ω, (w ω).code = wc := fun ω => congrFun hwc ω
  have e2 : ∀ ω, (w ω).q = wq := fun ω => congrFun hwq ω
  have e3 : ∀ ω, (w ω).r = wr := fun ω => congrFun hwr ω
  have e4 : ∀ ω, (P ω).coef = cf := fun ω => congrFun hcf ω
  have hd := hw.d
  have h0 := hP.startC
  have h1 := hP.exitC
  have h2 := hP.exitD
  have h3 := hP.d_travel
  unfold launchWall
  simp only [e1, e2, e3, e4, hem]
  refine PW.iteC _ (fun _ => PW.ok (PW.of ⟨nice_int _, nice_uninit, nice_finish hP⟩)) fun _ => PW.iteC _ (fun _ => PW.ub) fun _ => ?_
  have hch : nice fun ω => (P ω).chans.map (attenuate (w ω).d) := nice_map hP.chans fun g hg => by
    have hg : NChan g := hg
    have g1 := hg.w
    have g2 := hg.amu
    unfold attenuate
    exact ⟨hg.e, (by show Measurable _; fun_prop), hg.amu, hg.scatf⟩
  have hv : Measurable fun ω => along (P ω).exitC (P ω).exitD (w ω).d := by fun_prop
  have hP1 : NPhoton fun ω => { P ω with chans := (P ω).chans.map (attenuate (w ω).d), exitC := along (P ω).exitC (P ω).exitD (w ω).d, coef := cf } := { hP with chans := hch, exitC := hv, coef := nice_bool cf }
  have lk : nice fun ω => (⟨along (P ω).exitC (P ω).exitD (w ω).d, (P ω).exitD, (P ω).exitE, (P ω).i_refl, ((P ω).chans.map (attenuate (w ω).d)).map (·.w)⟩ : Leak ℝ) :=
    ⟨hv, hP.exitD, hP.exitE, hP.i_refl, nice_leakW hch⟩
  refine PW.iteC _ (fun _ => PW.ok (PW.of ⟨nice_int _, nice_uninit, nice_finish (nice_clearWall D ?_)⟩)) fun _ => ?_
  · exact { hP1 with ext := nice_snoc hP.ext lk }
  refine PW.iteC _ (fun _ => PW.ok (PW.of ⟨nice_int _, nice_uninit, nice_finish (nice_clearWall D ?_)⟩)) fun _ => ?_
  · exact { hP1 with int := nice_snoc hP.int lk }
  refine PW.on (pw_segId D.prof.z 0 (f := fun ω => (P ω).startC.z) (by fun_prop) (D.prof.nmax + 1)) ?_
  rintro _ ⟨i0, rfl⟩
  pw_step
  refine PW.on (pw_segId D.prof.z i0 (f := fun ω => (along (P ω).exitC (P ω).exitD (w ω).d).z) (by fun_prop) (D.prof.nmax + 1)) ?_
  rintro _ ⟨ix, rfl⟩
  pw_step
  have hP2 : NPhoton fun ω => { P ω with chans := (P ω).chans.map (attenuate (w ω).d), exitC := along (P ω).exitC (P ω).exitD (w ω).d, coef := cf, d_travel := (P ω).d_travel +. (w ω).d } :=
    { hP1 with d_travel := m_add h3 hd }
  refine PW.obind (pw_traceLoop (fun ix P hP => pw_trace D leak fuel k (axX D (wq, wr)) (axY D (wq, wr)) ix hP) _ 0 ix hP2) ?_
  rintro x ⟨⟨a, ha⟩, -, hx⟩
  have e5 : ∀ ω, (x ω).1 = a := fun ω => congrFun ha ω
  have hx : NPhoton fun ω => (x ω).2.2 := hx
  simp only [e5]
  refine PW.iteC _ (fun _ => PW.ok (PW.of ⟨nice_int _, nice_uninit, nice_finish hx⟩)) fun _ => ?_
  refine PW.on (pw_recordLaunch D hx a) ?_
  intro g hg
  pw_step
  exact PW.ok (PW.of ⟨nice_int _, nice_uninit, nice_finish (nice_clearWall D hg)⟩)

theorem pw_launchInside (D : Descr ℝ) (leak : Bool) (fuel k : Nat) (qr : Int × Int) {P : Ω → Photon ℝ} (hP : NPhoton P) : PW fun ω => launchInside D leak fuel k qr (P ω) := by
  have h0 := hP.startC
  unfold launchInside
  dsimp only
  refine PW.on (pw_segId D.prof.z 0 (f := fun ω => (P ω).startC.z) (by fun_prop) (D.prof.nmax + 1)) ?_
  rintro _ ⟨ix, rfl⟩
  pw_step
  refine PW.obind (pw_traceLoop (fun ix P hP => pw_trace D leak fuel k (axX D qr) (axY D qr) ix hP) _ 0 ix hP) ?_
  rintro x ⟨⟨a, ha⟩, -, hx⟩
  have e5 : ∀ ω, (x ω).1 = a := fun ω => congrFun ha ω
  have hx : NPhoton fun ω => (x ω).2.2 := hx
  simp only [e5]
  exact PW.ok (PW.of ⟨nice_int _, Or.inr (Or.inr ⟨_, nice_leakW hx.chans, rfl⟩), nice_finish hx⟩)

theorem pw_launchBody (lib : Xray ℝ) (D : Descr ℝ) (leak : Bool) (fuel k : Nat) {P : Ω → Photon ℝ} (hP : NPhoton P) (es : List ℝ) : PW fun ω => launchBody lib D leak fuel k (P ω) es := by
  unfold launchBody
  dsimp only
  have hI := nice_launchInit lib D es hP
  have hC := hI.startC
  have hE := hI.exitC
  have hD := hI.exitD
  refine PW.on (pw_launchCap D hC) ?_
  rintro _ (rfl | ⟨qr, ⟨⟨q, hq⟩, ⟨r, hr⟩⟩, rfl⟩)
  · pw_step
    exact PW.ok (PW.of ⟨nice_int _, nice_uninit, nice_finish hI⟩)
  have e1 : ∀ ω, qr ω = (q, r) := fun ω => Prod.ext (congrFun hq ω) (congrFun hr ω)
  pw_step
  simp only [e1]
  refine PW.on (pw_startsInWall D (q, r) hC) ?_
  rintro _ ⟨b, rfl⟩
  pw_step
  refine PW.iteC _ (fun _ => ?_) fun _ => pw_launchInside D leak fuel k (q, r) hI
  have hb : PW fun ω => (leak && (launchInit lib D es (P ω)).startC.z ==. (lit 0 : ℝ)) := PW.ofBool (by fun_prop)
  refine PW.on hb ?_
  rintro _ ⟨b1, rfl⟩
  pw_step
  refine PW.iteC _ (fun _ => ?_) fun _ => ?_
  · refine PW.obind (pw_reflect D leak fuel k (n := fun _ => ⟨lit 0, lit 0, lit 1⟩) measurable_const hI) ?_
    rintro x ⟨-, hx⟩
    exact PW.ok (PW.of ⟨nice_int _, nice_uninit, nice_finish hx⟩)
  have hb2 : PW fun ω => (leak && (launchInit lib D es (P ω)).startC.z >. (lit 0 : ℝ)) := PW.ofBool (by fun_prop)
  refine PW.on hb2 ?_
  rintro _ ⟨b2, rfl⟩
  pw_step
  refine PW.iteC _ (fun _ => ?_) fun _ => PW.ok (PW.of ⟨nice_int _, nice_uninit, nice_finish hI⟩)
  refine PW.obind (pw_traceWall D fuel hE (m_vnorm hD)) ?_
  intro w hw
  exact pw_launchWall D leak fuel k (P := fun ω => { launchInit lib D es (P ω) with exitD := vnorm (launchInit lib D es (P ω)).exitD }) { hI with exitD := m_vnorm hD } hw

theorem pw_launch (lib : Xray ℝ) (D : Descr ℝ) (leak : Bool) (fuel k : Nat) {P : Ω → Photon ℝ} (hP : NPhoton P) (es : List ℝ) :
    PW fun ω => launch lib (some D) leak fuel k (some (P ω)) (some es) true := by
  unfold launch
  dsimp only
  refine PW.iteC _ (fun _ => PW.ok (PW.of ⟨nice_int _, Or.inl rfl, Or.inr ⟨P, hP, rfl⟩⟩)) fun _ => ?_
  refine PW.obind (pw_launchBody lib D leak fuel k hP es) ?_
  rintro x ⟨h1, h2, h3⟩
  exact PW.ok (PW.of ⟨h1, h2, Or.inr ⟨_, h3, rfl⟩⟩)

/-! ## Drawing and following a photon -/

structure NAttempt (f : Ω → Attempt ℝ) : Prop where
  code : nice fun ω => (f ω).code
  src : Measurable fun ω => (f ω).src
  ph : NPhoton fun ω => (f ω).ph
  wts : nice fun ω => (f ω).wts
instance : Nice Ω (Attempt ℝ) := ⟨NAttempt⟩

structure NSrcPhoton (f : Ω → SrcPhoton ℝ) : Prop where
  photon : NPhoton fun ω => (f ω).photon
  src : Measurable fun ω => (f ω).src
instance : Nice Ω (SrcPhoton ℝ) := ⟨NSrcPhoton⟩

section src
variable {u : Ω → Nat → ℝ} (hu : ∀ i, Measurable fun ω => u ω i)
include hu

theorem m_srcPoint (S : Src ℝ) (n : Nat) : Measurable fun ω => srcPoint S (u ω n) (u ω (n + 1)) (u ω (n + 2)) := by
  have h0 := hu n
  have h1 := hu (n + 1)
  have h2 := hu (n + 2)
  have hphi : Measurable fun ω => srcPhi S (u ω n) (u ω (n + 1)) := by
    unfold srcPhi
    dsimp only
    refine Measurable.ite (m_true (by fun_prop)) (m_mul measurable_const ?_) ?_
    all_goals
      refine Measurable.ite (m_true (by fun_prop)) (m_add measurable_const ?_) ?_
      all_goals exact Measurable.ite (m_true (by fun_prop)) (by fun_prop) (by fun_prop)
  unfold srcPoint srcMaxRad
  dsimp only
  fun_prop

theorem pw_rejLoop (ext0 : ℝ) : ∀ k n, PW fun ω => rejLoop ext0 (u ω) k n := by
  intro k
  induction k with
  | zero => intro n; exact PW.fuel
  | succ k ih =>
    intro n
    have h0 := hu n
    have h1 := hu (n + 1)
    simp only [rejLoop]
    refine PW.iteInt (pw_within (f := fun _ => ext0) (g := fun ω => (lit 2 *. u ω n -. lit 1) *. ext0) (h := fun ω => (lit 2 *. u ω (n + 1) -. lit 1) *. ext0) measurable_const (by fun_prop) (by fun_prop)) (· = 0) (ih _) ?_
    exact PW.ok (PW.pair (PW.real (by fun_prop)) (PW.pair (PW.real (by fun_prop)) (PW.nat _)))

theorem pw_srcAim (S : Src ℝ) (n_cap : Int) (cap0 ext0 : ℝ) (fuel n : Nat) {s : Ω → V3 ℝ} (hs : Measurable s) : PW fun ω => srcAim S n_cap cap0 ext0 (u ω) fuel n (s ω) := by
  have h0 := hu n
  have h1 := hu (n + 1)
  unfold srcAim
  dsimp only
  refine PW.iteC _ (fun _ => ?_) fun _ => PW.ok (PW.pair (PW.v3 (by fun_prop)) (PW.pair (PW.v3 (by fun_prop)) (PW.nat _)))
  refine PW.iteC _ (fun _ => PW.ok (PW.pair (PW.v3 (by fun_prop)) (PW.pair (PW.v3 (by fun_prop)) (PW.nat _)))) fun _ => ?_
  refine PW.obind (pw_rejLoop hu ext0 fuel n) ?_
  rintro p ⟨g1, g2, g3⟩
  have g1 : Measurable fun ω => (p ω).1 := g1
  have g2 : Measurable fun ω => (p ω).2.1 := g2
  exact PW.ok (PW.pair (PW.v3 (by fun_prop)) (PW.pair (PW.v3 (by fun_prop)) (PW.of g3)))

theorem pw_getPhoton (S : Src ℝ) (D : Descr ℝ) (fuel n : Nat) : PW fun ω => getPhoton S D (u ω) fuel n := by
  have hs := m_srcPoint hu S n
  unfold getPhoton
  dsimp only
  refine PW.obind (pw_srcAim hu S D.n_cap (D.prof.cap 0) (D.prof.ext 0) fuel (n + 3) hs) ?_
  rintro a ⟨g1, g2, ⟨m, g3⟩⟩
  have g1 : Measurable fun ω => (a ω).1 := g1
  have g2 : Measurable fun ω => (a ω).2.1 := g2
  have e : ∀ ω, (a ω).2.2 = m := fun ω => congrFun g3 ω
  simp only [e]
  have hm := hu m
  have hax : Measurable fun ω => srcAxis S (u ω m) := by
    unfold srcAxis
    exact Measurable.ite (m_true (by fun_prop)) measurable_const measurable_const
  have hE : Measurable fun ω => srcElec (srcAxis S (u ω m)) (a ω).2.1 := by
    unfold srcElec
    dsimp only
    fun_prop
  refine PW.on (pw_photonNew g1 g2 hE) ?_
  rintro _ (rfl | ⟨P, hP, rfl⟩)
  · exact ⟨_, fun ω e => by rw [e], PW.ub⟩
  · pw_step
    exact PW.ok (PW.of ⟨⟨hP, hs⟩, nice_nat _⟩)

theorem pw_attempt (lib : Xray ℝ) (S : Src ℝ) (D : Descr ℝ) (leak : Bool) (fuel k n : Nat) : PW fun ω => attempt lib S D leak fuel k (u ω) n := by
  unfold attempt
  refine PW.obind (pw_getPhoton hu S D fuel n) ?_
  rintro x ⟨h1, h2⟩
  have h1 : NSrcPhoton fun ω => (x ω).1 := h1
  refine PW.obind (pw_launch lib D leak fuel k h1.photon S.energies) ?_
  rintro y ⟨g1, g2, g3⟩
  rcases g3 with g3 | ⟨P, hP, g3⟩
  · have e : ∀ ω, y ω = ((y ω).1, (y ω).2.1, none) := fun ω => Prod.ext rfl (Prod.ext rfl (congrFun g3 ω))
    refine PW.congr PW.ub (fun ω => ?_)
    rw [e ω]
  · have e : ∀ ω, y ω = ((y ω).1, (y ω).2.1, some (P ω)) := fun ω => Prod.ext rfl (Prod.ext rfl (congrFun g3 ω))
    refine PW.congr (f := fun ω => Out.ok ((⟨(y ω).1, (x ω).1.src, P ω, (y ω).2.1⟩ : Attempt ℝ), (x ω).2)) (PW.ok (PW.of ⟨⟨g1, h1.src, hP, g2⟩, h2⟩)) (fun ω => ?_)
    rw [e ω]
end src

theorem pw_simCode (D : Descr ℝ) {a : Ω → Attempt ℝ} (ha : NAttempt a) : PW fun ω => simCode D (a ω) := by
  obtain ⟨c, hc⟩ := ha.code
  have e : ∀ ω, (a ω).code = c := fun ω => congrFun hc ω
  have h1 := ha.ph.exitC
  have h2 := ha.ph.exitD
  have hv : Measurable fun ω => exitAt D.prof (a ω).ph := by unfold exitAt; fun_prop
  unfold simCode
  simp only [e]
  refine PW.iteC _ (fun _ => ?_) fun _ => PW.int _
  refine PW.iteC _ (fun _ => ?_) fun _ => ?_
  · exact PW.ite (by fun_prop) (PW.int _) (PW.int _)
  · exact pw_within (f := fun _ => D.prof.ext D.prof.nmax) (g := fun ω => (exitAt D.prof (a ω).ph).x) (h := fun ω => (exitAt D.prof (a ω).ph).y) measurable_const (by fun_prop) (by fun_prop)

end Meas
end Polycap
