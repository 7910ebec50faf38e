import Verif.PyApi

/-!
# C75: integers out of range never reach the C library

Python integers are unbounded, the C arguments are not.  Specification: `Fits`, the calls whose integer arguments exist in C.  The statement: what
the C functions would do on other arguments does not matter – a Python statement behaves the same for any two libraries that agree
on the arguments that fit – and such an argument raises `OverflowError` without any effect on the library.
-/
namespace Polycap.Py
open CNum CM Mem Sess
variable {α : Type} [CNum α] {σ : Type}

/-- the integer arguments of the call are values of their C types (`int`, `int64_t`) -/
def Fits : Op α → Prop
  | .simulate _ mt np _ => (-2^31 ≤ mt ∧ mt ≤ 2^31 - 1) ∧ (-2^31 ≤ np ∧ np ≤ 2^31 - 1)
  | .newDescription _ _ n _ _ => -2^63 ≤ n ∧ n ≤ 2^63 - 1
  | _ => True

omit [CNum α] in
theorem call_congr {f g : Op α → σ → Sess.Res σ α} (h : ∀ op, Fits op → f op = g op) {op : Op α} (hop : Fits op) (s : PSt σ)
    {k k' : PSt σ → Obs α → PRes σ α} (hk : ∀ s o, k s o = k' s o) : call f op s k = call g op s k' := by
  unfold call
  rw [h op hop]
  split <;> simp [hk]

omit [CNum α] in
theorem construct_congr {f g : Op α → σ → Sess.Res σ α} (h : ∀ op, Fits op → f op = g op) {op : Op α} (hop : Fits op) (kind : Kind) (b : Bool) (s : PSt σ) :
    construct f op kind b s = construct g op kind b s := by
  unfold construct
  refine call_congr h hop s fun s1 o => ?_
  split
  · split
    · exact call_congr h (by trivial) _ fun _ _ => rfl
    · rfl
  · rfl
  · rfl

omit [CNum α] in
theorem expect_congr {s : PSt σ} {i : Nat} {kind : Kind} {k k' : Nat → PRes σ α} (hk : ∀ v, k v = k' v) : expect s i kind k = expect s i kind k' := by
  rw [funext hk]

omit [CNum α] in
theorem expectNew_congr {s : PSt σ} {i : Nat} {kind : Kind} {k k' : Nat → PRes σ α} (hk : ∀ v, k v = k' v) :
    expectNew s i kind k = expectNew s i kind k' := by
  rw [funext hk]

/-- **C75.** -/
theorem only_fitting_integers (x : Xrl α) (f g : Op α → σ → Sess.Res σ α) (h : ∀ op, Fits op → f op = g op) (st : Stmt α) (s : PSt σ) :
    pyStep x f st s = pyStep x g st s := by
  cases st with
  | profile a => exact construct_congr h (by trivial) _ _ _
  | profileIgnore => rfl
  | profileFromArrays e c z =>
    simp only [pyStep]
    split
    · rfl
    · exact construct_congr h (by trivial) _ _ _
  | getProfile i fld =>
    simp only [pyStep]
    split
    · rfl
    · exact expect_congr fun v => call_congr h (by trivial) _ fun _ _ => rfl
  | description i sig n comp rho =>
    simp only [pyStep]
    split
    · rfl
    · refine expectNew_congr fun v => ?_
      split
      · rfl
      · next hn =>
        split
        · rfl
        · refine construct_congr h ?_ _ _ _
          simp only [Fits]
          omega
  | source i p e =>
    refine expectNew_congr fun v => ?_
    split
    · rfl
    · exact construct_congr h (by trivial) _ _ _
  | photon i c d E =>
    refine expectNew_congr fun v => ?_
    split
    · exact construct_congr h (by trivial) _ _ _
    · rfl
  | getPhoton i u fuel n => exact expectNew_congr fun v => construct_congr h (by trivial) _ _ _
  | launch i e leak fuel k late =>
    refine expect_congr fun v => ?_
    split
    · rfl
    · exact call_congr h (by trivial) _ fun _ _ => rfl
  | simulate i mt np leak =>
    refine expectNew_congr fun v => ?_
    split
    · rfl
    · refine construct_congr h ?_ _ _ _
      simp only [Fits]
      omega
  | results i => exact expect_congr fun v => call_congr h (by trivial) _ fun _ _ => rfl
  | write i => exact expect_congr fun v => call_congr h (by trivial) _ fun _ _ => rfl
  | collect i =>
    simp only [pyStep]
    split
    · exact call_congr h (by trivial) _ fun _ _ => rfl
    · rfl
    · rfl

/-- **C75**, whole programs -/
theorem only_fitting_integers_program (x : Xrl α) (f g : Op α → σ → Sess.Res σ α) (h : ∀ op, Fits op → f op = g op) (prog : List (Stmt α)) (s : PSt σ) :
    pyRun x f prog s = pyRun x g prog s := by
  induction prog generalizing s with
  | nil => rfl
  | cons st rest ih =>
    simp only [pyRun, only_fitting_integers x f g h st s]
    split <;> simp [ih]

/-- **C75**: a number of threads or photons that is no C `int` -/
theorem simulate_overflow (x : Xrl α) (f : Op α → σ → Sess.Res σ α) (s : PSt σ) (i v : Nat) (hi : s.objs[i]? = some (.live .source v)) (mt np : Int)
    (leak : Bool) (h : ¬(-2^31 ≤ mt ∧ mt ≤ 2^31 - 1) ∨ ¬(-2^31 ≤ np ∧ np ≤ 2^31 - 1)) :
    pyStep x f (.simulate i mt np leak) s = .raised (s.push .dead) .overflowError := by
  simp only [pyStep, expectNew, hi, if_true]
  rw [if_pos (by omega)]

/-- … and one that is an `int` is passed on -/
theorem simulate_fits (x : Xrl α) (f : Op α → σ → Sess.Res σ α) (s : PSt σ) (i v : Nat) (hi : s.objs[i]? = some (.live .source v)) (mt np : Int)
    (leak : Bool) (h : (-2^31 ≤ mt ∧ mt ≤ 2^31 - 1) ∧ (-2^31 ≤ np ∧ np ≤ 2^31 - 1)) :
    pyStep x f (.simulate i mt np leak) s = construct f (.simulate v mt np leak) .result false s := by
  simp only [pyStep, expectNew, hi, if_true]
  rw [if_neg (by omega)]

/-- **C75**: a number of capillaries that is no `int64_t` -/
theorem description_overflow (x : Xrl α) (f : Op α → σ → Sess.Res σ α) (s : PSt σ) (i v : Nat) (hi : s.objs[i]? = some (.live .profile v)) (sig : α) (n : Int)
    (comp : Comp α) (rho : α) (h : ¬(-2^63 ≤ n ∧ n ≤ 2^63 - 1)) :
    pyStep x f (.description i sig n comp rho) s = .raised (s.push .dead) .overflowError := by
  simp only [pyStep, expectNew, hi, if_true]
  rw [if_pos (by omega)]

/-- … and one that is an `int64_t` is passed on, with the composition -/
theorem description_fits (x : Xrl α) (f : Op α → σ → Sess.Res σ α) (s : PSt σ) (i v : Nat) (hi : s.objs[i]? = some (.live .profile v)) (sig : α) (n : Int)
    (comp : Comp α) (rho : α) (h : -2^63 ≤ n ∧ n ≤ 2^63 - 1) (l : List (Int × α)) (hl : composition x comp = .ok l) :
    pyStep x f (.description i sig n comp rho) s = construct f (.newDescription v sig n l rho) .description true s := by
  simp only [pyStep, expectNew, hi, if_true, hl]
  rw [if_neg (by omega)]

/-- the largest `int` passes, the next integer does not -/
example (x : Xrl α) (f : Op α → σ → Sess.Res σ α) (c : σ) :
    pyStep x f (.simulate 0 2147483647 1 false) ⟨c, [.live .source 4], 5, 0⟩ =
      construct f (.simulate 4 2147483647 1 false) .result false ⟨c, [.live .source 4], 5, 0⟩ ∧
    pyStep x f (.simulate 0 2147483648 1 false) ⟨c, [.live .source 4], 5, 0⟩ = .raised ⟨c, [.live .source 4, .dead], 5, 0⟩ .overflowError :=
  ⟨simulate_fits x f _ 0 4 rfl _ _ _ (by norm_num), simulate_overflow x f _ 0 4 rfl _ _ _ (by norm_num)⟩

end Polycap.Py
