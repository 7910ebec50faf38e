import Mathlib.Analysis.Real.Sqrt
import Mathlib.Analysis.SpecialFunctions.Trigonometric.Inverse
import Mathlib.Analysis.SpecialFunctions.Trigonometric.Arctan
import Mathlib.Analysis.SpecialFunctions.Exp
import Mathlib.Algebra.Order.Round

/-!
# Numbers

`CNum α` collects the C `double` operations used by polycap, with *no laws*: a theorem stated for
every `CNum α` therefore holds for IEEE doubles, NaN and infinities included.

Instances: `ℝ` (exact), `XR` (IEEE special values on top of exact reals), `Float` (execution only).
-/

namespace Polycap

/-- The C `double` operations used in `/repo/src/*.c` (math.h, complex.h).  Comparisons are
Bool-valued because that is what C's `<`, `<=`, `==` are on doubles (all false on NaN). -/
class CNum (α : Type) where
  add : α → α → α
  sub : α → α → α
  mul : α → α → α
  div : α → α → α
  neg : α → α
  lt : α → α → Bool
  le : α → α → Bool
  beq : α → α → Bool
  /-- decimal literals of the source, taken exactly -/
  lit : ℚ → α
  sqrt : α → α
  exp : α → α
  sin : α → α
  cos : α → α
  tan : α → α
  atan : α → α
  acos : α → α
  fabs : α → α
  /-- `(int) round(x)`; on a non-finite argument the C conversion is unspecified, the instances
  return `0` there -/
  roundI : α → Int

namespace CNum
infixl:65 " +. " => CNum.add
infixl:65 " -. " => CNum.sub
infixl:70 " *. " => CNum.mul
infixl:70 " /. " => CNum.div
infix:50 " <. " => CNum.lt
infix:50 " <=. " => CNum.le
infix:50 " ==. " => CNum.beq

variable {α : Type} [CNum α]
/-- C `a > b`. -/
@[reducible] def gt (a b : α) : Bool := CNum.lt b a
/-- C `a >= b`. -/
@[reducible] def ge (a b : α) : Bool := CNum.le b a
/-- C integer-to-double conversion. -/
def ofInt (n : Int) : α := CNum.lit (n : ℚ)
infix:50 " >. " => CNum.gt
infix:50 " >=. " => CNum.ge
/-- C `a != b` (true on NaN). -/
@[reducible] def bne (a b : α) : Bool := !(CNum.beq a b)
infix:50 " !=. " => CNum.bne

/-- `COSPI_6`, polycap-private.h:37. -/
def cospi6 : α := CNum.lit (86602540378443864676 / 10^20)
/-- `M_PI`, polycap-private.h:31 (same literal as math.h). -/
def mpi : α := CNum.lit (314159265358979323846 / 10^20)
end CNum

/-! ## Exact reals -/

/-- C `round`: half away from zero. -/
noncomputable def realRoundAway (x : ℝ) : Int :=
  if 0 ≤ x then ⌊x + 1/2⌋ else -⌊-x + 1/2⌋

noncomputable instance instCNumReal : CNum ℝ where
  add := (· + ·)
  sub := (· - ·)
  mul := (· * ·)
  div := (· / ·)
  neg := (- ·)
  lt a b := decide (a < b)
  le a b := decide (a ≤ b)
  beq a b := decide (a = b)
  lit q := (q : ℝ)
  sqrt := Real.sqrt
  exp := Real.exp
  sin := Real.sin
  cos := Real.cos
  tan := Real.tan
  atan := Real.arctan
  acos := Real.arccos
  fabs x := |x|
  roundI := realRoundAway

namespace CNum
section RealSimp
variable (a b : ℝ)
@[simp] theorem real_add : CNum.add a b = a + b := rfl
@[simp] theorem real_sub : CNum.sub a b = a - b := rfl
@[simp] theorem real_mul : CNum.mul a b = a * b := rfl
@[simp] theorem real_div : CNum.div a b = a / b := rfl
@[simp] theorem real_neg : CNum.neg a = -a := rfl
@[simp] theorem real_lt : CNum.lt a b = decide (a < b) := rfl
@[simp] theorem real_le : CNum.le a b = decide (a ≤ b) := rfl
@[simp] theorem real_beq : CNum.beq a b = decide (a = b) := rfl
@[simp] theorem real_lit (q : ℚ) : (CNum.lit q : ℝ) = (q : ℝ) := rfl
@[simp] theorem real_sqrt : CNum.sqrt a = Real.sqrt a := rfl
@[simp] theorem real_exp : CNum.exp a = Real.exp a := rfl
@[simp] theorem real_sin : CNum.sin a = Real.sin a := rfl
@[simp] theorem real_cos : CNum.cos a = Real.cos a := rfl
@[simp] theorem real_tan : CNum.tan a = Real.tan a := rfl
@[simp] theorem real_atan : CNum.atan a = Real.arctan a := rfl
@[simp] theorem real_acos : CNum.acos a = Real.arccos a := rfl
@[simp] theorem real_fabs : CNum.fabs a = |a| := rfl
@[simp] theorem real_roundI : CNum.roundI a = realRoundAway a := rfl
@[simp] theorem real_ofInt (n : Int) : (CNum.ofInt n : ℝ) = (n : ℝ) := by
  simp [CNum.ofInt]
end RealSimp

/-- The constant used for √3/2 is a hair below it … -/
theorem cospi6_pos : (0:ℝ) < (CNum.cospi6 : ℝ) := by
  simp only [CNum.cospi6, real_lit]; norm_num
theorem cospi6_sq_lt : (CNum.cospi6 : ℝ) ^ 2 < 3 / 4 := by
  simp only [CNum.cospi6, real_lit]; norm_num
/-- … and agrees with it to about 19 digits. -/
theorem cospi6_sq_gt : 3 / 4 - 1 / 10 ^ 19 < (CNum.cospi6 : ℝ) ^ 2 := by
  simp only [CNum.cospi6, real_lit]; norm_num
end CNum

/-! ## Extended reals with IEEE special values -/

/-- IEEE special values on top of exact reals.  Simplification: zero is unsigned, so `x/0` is `+inf`
or `-inf` according to the sign of `x` only, and there is no overflow or rounding. -/
inductive XR where
  | nan
  | inf (neg : Bool)
  | fin (x : ℝ)

namespace XR
open Classical in
/-- sign of a real as "is negative" -/
noncomputable def isNeg (x : ℝ) : Bool := decide (x < 0)

noncomputable def neg : XR → XR
  | nan => nan
  | inf b => inf (!b)
  | fin x => fin (-x)

noncomputable def add : XR → XR → XR
  | fin x, fin y => fin (x + y)
  | inf a, inf b => if a = b then inf a else nan
  | inf a, fin _ => inf a
  | fin _, inf b => inf b
  | _, _ => nan

noncomputable def mul : XR → XR → XR
  | fin x, fin y => fin (x * y)
  | inf a, inf b => inf (a != b)
  | inf a, fin y => if y = 0 then nan else inf (a != isNeg y)
  | fin x, inf b => if x = 0 then nan else inf (isNeg x != b)
  | _, _ => nan

noncomputable def div : XR → XR → XR
  | fin x, fin y => if y = 0 then (if x = 0 then nan else inf (isNeg x)) else fin (x / y)
  | inf a, fin y => inf (a != isNeg y)
  | fin _, inf _ => fin 0
  | _, _ => nan

noncomputable def lt : XR → XR → Bool
  | fin x, fin y => decide (x < y)
  | inf a, inf b => a && !b
  | inf a, fin _ => a
  | fin _, inf b => !b
  | _, _ => false

noncomputable def beq : XR → XR → Bool
  | fin x, fin y => decide (x = y)
  | inf a, inf b => a == b
  | _, _ => false

noncomputable def le (a b : XR) : Bool := lt a b || beq a b

/-- lift a real function that is defined on all finite doubles and NaN elsewhere -/
noncomputable def liftFin (f : ℝ → ℝ) : XR → XR
  | fin x => fin (f x)
  | _ => nan
end XR

noncomputable instance instCNumXR : CNum XR where
  add := XR.add
  sub a b := XR.add a (XR.neg b)
  mul := XR.mul
  div := XR.div
  neg := XR.neg
  lt := XR.lt
  le := XR.le
  beq := XR.beq
  lit q := XR.fin (q : ℝ)
  sqrt := fun a => match a with
    | .fin x => if x < 0 then .nan else .fin (Real.sqrt x)
    | .inf false => .inf false
    | _ => .nan
  exp := fun a => match a with
    | .fin x => .fin (Real.exp x)
    | .inf false => .inf false
    | .inf true => .fin 0
    | .nan => .nan
  sin := XR.liftFin Real.sin
  cos := XR.liftFin Real.cos
  tan := XR.liftFin Real.tan
  atan := fun a => match a with
    | .fin x => .fin (Real.arctan x)
    | .inf b => .fin (if b then -(Real.pi/2) else Real.pi/2)
    | .nan => .nan
  acos := fun a => match a with
    | .fin x => if x < -1 ∨ 1 < x then .nan else .fin (Real.arccos x)
    | _ => .nan
  fabs := fun a => match a with
    | .fin x => .fin |x|
    | .inf _ => .inf false
    | .nan => .nan
  roundI := fun a => match a with
    | .fin x => realRoundAway x
    | _ => 0

namespace CNum
section XRSimp
open XR
variable (x y : ℝ)
@[simp] theorem xr_add : CNum.add (fin x) (fin y) = fin (x + y) := rfl
@[simp] theorem xr_sub : CNum.sub (fin x) (fin y) = fin (x - y) := by
  show fin (x + -y) = _; rw [sub_eq_add_neg]
@[simp] theorem xr_mul : CNum.mul (fin x) (fin y) = fin (x * y) := rfl
theorem xr_div (h : y ≠ 0) : CNum.div (fin x) (fin y) = fin (x / y) := by
  show XR.div _ _ = _; simp [XR.div, h]
theorem xr_div_zero_zero : CNum.div (fin 0) (fin 0) = nan := by
  show XR.div _ _ = _; simp [XR.div]
@[simp] theorem xr_neg : CNum.neg (fin x) = fin (-x) := rfl
@[simp] theorem xr_lt : CNum.lt (fin x) (fin y) = decide (x < y) := rfl
@[simp] theorem xr_le : CNum.le (fin x) (fin y) = decide (x ≤ y) := by
  show XR.le _ _ = _
  simp [XR.le, XR.lt, XR.beq, le_iff_lt_or_eq]
@[simp] theorem xr_beq : CNum.beq (fin x) (fin y) = decide (x = y) := rfl
@[simp] theorem xr_lit (q : ℚ) : (CNum.lit q : XR) = fin (q : ℝ) := rfl
@[simp] theorem xr_ofInt (n : Int) : (CNum.ofInt n : XR) = fin (n : ℝ) := by
  simp [CNum.ofInt]
theorem xr_sqrt (h : 0 ≤ x) : CNum.sqrt (fin x) = fin (Real.sqrt x) := by
  show (if x < 0 then _ else _) = _
  rw [if_neg (not_lt.mpr h)]
theorem xr_sqrt_neg (h : x < 0) : CNum.sqrt (fin x) = nan := by
  show (if x < 0 then _ else _) = _
  rw [if_pos h]
@[simp] theorem xr_fabs : CNum.fabs (fin x) = fin |x| := rfl
@[simp] theorem xr_exp : CNum.exp (fin x) = fin (Real.exp x) := rfl
@[simp] theorem xr_sin : CNum.sin (fin x) = fin (Real.sin x) := rfl
@[simp] theorem xr_cos : CNum.cos (fin x) = fin (Real.cos x) := rfl
@[simp] theorem xr_tan : CNum.tan (fin x) = fin (Real.tan x) := rfl
@[simp] theorem xr_atan : CNum.atan (fin x) = fin (Real.arctan x) := rfl
theorem xr_atan_inf (b : Bool) : CNum.atan (inf b) = fin (if b then -(Real.pi/2) else Real.pi/2) := rfl
@[simp] theorem xr_roundI : CNum.roundI (fin x) = realRoundAway x := rfl
theorem xr_div_zero (h : x ≠ 0) : CNum.div (fin x) (fin 0) = inf (isNeg x) := by
  show XR.div _ _ = _; simp [XR.div, h]
@[simp] theorem xr_cospi6 : (CNum.cospi6 : XR) = fin (CNum.cospi6 : ℝ) := rfl
@[simp] theorem xr_mpi : (CNum.mpi : XR) = fin (CNum.mpi : ℝ) := rfl
variable (a : XR)
@[simp] theorem xr_lt_nan : CNum.lt a nan = false := by cases a <;> rfl
@[simp] theorem xr_nan_lt : CNum.lt nan a = false := by cases a <;> rfl
@[simp] theorem xr_le_nan : CNum.le a nan = false := by cases a <;> rfl
@[simp] theorem xr_nan_le : CNum.le nan a = false := by cases a <;> rfl
@[simp] theorem xr_beq_nan : CNum.beq a nan = false := by cases a <;> rfl
@[simp] theorem xr_nan_beq : CNum.beq nan a = false := by cases a <;> rfl
@[simp] theorem xr_add_nan : CNum.add a nan = nan := by cases a <;> rfl
@[simp] theorem xr_nan_add : CNum.add nan a = nan := by cases a <;> rfl
@[simp] theorem xr_sub_nan : CNum.sub a nan = nan := by cases a <;> rfl
@[simp] theorem xr_nan_sub : CNum.sub nan a = nan := by cases a <;> rfl
@[simp] theorem xr_mul_nan : CNum.mul a nan = nan := by cases a <;> rfl
@[simp] theorem xr_nan_mul : CNum.mul nan a = nan := by cases a <;> rfl
@[simp] theorem xr_div_nan : CNum.div a nan = nan := by cases a <;> rfl
@[simp] theorem xr_nan_div : CNum.div nan a = nan := by cases a <;> rfl
@[simp] theorem xr_neg_nan : CNum.neg nan = nan := rfl
@[simp] theorem xr_sqrt_nan : CNum.sqrt nan = nan := rfl
@[simp] theorem xr_exp_nan : CNum.exp nan = nan := rfl
@[simp] theorem xr_fabs_nan : CNum.fabs nan = nan := rfl
@[simp] theorem xr_sin_nan : CNum.sin nan = nan := rfl
@[simp] theorem xr_cos_nan : CNum.cos nan = nan := rfl
@[simp] theorem xr_atan_nan : CNum.atan nan = nan := rfl
@[simp] theorem xr_acos_nan : CNum.acos nan = nan := rfl
end XRSimp
end CNum

/-! ## Lean `Float` (execution of the model only; no theorem uses it) -/

instance instCNumFloat : CNum Float where
  add := (· + ·)
  sub := (· - ·)
  mul := (· * ·)
  div := (· / ·)
  neg := (- ·)
  lt a b := a < b
  le a b := a ≤ b
  beq a b := a == b
  lit q := (Float.ofInt q.num) / (Float.ofNat q.den)
  sqrt := Float.sqrt
  exp := Float.exp
  sin := Float.sin
  cos := Float.cos
  tan := Float.tan
  atan := Float.atan
  acos := Float.acos
  fabs := Float.abs
  roundI x := if x ≥ 0 then (x.round.toUInt64.toNat : Int) else -((-x).round.toUInt64.toNat : Int)

end Polycap
