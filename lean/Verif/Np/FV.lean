import Mathlib.Algebra.Order.Field.Basic
import Mathlib.Tactic.Ring
import Mathlib.Tactic.Linarith

/-!
# Floating point values without rounding

`FV K` is the value set of an IEEE-754 float whose finite part is the ordered field `K`:
finite numbers, the two infinities and NaN.  Rounding, overflow of finite arithmetic and signed
zeros are not modelled (DESIGN.md, section 2).
-/

set_option linter.unusedSectionVars false

namespace Pyirf

/-- Exceptions raised by the modelled code (python exception classes). -/
inductive Err
  | valueError | typeError | indexError | keyError | missingColumns | wrongColumnUnit | unitsError | runtimeError
  | linAlgError | notImplementedError | zeroDivisionError | attributeError
  deriving DecidableEq, Repr

/-- A float: NaN, -inf, a finite number, +inf. -/
inductive FV (K : Type*)
  | nan | ninf | fin (x : K) | pinf
  deriving DecidableEq, Repr

namespace FV
variable {K : Type*}

/-- `np.isnan` -/
def isNan : FV K → Bool
  | nan => true
  | _ => false

/-- `np.isfinite` -/
def isFinite : FV K → Bool
  | fin _ => true
  | _ => false

section cmp
variable [LinearOrder K]

/-- IEEE `a < b` (False if one is NaN). -/
def lt : FV K → FV K → Bool
  | nan, _ | _, nan => false
  | ninf, ninf => false
  | ninf, _ => true
  | _, ninf => false
  | fin a, fin b => decide (a < b)
  | fin _, pinf => true
  | pinf, _ => false

/-- IEEE `a <= b` (False if one is NaN). -/
def le : FV K → FV K → Bool
  | nan, _ | _, nan => false
  | ninf, _ => true
  | _, ninf => false
  | fin a, fin b => decide (a ≤ b)
  | fin _, pinf => true
  | pinf, pinf => true
  | pinf, fin _ => false

/-- IEEE `a > b` -/
def gt (a b : FV K) : Bool := lt b a
/-- IEEE `a >= b` -/
def ge (a b : FV K) : Bool := le b a
/-- IEEE `a == b` (NaN is unequal to everything) -/
def beq (a b : FV K) : Bool := le a b && le b a
/-- IEEE `a != b` -/
def bne (a b : FV K) : Bool := !beq a b

/-- numpy sort/searchsorted order: as `<`, but NaN is above everything. -/
def sortLt : FV K → FV K → Bool
  | nan, _ => false
  | _, nan => true
  | a, b => lt a b

/-- `np.maximum`, propagating NaN -/
def maximum (a b : FV K) : FV K := if a.isNan then a else if b.isNan then b else if lt a b then b else a
/-- `np.minimum`, propagating NaN -/
def minimum (a b : FV K) : FV K := if a.isNan then a else if b.isNan then b else if lt b a then b else a
end cmp

section arith
variable [Field K] [LinearOrder K]

/-- IEEE addition -/
def add : FV K → FV K → FV K
  | nan, _ | _, nan => nan
  | fin a, fin b => fin (a + b)
  | pinf, ninf | ninf, pinf => nan
  | pinf, _ | _, pinf => pinf
  | ninf, _ | _, ninf => ninf

/-- IEEE negation -/
def neg : FV K → FV K
  | nan => nan
  | ninf => pinf
  | pinf => ninf
  | fin a => fin (-a)

/-- IEEE subtraction -/
def sub (a b : FV K) : FV K := add a (neg b)

/-- `±inf` with the sign of `x`; NaN for zero (`0 * inf`). -/
def infSign (x : K) : FV K := if x = 0 then nan else if 0 < x then pinf else ninf

/-- IEEE multiplication (no signed zeros) -/
def mul : FV K → FV K → FV K
  | nan, _ | _, nan => nan
  | fin a, fin b => fin (a * b)
  | fin a, pinf | pinf, fin a => infSign a
  | fin a, ninf | ninf, fin a => infSign (-a)
  | pinf, pinf | ninf, ninf => pinf
  | pinf, ninf | ninf, pinf => ninf

/-- IEEE division (zero is `+0`) -/
def div : FV K → FV K → FV K
  | nan, _ | _, nan => nan
  | fin a, fin b => if b = 0 then infSign a else fin (a / b)
  | fin _, pinf | fin _, ninf => fin 0
  | pinf, fin b => if b < 0 then ninf else pinf
  | ninf, fin b => if b < 0 then pinf else ninf
  | pinf, pinf | ninf, ninf | pinf, ninf | ninf, pinf => nan

instance : Add (FV K) := ⟨add⟩
instance : Neg (FV K) := ⟨neg⟩
instance : Sub (FV K) := ⟨sub⟩
instance : Mul (FV K) := ⟨mul⟩
instance : Div (FV K) := ⟨div⟩

@[simp] theorem fin_add_fin (a b : K) : (fin a + fin b : FV K) = fin (a + b) := rfl
@[simp] theorem fin_mul_fin (a b : K) : (fin a * fin b : FV K) = fin (a * b) := rfl
@[simp] theorem neg_fin (a : K) : (-fin a : FV K) = fin (-a) := rfl
@[simp] theorem fin_sub_fin (a b : K) : (fin a - fin b : FV K) = fin (a - b) := by
  show fin (a + -b) = _; rw [sub_eq_add_neg]
theorem fin_div_fin (a b : K) (h : b ≠ 0) : (fin a / fin b : FV K) = fin (a / b) := by
  show (if b = 0 then infSign a else fin (a / b)) = _
  simp [h]
theorem fin_div_zero (a : K) : (fin a / fin 0 : FV K) = infSign a := by
  show (if (0:K) = 0 then infSign a else fin (a / 0)) = _
  simp
@[simp] theorem nan_add (a : FV K) : (nan + a : FV K) = nan := by cases a <;> rfl
@[simp] theorem add_nan (a : FV K) : (a + nan : FV K) = nan := by cases a <;> rfl
@[simp] theorem nan_mul (a : FV K) : (nan * a : FV K) = nan := by cases a <;> rfl
@[simp] theorem mul_nan (a : FV K) : (a * nan : FV K) = nan := by cases a <;> rfl
@[simp] theorem nan_div (a : FV K) : (nan / a : FV K) = nan := by cases a <;> rfl
@[simp] theorem div_nan (a : FV K) : (a / nan : FV K) = nan := by cases a <;> rfl
@[simp] theorem nan_sub (a : FV K) : (nan - a : FV K) = nan := by cases a <;> rfl
@[simp] theorem sub_nan (a : FV K) : (a - nan : FV K) = nan := by cases a <;> rfl
@[simp] theorem infSign_zero : infSign (0 : K) = nan := by simp [infSign]
theorem infSign_pos {a : K} (h : 0 < a) : infSign a = pinf := by simp [infSign, h, h.ne']

/-- `np.nan_to_num(x, nan=0.0)` on a value whose infinities are left alone
(`posinf=None` replaces them by the largest float, which the unrounded model does not have; every
use in the model only meets NaN or finite values, or passes explicit replacements). -/
def nanToNum0 : FV K → FV K
  | nan => fin 0
  | x => x

/-- `np.nan_to_num(x, nan=0, posinf=p, neginf=n)` -/
def nanToNum (p n : FV K) : FV K → FV K
  | nan => fin 0
  | pinf => p
  | ninf => n
  | x => x

end arith

section lemmas
variable [LinearOrder K]

@[simp] theorem lt_fin (a b : K) : lt (fin a) (fin b) = decide (a < b) := rfl
@[simp] theorem le_fin (a b : K) : le (fin a) (fin b) = decide (a ≤ b) := rfl
@[simp] theorem lt_nan (a : FV K) : lt a nan = false := by cases a <;> rfl
@[simp] theorem nan_lt (a : FV K) : lt nan a = false := by cases a <;> rfl
@[simp] theorem le_nan (a : FV K) : le a nan = false := by cases a <;> rfl
@[simp] theorem nan_le (a : FV K) : le nan a = false := by cases a <;> rfl
@[simp] theorem isNan_fin (a : K) : (fin a).isNan = false := rfl
@[simp] theorem isNan_nan : (nan : FV K).isNan = true := rfl
@[simp] theorem isNan_pinf : (pinf : FV K).isNan = false := rfl
@[simp] theorem isNan_ninf : (ninf : FV K).isNan = false := rfl

theorem isNan_iff (a : FV K) : a.isNan = true ↔ a = nan := by cases a <;> simp [isNan]

theorem le_trans' {a b c : FV K} (h : le a b = true) (h' : le b c = true) : le a c = true := by
  cases a <;> cases b <;> cases c <;> simp_all [le]
  exact le_trans h h'
theorem lt_of_lt_of_le' {a b c : FV K} (h : lt a b = true) (h' : le b c = true) : lt a c = true := by
  cases a <;> cases b <;> cases c <;> simp_all [le, lt]
  exact lt_of_lt_of_le h h'
theorem lt_of_le_of_lt' {a b c : FV K} (h : le a b = true) (h' : lt b c = true) : lt a c = true := by
  cases a <;> cases b <;> cases c <;> simp_all [le, lt]
  exact lt_of_le_of_lt h h'
theorem le_of_lt' {a b : FV K} (h : lt a b = true) : le a b = true := by
  cases a <;> cases b <;> simp_all [le, lt]
  exact le_of_lt h
theorem not_lt_of_le {a b : FV K} (h : le a b = true) : lt b a = false := by
  cases a <;> cases b <;> simp_all [le, lt]
theorem not_le_of_lt {a b : FV K} (h : lt a b = true) : le b a = false := by
  cases a <;> cases b <;> simp_all [le, lt]
/-- On non-NaN values the order is total. -/
theorem le_or_lt' {a b : FV K} (ha : a ≠ nan) (hb : b ≠ nan) : le a b = true ∨ lt b a = true := by
  cases a <;> cases b <;> simp_all [le, lt]
  exact le_or_gt _ _
theorem le_refl' {a : FV K} (ha : a ≠ nan) : le a a = true := by cases a <;> simp_all [le]
theorem ne_nan_of_le {a b : FV K} (h : le a b = true) : a ≠ nan ∧ b ≠ nan := by
  constructor <;> rintro rfl <;> simp_all
theorem ne_nan_of_lt {a b : FV K} (h : lt a b = true) : a ≠ nan ∧ b ≠ nan := by
  constructor <;> rintro rfl <;> simp_all
theorem lt_irrefl' (a : FV K) : lt a a = false := by cases a <;> simp [lt]
theorem le_antisymm' {a b : FV K} (h : le a b = true) (h' : le b a = true) : a = b := by
  cases a <;> cases b <;> simp_all [le]
  exact le_antisymm h h'
theorem beq_iff (a b : FV K) : beq a b = true ↔ a = b ∧ a ≠ nan := by
  constructor
  · intro h
    simp only [beq, Bool.and_eq_true] at h
    exact ⟨le_antisymm' h.1 h.2, (ne_nan_of_le h.1).1⟩
  · rintro ⟨rfl, h⟩; simp [beq, le_refl' h]
theorem sortLt_eq_false_iff {x a : FV K} (ha : a ≠ nan) :
    sortLt x a = false ↔ (x = nan ∨ le a x = true) := by
  cases x <;> cases a <;> simp_all [sortLt, le, lt]
end lemmas

end FV
end Pyirf
