import Verif.Model.Basic
import Verif.Spec.Decimal
import Mathlib.Algebra.Order.Field.Rat
import Mathlib.Algebra.Order.Field.Power

/-
Floating point numbers and powers of five, independent of the model.
-/

namespace JsonStruct

/-! ### Tables of powers -/

/-- `v` is `5^i`, scaled by a power of two so that it lies in `(2^(bits-1), 2^bits]`, and cut off to an integer. -/
def IsPowerOfFive (bits i v : Nat) : Prop :=
  ∃ c, 5 ^ i ≤ 2 ^ c ∧ 2 ^ c < 2 * 5 ^ i ∧ v = 5 ^ i * 2 ^ bits / 2 ^ c

/-- `v` is `1 / 5^i`, scaled by a power of two so that it lies in `(2^(bits-1), 2^bits]`, and cut off to an integer. -/
def IsInverseOfFive (bits i v : Nat) : Prop :=
  ∃ c, 2 ^ c ≤ 5 ^ i ∧ 5 ^ i < 2 * 2 ^ c ∧ v = 2 ^ (bits + c) / 5 ^ i

/-- The number with the given low and high 64 bits. -/
def wide (w : Nat × Nat) : Nat := w.1 + 2 ^ 64 * w.2

/-! ### IEEE 754

A number with `mant` bits of mantissa and `expw` bits of exponent is given by its bits. -/

/-- Everything but the sign. -/
def magnitude (mant expw f : Nat) : Nat := f % 2 ^ (mant + expw)

/-- Neither NaN nor infinite: the exponent field is not full. -/
def Finite (mant expw f : Nat) : Prop := magnitude mant expw f / 2 ^ mant ≠ 2 ^ expw - 1

instance (mant expw f : Nat) : Decidable (Finite mant expw f) := inferInstanceAs (Decidable (_ ≠ _))

/-- The absolute value of a finite number: `m 2^(1-bias-mant)` if the exponent field is 0, otherwise
`(2^mant + m) 2^(field-bias-mant)`; the bias is `2^(expw-1) - 1`. -/
def absValue (mant expw f : Nat) : ℚ :=
  let m := magnitude mant expw f % 2 ^ mant
  let field := magnitude mant expw f / 2 ^ mant
  if field = 0 then m * 2 ^ (2 - 2 ^ (expw - 1) - mant : Int)
  else (2 ^ mant + m) * 2 ^ (field + 1 - 2 ^ (expw - 1) - mant : Int)

/-- `b`, a number without sign, is the one nearest to `v`; of two that are equally near it is the one with even bits.
Infinity counts as the power of two behind the largest number. -/
def RoundsTo (mant expw b : Nat) (v : ℚ) : Prop :=
  b ≤ (2 ^ expw - 1) * 2 ^ mant ∧
  ∀ x ≤ (2 ^ expw - 1) * 2 ^ mant, x ≠ b →
    |absValue mant expw b - v| < |absValue mant expw x - v| ∨
    |absValue mant expw b - v| = |absValue mant expw x - v| ∧ b % 2 = 0

/-- The absolute value of a number as it is written. -/
def NumText.absValue (n : NumText) : ℚ := n.mantissa * 10 ^ n.scale

end JsonStruct
