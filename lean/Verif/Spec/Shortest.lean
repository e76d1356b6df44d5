import Verif.Spec.Float

/-
Which decimal numbers stand for a floating point number.
-/

namespace JsonStruct

/-- The decimal number `d` is well within the range of the numbers that round to `f`: from `f` it is at most 47 hundredths of the
way to the next number on either side (50 hundredths are the ends of the range). For the largest number, the next one is the
power of two behind it. -/
def WellWithin (mant expw f : Nat) (d : ℚ) : Prop :=
  let g := magnitude mant expw f
  let v := absValue mant expw g
  v - 47 / 100 * (v - absValue mant expw (g - 1)) ≤ d ∧ d ≤ v + 47 / 100 * (absValue mant expw (g + 1) - v)

/-- No decimal number well within the range of `f` ends at a higher place than `d` does: if `k 10^E` is one, then `d` is a
multiple of `10^E`, too. -/
def NoShorter (mant expw f : Nat) (d : ℚ) : Prop :=
  ∀ (k : Nat) (E : Int), WellWithin mant expw f (k * 10 ^ E) → ∃ z : Nat, d = z * 10 ^ E

end JsonStruct
