import Verif.Spec.Float

/-
The JSON numbers that cannot be read as floating point numbers without undefined operations.
-/

namespace JsonStruct

/-- The exponent that is written in a number. -/
def NumText.expo (n : NumText) : Int :=
  match n.exp with
  | none => 0
  | some (_, sign, d) => if sign = b!"-" then -(decVal d : Int) else decVal d

/-- The number with at most 19 digits behind the point. -/
def NumText.cut (n : NumText) : NumText := { n with frac := n.frac.map (·.take 19) }

/-- A number that starts with 0. and 18 more zeros and has more digits; and a number that starts with 0, is less than 2^-1077, and
has an exponent that does not show this. -/
def NumText.Undefined (n : NumText) : Prop :=
  n.int = b!"0" ∧
    (19 ≤ (n.frac.getD []).length ∧ (∀ c ∈ (n.frac.getD []).take 18, c = 0x30) ∨
      0 < n.cut.absValue ∧ n.cut.absValue < 2 ^ (-1077 : Int) ∧ -324 ≤ n.expo)

end JsonStruct
