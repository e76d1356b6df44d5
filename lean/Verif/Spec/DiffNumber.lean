import Verif.Spec.Float
import Verif.Model.DiffNumber

/-
What the comparison of two numbers in compared documents is about: the value of a number as it is written, and the double
nearest to it. Of the model only the options are used.
-/

namespace JsonStruct

/-- The value of a number as it is written. -/
def NumText.value (n : NumText) : ℚ := if n.neg then -n.absValue else n.absValue

/-- The text is a number in decimal notation, with at least one digit in front of the point, and this is its value. -/
def HasValue (s : Bytes) (v : ℚ) : Prop := ∃ n : NumText, n.text = s ∧ n.Loose ∧ n.int ≠ [] ∧ v = n.value

/-- `x` is the double nearest to `v`; of two that are equally near it is the even one. -/
def NearestDouble (v x : ℚ) : Prop := ∃ b, RoundsTo 52 11 b |v| ∧ x = if v < 0 then -absValue 52 11 b else absValue 52 11 b

/-- Zero, or in the range of the normal doubles: at least `2^-1022`, and nearer to the largest double than to `2^1024`. -/
def InDoubleRange (v : ℚ) : Prop := v = 0 ∨ 2 ^ (-1022 : Int) ≤ |v| ∧ |v| < 2 ^ 1024 - 2 ^ 970

/-- The numbers are equal if their doubles are; if there is a tolerance, if the difference of the doubles, rounded to a double,
is not larger. -/
def DoublesAgree (tolerance : Option ℚ) (x y : ℚ) : Prop :=
  match tolerance with
  | none => x = y
  | some t => ∃ d, NearestDouble |x - y| d ∧ d ≤ t

/-- The texts are numbers that are equal in this sense. -/
def NumbersAgree (tolerance : Option ℚ) (a b : Bytes) : Prop :=
  ∃ v w x y, HasValue a v ∧ HasValue b w ∧ NearestDouble v x ∧ NearestDouble w y ∧ DoublesAgree tolerance x y

/-- The text is a number in the range of the normal doubles. -/
def OrdinaryNumber (a : Bytes) : Prop := ∃ v, HasValue a v ∧ InDoubleRange v

/-- The tolerance the options ask for. -/
def DiffOptions.tolerance (o : DiffOptions) : Option ℚ := if o.fuzzy then some (absValue 52 11 o.epsilon) else none

/-- The tolerance is a number that is not negative, or infinity. -/
def DiffOptions.Sound (o : DiffOptions) : Prop := o.epsilon ≤ 0x7FF0000000000000

end JsonStruct
