import Verif.Spec.Decimal

/-
What becomes of a number that is computed in a register.
-/

namespace JsonStruct

/-- How many digits the decimal notation of a number has; 0 has one. -/
def decLen (m : Nat) : Nat := if m < 10 then 1 else decLen (m / 10) + 1

/-- The exponent behind the `e`, 0 without one. -/
def NumText.exponent (n : NumText) : Int :=
  match n.exp with
  | none => 0
  | some (_, sign, d) => if sign = b!"-" then -(decVal d : Int) else decVal d

/-- The number of digits behind the point, as found by someone who counts all digits, and those in front of the point, modulo
256. -/
def NumText.places (n : NumText) : Int :=
  match n.frac with
  | none => 0
  | some f => ((n.int.length + f.length) % 256 : Nat) - ((n.int.length % 256 : Nat) : Int)

/-- What is computed for a number in a register of `w` bits: all digits as one integer, and the result scaled by the power of
ten, both modulo `2^w`; but the limit of the type if there are digits to be appended, and with them more digits than the
maximum of the type has. The sign counts for signed types, and for that limit. -/
def NumText.inRegister (n : NumText) (T : IntTy) (w : Nat) : Int :=
  let m := n.mantissa % 2 ^ w
  let e := n.exponent - n.places
  if 0 < e ∧ (decLen T.max : Int) < decLen m + e then if n.neg then T.min else T.max
  else
    let v := scaled m e % 2 ^ w
    T.clamp (if n.neg = true ∧ T.signed = true then -(v : Int) else v)

end JsonStruct
