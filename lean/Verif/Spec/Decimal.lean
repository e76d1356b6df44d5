import Verif.Model.Number
import Verif.Spec.Json

/-
Decimal notation. Only the description of the integer types (`IntTy.min`, `IntTy.max`) is
shared with the model.
-/

namespace JsonStruct

/-- The value of a string of digits. -/
def decVal (ds : Bytes) : Nat := ds.foldl (fun a c => a * 10 + (c.toNat - 48)) 0

/-- Digits only, possibly none. -/
def AllDigits (s : Bytes) : Prop := ∀ c ∈ s, isDigit c = true

/-- The text of a number: sign, digits, digits behind the point, exponent (letter, sign, digits). -/
structure NumText where
  neg : Bool := false
  int : Bytes
  frac : Option Bytes := none
  exp : Option (Byte × Bytes × Bytes) := none

/-- `.` and the digits behind it, if any. -/
def fracText : Option Bytes → Bytes
  | none => []
  | some f => 0x2E :: f

/-- The exponent, if any. -/
def expText : Option (Byte × Bytes × Bytes) → Bytes
  | none => []
  | some (e, sign, d) => e :: (sign ++ d)

def NumText.text (n : NumText) : Bytes :=
  (if n.neg then b!"-" else []) ++ n.int ++ fracText n.frac ++ expText n.exp

/-- The exponent is written as in RFC 8259; the digits in front of the point and behind it
are digits, but there may be none of them. -/
def NumText.Loose (n : NumText) : Prop :=
  AllDigits n.int ∧ (∀ f ∈ n.frac, AllDigits f) ∧
  (∀ x ∈ n.exp, (x.1 = 0x65 ∨ x.1 = 0x45) ∧ (x.2.1 = [] ∨ x.2.1 = b!"+" ∨ x.2.1 = b!"-") ∧ Digits x.2.2)

/-- All digits of the number, as one integer. -/
def NumText.mantissa (n : NumText) : Nat := decVal (n.int ++ n.frac.getD [])

/-- The power of ten the mantissa is to be multiplied with. -/
def NumText.scale (n : NumText) : Int :=
  (match n.exp with | none => 0 | some (_, sign, d) => if sign = b!"-" then -(decVal d : Int) else decVal d)
    - (n.frac.getD []).length

/-- `m * 10^e`, cut off to an integer. -/
def scaled (m : Nat) (e : Int) : Nat := if 0 ≤ e then m * 10 ^ e.toNat else m / 10 ^ (-e).toNat

/-- The value of the number, cut off toward zero. -/
def NumText.trunc (n : NumText) : Int :=
  if n.neg then -(scaled n.mantissa n.scale : Int) else scaled n.mantissa n.scale

/-- The nearest value of the type. -/
def IntTy.clamp (T : IntTy) (v : Int) : Int :=
  if v < T.min then T.min else if (T.max : Int) < v then T.max else v

end JsonStruct
