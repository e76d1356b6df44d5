import Verif.Model.Float32

/-
Comparing two numbers (JSD 64-78, 438-442, 452-471) and what that needs of the C library (`std::stod`) and of the processor
(subtraction and comparison of doubles).
-/

namespace JsonStruct

/-! ## Doubles with a sign

Not code of the repository: IEEE 754 in the default rounding mode, as in Model/Float. -/

/-- For JSD 440-441, 454-455: A double: its sign and its other bits. -/
structure Dbl where
  neg : Bool
  mag : Nat
  deriving DecidableEq, Repr

/-- For JSD 77: The double with these bits. -/
def Dbl.ofBits (b : Nat) : Dbl := ⟨2 ^ 63 ≤ b, b % 2 ^ 63⟩

/-- For JSD 441, 466: The double is NaN. -/
def Dbl.nan (a : Dbl) : Bool := f64.inf < a.mag

/-- For JSD 440: A double as a multiple of the smallest one; infinity is the power of two behind the largest number. -/
def Dbl.units (a : Dbl) : Int := if a.neg then -(f64.units a.mag : Int) else f64.units a.mag

/-- For JSD 440: `a - b` for finite doubles. -/
def Dbl.sub (a b : Dbl) : Dbl :=
  let d := a.units - b.units
  ⟨d < 0, roundTo f64.toFloatFmt d.natAbs (2 ^ 1074)⟩

/-- For JSD 441: `-a`. -/
def Dbl.opp (a : Dbl) : Dbl := ⟨!a.neg, a.mag⟩

/-- For JSD 441: `a <= b`. -/
def Dbl.le (a b : Dbl) : Bool := !a.nan && !b.nan && decide (a.units ≤ b.units)

/-- For JSD 441: `a > 0`. -/
def Dbl.positive (a : Dbl) : Bool := !a.nan && decide (0 < a.units)

/-- For JSD 466: `a == b`. -/
def Dbl.same (a b : Dbl) : Bool := !a.nan && !b.nan && decide (a.units = b.units)

/-! ## `std::stod`

Not code of the repository: `std::stod` is `strtod`, which reads the longest beginning of the text that is a number in the
locale "C", and throws if there is none or if `strtod` reports an error of range. Number tokens have digits, signs, points and
the letter `e` only, so hexadecimal numbers, `inf` and `nan`, which `strtod` reads too, are left out. -/

/-- For JSD 454-455: What the C library is free to do: whether `strtod` sets `errno` for the number `m 10^e`, which is smaller
than the smallest normal double. (The C standard leaves it open; glibc does if the result is not exact.) -/
structure CLib where
  underflow : Nat → Int → Bool

/-- For JSD 454-455: A decimal digit. -/
def isDecDigit (c : Byte) : Bool := 0x30 ≤ c && c ≤ 0x39

/-- For JSD 454-455: The value of some digits. -/
def digitsValue (ds : Bytes) : Nat := ds.foldl (fun a c => 10 * a + (c.toNat - 48)) 0

/-- For JSD 454-455: A sign and what follows it. -/
def takeSign : Bytes → Bool × Bytes
  | [] => (false, [])
  | c :: s => if c = 0x2D then (true, s) else if c = 0x2B then (false, s) else (false, c :: s)

/-- For JSD 454-455: The exponent, if the text begins with one. -/
def takeExponent : Bytes → Int
  | [] => 0
  | c :: s =>
    if c = 0x65 ∨ c = 0x45 then
      let t := takeSign s
      let e : Int := digitsValue (t.2.takeWhile isDecDigit)
      if t.1 then -e else e
    else 0

/-- For JSD 454-455: The digits behind the point, if the text begins with one, and what follows them. -/
def takeFraction : Bytes → Bytes × Bytes
  | [] => ([], [])
  | c :: s => if c = 0x2E then (s.takeWhile isDecDigit, s.dropWhile isDecDigit) else ([], c :: s)

/-- For JSD 454-455: The number the text begins with: sign, mantissa and power of ten. -/
def strtodText (s : Bytes) : Option (Bool × Nat × Int) :=
  let t := takeSign (s.dropWhile fun c => decide (c = 0x20 ∨ 9 ≤ c ∧ c ≤ 13))
  let i := t.2.takeWhile isDecDigit
  let f := takeFraction (t.2.dropWhile isDecDigit)
  if i ++ f.1 = [] then none
  else some (t.1, digitsValue (i ++ f.1), takeExponent f.2 - f.1.length)

/-- For JSD 454-455: `std::stod`; `none` where it throws. -/
def stod (lib : CLib) (s : Bytes) : Option Dbl :=
  match strtodText s with
  | none => none
  | some (neg, m, e) =>
    let x := if 0 ≤ e then (m * 10 ^ e.toNat, 1) else (m, 10 ^ (-e).toNat)
    let r := roundTo f64.toFloatFmt x.1 x.2
    if f64.inf ≤ r then none
    else if 0 < m ∧ x.1 * 2 ^ 1022 < x.2 ∧ lib.underflow m e = true then none
    else some ⟨neg, r⟩

/-! ## The comparison -/

/-- JSD 64-78 `DiffOptions` (and 38-42, the flag): the default of `fuzzyEpsilon`, `1e-6`, as the bits of a double. -/
structure DiffOptions where
  fuzzy : Bool := true
  epsilon : Nat := 0x3EB0C6F7A0B5ED8D

/-- JSD 438-442 `fuzzyEquals`. -/
def fuzzyEquals (d1 d2 epsilon : Dbl) : Bool :=
  let diff := d2.sub d1
  if diff.positive then diff.le epsilon else diff.opp.le epsilon

/-- JSD 452-471 `diffNumberValues`: are the two numbers equal? `none`: `std::stod` throws. -/
def diffNumbers (lib : CLib) (o : DiffOptions) (base diff : Bytes) : Option Bool := do
  let baseValue ← stod lib base
  let diffValue ← stod lib diff
  if o.fuzzy then some (fuzzyEquals baseValue diffValue (.ofBits o.epsilon))
  else some (baseValue.same diffValue)

end JsonStruct
