import Verif.Model.Basic

/-
Reading and writing numbers: the part shared by integers and floating point
(`parseNumber`), and the integer conversions. JSH 6112-6716, 7878-8274, 8645-8740.
-/

namespace JsonStruct

/-! ## Integer types -/

/-- JSH 8681-8742: An integer type `T`: number of bits and `std::is_signed<T>`. -/
structure IntTy where
  bits : Nat
  signed : Bool
  deriving DecidableEq, Repr

/-- JSH 8681-8742, 10290-10314: the types with a handler. (`char` is one of the two
eight bit types, `long` one of the 32 or 64 bit types, depending on the platform.) -/
def IntTy.Supported (T : IntTy) : Prop := T.bits ∈ [8, 16, 32, 64, 128]

instance (T : IntTy) : Decidable T.Supported := inferInstanceAs (Decidable (_ ∈ _))

/-- JSH 6714, 8198, 8221, 8242: `std::numeric_limits<T>::max()`. -/
def IntTy.max (T : IntTy) : Nat := if T.signed then 2 ^ (T.bits - 1) - 1 else 2 ^ T.bits - 1

/-- JSH 8200, 8221, 8242: `std::numeric_limits<T>::min()`. -/
def IntTy.min (T : IntTy) : Int := if T.signed then -(2 ^ (T.bits - 1) : Nat) else 0

/-- JSH 8681-8742: The values of the type. -/
def IntTy.InRange (T : IntTy) (v : Int) : Prop := T.min ≤ v ∧ v ≤ T.max

instance (T : IntTy) (v : Int) : Decidable (T.InRange v) := inferInstanceAs (Decidable (_ ∧ _))

/-! ## Counting digits -/

/-- JSH 6619-6642 `Pow10<T, n, 1>::get()`. Values that would not fit `T` are never
instantiated. -/
def pow10 (n : Nat) : Nat := if n = 0 then 1 else 10 ^ (n - 1)

/-- JSH 6644-6660 `StaticLog10<T, value, sum, 0, true>::get()`. The first argument bounds
the recursion; `value` suffices. -/
def staticLog10 : Nat → Nat → Nat → Nat
  | 0, _, sum => sum + 1
  | n + 1, value, sum => if value / 10 ≠ 0 then staticLog10 n (value / 10) (sum + 1) else sum + 1

/-- JSH 6714, 8241: `StaticLog10<T, std::numeric_limits<T>::max(), 0, 0, true>::get()`. No type has more
than 128 bits, so 64 recursions are enough. -/
def IntTy.log10 (T : IntTy) : Nat := staticLog10 64 T.max 0

/-- JSH 6662-6689 `CharsInDigit<T, width, current>::lower_bounds(t)`. The first argument
bounds the recursion; `width` suffices. -/
def charsInDigit : Nat → (width current t : Nat) → Nat
  | 0, _, current, _ => current
  | n + 1, width, current, t =>
    if width = 0 then current
    else if pow10 (current + width / 2) - 1 < t then
      charsInDigit n (width - (width / 2 + 1)) (current + width / 2 + 1) t
    else charsInDigit n (width / 2) current t

/-- JSH 6691-6706 `iabs`. -/
def iabs (T : IntTy) (a : Int) : Nat :=
  if T.signed then
    if 0 < a then a.toNat
    else
      let a := if a = T.min then a + 1 else a
      (-a).toNat
  else a.toNat

/-- JSH 6708-6716 `count_chars<T>`. -/
def countChars (T : IntTy) (t : Int) : Nat :=
  let a := iabs T t
  if a < 10 then 1
  else
    let maxChars := T.log10 + 1
    charsInDigit maxChars maxChars 0 a - 1

/-! ## Writing -/

/-- JSH 8177-8187: the digit loop of `to_buffer`; it fills the buffer from its end. -/
def digitLoop : Nat → Bool → Int → Bytes → Bytes
  | 0, _, _, acc => acc
  | n + 1, negative, integer, acc =>
    let remainder := integer.tmod 10
    let remainder := if negative then -remainder else remainder
    digitLoop n negative (integer.tdiv 10) (UInt8.ofNat (48 + remainder.toNat) :: acc)

/-- JSH 8163-8175: `integer /= 10`, `k` times. -/
def divLoop : Nat → Int → Int
  | 0, x => x
  | k + 1, x => divLoop k (x.tdiv 10)

/-- JSH 8146-8190 `integer::to_buffer`: the text, and `digits_truncated`. The C++ counts in
`int`s; `to_remove` is negative exactly when the subtraction below is cut off at 0. -/
def toBuffer (T : IntTy) (integer : Int) (bufferSize : Nat) : Bytes × Nat :=
  let chars := countChars T integer
  let negative := T.signed && decide (integer < 0)
  let bufferSize := if negative then bufferSize - 1 else bufferSize
  let toRemove := chars - bufferSize
  let integer := divLoop toRemove integer
  let digits := digitLoop (chars - toRemove) negative integer []
  (if negative then MINUS :: digits else digits, toRemove)

/-- JSH 8663-8678 `TypeHandlerIntType::from`: the bytes of the number token, `none` if it
gives up. -/
def intFrom (T : IntTy) (v : Int) : Option Bytes :=
  let r := toBuffer T v 40
  if r.1.length = 0 ∨ r.2 ≠ 0 then none else some r.1

/-! ## Reading -/

/-- JSH 6135-6142 `enum class parse_string_error`; `ub` is a division by zero. -/
inductive NumErr
  | ok | invalidFormat | multipleCommas | emptyString | illegalExponent | ub
  deriving DecidableEq, Repr

/-- JSH 6118-6133 `parsed_string<T>` (`inf` and `nan` are never set by `parseNumber`).
`rest` is what lies behind `endptr`; `count` is a `uint8_t`. -/
structure Parsed where
  negative : Bool := false
  count : Nat := 0
  exp : Int := 0
  significand : Nat := 0
  rest : Bytes := []
  deriving DecidableEq, Repr

/-- JSH 7894-7899 `is_space`. -/
def isSpace (a : Byte) : Bool := a == 0x20 || a == 0x09 || a == 0x0a || a == 0x0b || a == 0x0c || a == 0x0d

/-- JSH 7930, 7997: `c >= '0' && c <= '9'`. -/
def isDig (c : Byte) : Bool := 48 ≤ c && c ≤ 57

/-- JSH 7928-7965: the loop over the digits. `modulus` is `2^bits` of the significand type;
`decPos` is `desimal_position`, `none` for -1; `inc` is `increase_significand`. -/
def digitsIn (modulus : Nat) (noCount : Bool) : Bytes → Parsed → Option Nat → Bool → NumErr × Parsed × Option Nat
  | [], p, decPos, _ => (.ok, { p with rest := [] }, decPos)
  | c :: s, p, decPos, inc =>
    if !isDig c && c != DOT then (.ok, { p with rest := c :: s }, decPos)
    else if c = DOT then
      if decPos.isSome then (.multipleCommas, { p with rest := c :: s }, decPos)
      else digitsIn modulus noCount s p (some p.count) inc
    else
      let digit := c.toNat - 48
      if noCount || p.count < 19 then
        digitsIn modulus noCount s
          { p with significand := (p.significand * 10 + digit) % modulus, count := (p.count + 1) % 256 } decPos inc
      else if inc && p.count < 20 then
        if p.significand = 0 then (.ub, { p with rest := c :: s }, decPos)
        else if 10 ≤ (2 ^ 64 - 1 - digit) / p.significand then
          digitsIn modulus noCount s
            { p with significand := (p.significand * 10 + digit) % modulus, count := (p.count + 1) % 256 } decPos false
        else digitsIn modulus noCount s p decPos false
      else digitsIn modulus noCount s p decPos inc

/-- JSH 7994-8004: the loop over the digits of the exponent: value, whether there was a
digit, and what is behind. -/
def exponentIn : Bytes → Nat → Bool → Nat × Bool × Bytes
  | [], e, assigned => (e, assigned, [])
  | c :: s, e, assigned =>
    if !isDig c then (e, assigned, c :: s)
    else exponentIn s (if e < 100000000 then e * 10 + (c.toNat - 48) else e) true

/-- JSH 7968-7971, 8012-8015: `desimal_position - significand_digit_count`, or 0 without a decimal point. -/
def fracExp (decPos : Option Nat) (count : Nat) : Int :=
  match decPos with
  | some d => (d : Int) - count
  | none => 0

/-- JSH 7901-8017 `parseNumber<T, NoDigitCount>`. -/
def parseNumber (modulus : Nat) (noCount : Bool) (number : Bytes) : NumErr × Parsed :=
  let s := number.dropWhile isSpace
  match s with
  | [] => (.emptyString, {})
  | c :: s' =>
    let negative := c = MINUS
    let s := if negative then s' else s
    let (err, p, decPos) := digitsIn modulus noCount s { negative := negative } none true
    if err ≠ .ok then (err, p)
    else
      match p.rest with
      | [] => (.ok, { p with exp := fracExp decPos p.count })
      | e :: s =>
        if e ≠ 101 ∧ e ≠ 69 then (.ok, { p with exp := fracExp decPos p.count })
        else
          match s with
          | [] => (.illegalExponent, { p with rest := [] })
          | sg :: s' =>
            let s := if sg = MINUS ∨ sg = PLUS then s' else s
            match s with
            | [] => (.illegalExponent, { p with rest := [] })
            | _ :: _ =>
              let (e, assigned, rest) := exponentIn s 0 false
              if !assigned then (.illegalExponent, { p with rest := rest })
              else
                let e : Int := if sg = MINUS then -(e : Int) else e
                (.ok, { p with exp := fracExp decPos p.count + e, rest := rest })

/-- JSH 8192-8215 `make_integer_return_value<T>`. -/
def makeInteger (T : IntTy) (significand : Nat) (negative : Bool) : Int :=
  if T.signed then
    if negative then
      if T.max + 1 ≤ significand then T.min else -(significand : Int)
    else if T.max < significand then T.max else significand
  else if T.max < significand then T.max else significand

/-- JSH 8257: the number of values of `SignificandType`. -/
def IntTy.modulus (T : IntTy) : Nat := if T.bits ≤ 64 then 2 ^ 64 else 2 ^ 128

/-- JSH 8257: `SignificandType` as an integer type. -/
def IntTy.sig (T : IntTy) : IntTy := ⟨if T.bits ≤ 64 then 64 else 128, false⟩

/-- JSH 8232-8236: `significand /= 10`, `k` times. -/
def natDivLoop : Nat → Nat → Nat
  | 0, x => x
  | k + 1, x => natDivLoop k (x / 10)

/-- JSH 8243-8247: `significand *= 10`, `k` times. -/
def natMulLoop (modulus : Nat) : Nat → Nat → Nat
  | 0, x => x
  | k + 1, x => natMulLoop modulus k (x * 10 % modulus)

/-- JSH 8217-8250 `convert_to_integer<T>`. -/
def convertToInteger (T : IntTy) (p : Parsed) : Int :=
  if p.exp < 0 then
    let chars := countChars T.sig p.significand
    if (chars : Int) ≤ -p.exp then 0
    else makeInteger T (natDivLoop (-p.exp).toNat p.significand) p.negative
  else if 0 < p.exp then
    let chars := countChars T.sig p.significand
    if (T.log10 : Int) - chars < p.exp then (if p.negative then T.min else T.max)
    else makeInteger T (natMulLoop T.modulus p.exp.toNat p.significand) p.negative
  else makeInteger T p.significand p.negative

/-- JSH 8252-8269 `to_integer`, and 8652-8661 `TypeHandlerIntType::to`: the new value of
`to_type` (it is written even on failure) and the error. -/
def intTo (T : IntTy) (text : Bytes) : Err × Int :=
  let (err, p) := parseNumber T.modulus true text
  let v := if err = .ok then convertToInteger T p else 0
  if err ≠ .ok ∨ p.rest ≠ [] then (.failedToParseInt, v) else (.noError, v)

end JsonStruct
