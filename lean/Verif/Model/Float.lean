import Verif.Model.Number
import Verif.Model.FloatTables

/-
Floating point numbers: writing (`ft::ryu`, JSH 6718-7876, 8124-8143) and reading
(`convertToNumber`, `to_ieee_t`, JSH 8019-8122, 8511-8554), and the handlers of `double` and
`float` (JSH 8558-8643). `parseNumber` is in Model/Number.

A floating point number is the number with the same bits. Integers are `Nat`s; the operations
of `uint64_t` are taken modulo 2^64. `none` stands for undefined behaviour: a shift by the
width of the type, an index outside an array, a loop that does not end, a byte that is not
written.
-/

namespace JsonStruct

/-! ## The arithmetic of the processor

Not code of the repository: what C++'s `*` and `/` on `double` and the conversions between
`double`, `float` and `int` do, on IEEE 754 hardware in the default rounding mode and without
excess precision. -/

/-- JSH 6278-6285, 6419-6426, `mentissa_width()` and `exponent_width()`:
A binary floating point format: width of the mantissa field and of the exponent field. -/
structure FloatFmt where
  mant : Nat
  expw : Nat
  deriving DecidableEq, Repr

/-- JSH 7431: The exponent of the last place of the smallest numbers. -/
def FloatFmt.emin (F : FloatFmt) : Int := 2 - 2 ^ (F.expw - 1) - F.mant

/-- JSH 6536-6546 `make_inf`: The bits of infinity. -/
def FloatFmt.inf (F : FloatFmt) : Nat := (2 ^ F.expw - 1) * 2 ^ F.mant

/-- For JSH 8064-8068, 8121, the rounding of the machine: `n / (d 2^e)` as a fraction of natural numbers. -/
def scaleDown (n d : Nat) (e : Int) : Nat × Nat :=
  if 0 ≤ e then (n, d * 2 ^ e.toNat) else (n * 2 ^ (-e).toNat, d)

/-- For JSH 8064-8068, 8121, the rounding of the machine: The largest `l` with `2^l ≤ n / d`. -/
def floorLog2 (n d : Nat) : Int :=
  let l : Int := (Nat.log2 n : Int) - Nat.log2 d
  let x := scaleDown n d l
  if x.1 < x.2 then l - 1 else l

/-- For JSH 8064-8068, 8121, the rounding of the machine: The integer nearest to `x / y`; the even one of two. -/
def nearest (x y : Nat) : Nat :=
  let q := x / y
  let r := x % y
  if y < 2 * r ∨ (2 * r = y ∧ q % 2 = 1) then q + 1 else q

/-- JSH 8064-8068, 8121, what the machine does there:
The bits of the floating point number nearest to `n / d`, with ties to even. -/
def roundTo (F : FloatFmt) (n d : Nat) : Nat :=
  if n = 0 then 0
  else
    let e := max F.emin (floorLog2 n d - F.mant)
    let x := scaleDown n d e
    let b := (e - F.emin).toNat * 2 ^ F.mant + nearest x.1 x.2
    if F.inf ≤ b then F.inf else b

/-- JSH 7646-7647, 7666-7667, the products with the constants of 7417-7419:
An integer rounded to 53 significant bits: the mantissa of a product of doubles. -/
def round53 (n : Nat) : Nat :=
  if n < 2 ^ 53 then n
  else
    let s := Nat.log2 n - 52
    nearest n (2 ^ s) * 2 ^ s

/-! ## Writing -/

/-- JSH 6275-6391, 6416-6523 `float_info<T>` and 6725-6730, 7359-7364 `cache_values<T>`; `size` is
`sizeof(T)` in bits, `buf` the size of the buffer in `TypeHandler<T>::from` (8587, 8630). -/
structure FloatTy extends FloatFmt where
  size : Nat
  max5 : Nat
  max2 : Nat
  b0 : Nat
  b1 : Nat
  expanded : Nat
  buf : Nat
  lessThan : List (Nat × Nat)
  greaterEq : List (Nat × Nat)

/-- JSH 6286-6289 `bias()`. -/
def FloatFmt.bias (F : FloatFmt) : Nat := 2 ^ (F.expw - 1) - 1

/-- JSH 6275-6391 `float_info<double>`: `double`. -/
def f64 : FloatTy :=
  { mant := 52, expw := 11, size := 64, max5 := 23, max2 := 54, b0 := 124, b1 := 124, expanded := 19, buf := 32,
    lessThan := doubleLessThan, greaterEq := doubleGreaterEq }

/-- JSH 6416-6523 `float_info<float>`: `float`. -/
def f32 : FloatTy :=
  { mant := 23, expw := 8, size := 32, max5 := 10, max2 := 25, b0 := 59, b1 := 61, expanded := 10, buf := 16,
    lessThan := floatLessThan, greaterEq := floatGreaterEq }

/-- JSH 6393-6402 `get_parts`. -/
def getParts (T : FloatTy) (f : Nat) : Bool × Nat × Nat :=
  (f / 2 ^ (T.size - 1) != 0, f / 2 ^ T.mant % 2 ^ T.expw, f % 2 ^ T.mant)

/-- JSH 6563-6571 `is_nan`. -/
def isNan (T : FloatTy) (f : Nat) : Bool := (getParts T f).2.1 == 2 ^ T.expw - 1 && decide (0 < (getParts T f).2.2)

/-- JSH 6573-6581 `is_inf`. -/
def isInf (T : FloatTy) (f : Nat) : Bool := (getParts T f).2.1 == 2 ^ T.expw - 1 && (getParts T f).2.2 == 0

/-- JSH 7417 `log_10_2`, the double nearest to 0.30102999566398114: mantissa, and minus its exponent. -/
def log10of2 : Nat × Nat := (2711437152599295, 53)

/-- JSH 7418 `log_10_5`, the double nearest to 0.6989700043360189. -/
def log10of5 : Nat × Nat := (6295762102141697, 53)

/-- JSH 7419 `log_2_5`, the double nearest to 2.321928094887362. -/
def log2of5 : Nat × Nat := (5228517251457905, 51)

/-- JSH 7646-7647, 7666: `int(n * c)`, a product of doubles. -/
def truncMul (n : Nat) (c : Nat × Nat) : Nat := round53 (n * c.1) / 2 ^ c.2

/-- JSH 7667: `int(std::ceil(n * c))`. -/
def ceilMul (n : Nat) (c : Nat × Nat) : Nat := (round53 (n * c.1) + (2 ^ c.2 - 1)) / 2 ^ c.2

/-- JSH 7421-7433 `normalize`: exponent and mantissa. -/
def normalize (T : FloatTy) (exp m : Nat) : Int × Nat :=
  if exp ≠ 0 then ((exp : Int) - T.bias - T.mant, m + 2 ^ T.mant) else (1 - (T.bias : Int) - T.mant, m)

/-- JSH 7438-7447: The variables of `compute_shortest`. `x_next` is always `x / 10`; `a_remainder` is not used. -/
structure Shortest where
  a : Nat
  b : Nat
  c : Nat
  bRem : Nat
  aZero : Bool
  bZero : Bool
  i : Nat
  deriving DecidableEq, Repr

/-- JSH 7449-7464: the first loop of `compute_shortest`. The first argument bounds the number of rounds. -/
def shortLoop : Nat → Shortest → Option Shortest
  | 0, _ => none
  | n + 1, s =>
    if s.a / 10 < s.c / 10 then
      shortLoop n ⟨s.a / 10, s.b / 10, s.c / 10, s.b % 10, s.aZero && s.a % 10 == 0, s.bZero && s.b % 10 == 0, s.i + 1⟩
    else some s

/-- JSH 7467-7480: the second loop of `compute_shortest`. -/
def zeroLoop : Nat → Shortest → Option Shortest
  | 0, _ => none
  | n + 1, s =>
    if s.a / 10 % 10 = 0 then
      zeroLoop n ⟨s.a / 10, s.b / 10, s.c / 10, s.b % 10, s.aZero, s.bZero && s.b % 10 == 0, s.i + 1⟩
    else some s

/-- JSH 7482-7494: the end of `compute_shortest`: `exponent_adjuster` and `shortest_base10`. -/
def shortEnd (breakTieDown : Bool) (s : Shortest) : Nat × Nat :=
  let isTie := s.bRem == 5 && s.bZero
  let down := decide (s.bRem < 5) || (isTie && breakTieDown)
  let roundDown := (down && (s.a != s.b || s.aZero)) || decide (s.c < s.b + 1)
  (s.i, if roundDown then s.b else s.b + 1)

/-- JSH 7435-7495 `compute_shortest`. More than 64 rounds are only possible in a loop that does not end. -/
def computeShortest (a b c : Nat) (acceptSmaller acceptLarger breakTieDown : Bool) : Option (Nat × Nat) :=
  let c := if acceptLarger then c else (c + (2 ^ 64 - 1)) % 2 ^ 64
  match shortLoop 64 ⟨a, b, c, b % 10, true, true, 0⟩ with
  | none => none
  | some s =>
    if acceptSmaller && s.aZero && s.a % 10 == 0 then (zeroLoop 64 s).map (shortEnd breakTieDown)
    else some (shortEnd breakTieDown s)

/-- JSH 7497-7516 `umul128`: low and high word. The branch with `unsigned __int128`. -/
def umul128 (a b : Nat) : Nat × Nat := (a * b % 2 ^ 64, a * b / 2 ^ 64 % 2 ^ 64)

/-- JSH 7527-7587 `multiply_and_shift`. With 0 as the second word of `b` the version for `double` does what the one for
`float` does: `lo1 = hi1 = 0`. -/
def mulShift (a : Nat) (b : Nat × Nat) (shift : Int) (roundUp : Bool) : Option Nat :=
  let p0 := umul128 a b.1
  let p1 := umul128 a b.2
  let mid := (p0.2 + p1.1) % 2 ^ 64
  let ret := [p0.1, mid, (p1.2 + (if mid < p0.2 then 1 else 0)) % 2 ^ 64, 0]
  let index := shift.toNat / 64
  let s := shift.toNat - index * 64
  if shift < 0 ∨ s = 0 then none
  else
    match ret[index]?, ret[index + 1]? with
    | some r, some r' =>
      let up := roundUp && r / 2 ^ (s - 1) % 2 == 1
      let v := (r / 2 ^ s) ||| (r' % 2 ^ s * 2 ^ (64 - s) % 2 ^ 64)
      some ((v + (if up then 1 else 0)) % 2 ^ 64)
    | _, _ => none

/-- JSH 7589-7599 `pow_int`. -/
def powInt (n e : Nat) : Nat := n ^ e % 2 ^ 64

/-- JSH 6118-6127 `float_base10`. -/
structure Base10 where
  negative : Bool
  inf : Bool
  nan : Bool
  count : Nat
  exp : Int
  significand : Nat
  deriving DecidableEq, Repr

/-- JSH 7641-7684: what `decode` computes from the binary exponent: `q`, `shift_right`, and the three flags `zero`. -/
def scaling (T : FloatTy) (exp : Int) (u m w : Nat) : Nat × Int × Bool × Bool × Bool :=
  if 0 ≤ exp then
    let q := truncMul exp.toNat log10of2 - 1
    let k := T.b0 + truncMul q log2of5
    let near := decide (q - 1 ≤ T.max5)
    let near' := near && decide (q ≤ T.max5)
    (q, -exp + q + k, near' && u % powInt 5 q == 0, near && m % powInt 5 (q - 1) == 0, near' && w % powInt 5 q == 0)
  else
    let q := truncMul (-exp).toNat log10of5 - 1
    let k : Int := (ceilMul ((-exp).toNat - q) log2of5 : Int) - T.b1
    let near := decide (q ≠ 0) && decide (q - 1 ≤ T.max2)
    let near' := near && decide (q ≤ T.max2)
    (q, q - k, near' && u % 2 ^ q == 0, near && m % 2 ^ (q - 1) == 0, near' && w % 2 ^ q == 0)

/-- JSH 7685: `cache_value`. -/
def cacheValue (T : FloatTy) (exp : Int) (q : Nat) : Option (Nat × Nat) :=
  if 0 ≤ exp then T.greaterEq[q]? else T.lessThan[(-exp).toNat - q]?

/-- JSH 7601-7697 `decode`. -/
def decode (T : FloatTy) (f : Nat) : Option Base10 :=
  let (negative, exp, m) := getParts T f
  let shiftWithOne := m == 0 && decide (1 < exp)
  if isNan T f then some ⟨negative, false, true, 0, 0, 0⟩
  else if isInf T f then some ⟨negative, true, false, 0, 0, 0⟩
  else if exp = 0 ∧ m = 0 then some ⟨negative, false, false, 1, 0, 0⟩
  else
    let accept := m % 2 == 0
    let n := normalize T exp m
    let exp := n.1 - 2
    let m := n.2 * 4
    let u := if shiftWithOne then m - 1 else m - 2
    let w := m + 2
    let e10 := if exp < 0 then exp else 0
    let (q, shift, z0, z1, z2) := scaling T exp u m w
    match cacheValue T exp q with
    | none => none
    | some cv =>
      match mulShift u cv shift true, mulShift m cv shift false, mulShift w cv shift false with
      | some a, some b, some c =>
        match computeShortest a b c (accept && z0) (accept || !z2) z1 with
        | none => none
        | some (i, s) => some ⟨negative, false, false, countChars ⟨64, false⟩ s % 256, (i : Int) + e10 + q, s⟩
      | _, _, _ => none

/-- JSH 7786-7791 and 7807-7812: at most `k` digits of `significand`, from `index_pos` to the left. `out` is what has been
written so far, the bytes behind `index_pos`. -/
def putDigits : Nat → Int → Nat → Bytes → Int × Nat × Bytes
  | 0, pos, sig, out => (pos, sig, out)
  | k + 1, pos, sig, out =>
    if 0 ≤ pos then putDigits k (pos - 1) (sig / 10) (UInt8.ofNat (48 + sig % 10) :: out) else (pos, sig, out)

/-- JSH 7802-7806: at most `k` zeros; `digits_before_decimals` goes down with each. -/
def putZeros : Nat → Int → Int → Bytes → Int × Int × Bytes
  | 0, pos, before, out => (pos, before, out)
  | k + 1, pos, before, out => if 0 ≤ pos then putZeros k (pos - 1) (before - 1) (48 :: out) else (pos, before, out)

/-- JSH 7821-7825, 7836-7840: all digits. -/
def natDigits : Nat → Nat → Bytes → Bytes
  | 0, _, out => out
  | k + 1, x, out => natDigits k (x / 10) (UInt8.ofNat (48 + x % 10) :: out)

/-- JSH 7741-7815: the notation without exponent. `none` if a byte of the result is not written. Not modelled: what happens
if the buffer has less than `complete_digits` bytes (7744-7784); this gives `none` too. -/
def expandedText (r : Base10) (size : Nat) : Option Bytes :=
  let before : Int := r.count + r.exp
  let after : Int := if r.exp < 0 then -r.exp else 0
  let complete : Int := max 1 before + max 1 after + 1
  if (size : Int) < complete then none
  else
    let (pos, sig, out) := putDigits after.toNat (max (complete - 1) 0) r.significand []
    let (pos, out) := if after = 0 ∧ 0 ≤ pos then (pos - 1, 48 :: out) else (pos, out)
    let (pos, out) := if 0 ≤ pos then (pos - 1, DOT :: out) else (pos, out)
    let (pos, before, out) := putZeros (max r.exp 0).toNat pos before out
    let (pos, _, out) := putDigits before.toNat pos sig out
    let out := if before ≤ 0 ∧ 0 ≤ pos then 48 :: out else out
    if (out.length : Int) = complete then some out else none

/-- JSH 7819-7873: the notation with exponent. `offset` is 1 behind a minus sign; the limit `size` has then been lowered by 1
and is compared with an offset that counts the sign. -/
def scientificText (r : Base10) (offset size : Nat) : Option Bytes :=
  let digits := natDigits r.count r.significand []
  let exp : Int := r.exp + r.count - 1
  let n := countChars ⟨32, true⟩ exp
  let expText := (if exp < 0 then [MINUS] else []) ++ natDigits n exp.natAbs []
  if 17 < r.count ∨ 4 < expText.length then none
  else if ¬ offset < size then some []
  else
    let out := [digits.headD 0]
    if 1 < r.count ∧ ¬ offset + 1 < size then some out
    else
      let out := if 1 < r.count then out ++ [DOT] else out
      let out := out ++ (digits.drop 1).take (min (size - (offset + out.length)) (r.count - 1))
      if size ≤ offset + out.length then some out
      else
        let out := out ++ [101]
        some (out ++ expText.take (min (size - (offset + out.length)) expText.length))

/-- JSH 7699-7874 `convert_parsed_to_buffer`. -/
def convertToBuffer (r : Base10) (size expanded : Nat) : Option Bytes :=
  if size < 1 then some []
  else if r.nan then some (if 3 ≤ size then b!"nan" else [])
  else
    let sign := if r.negative then [MINUS] else []
    let size := if r.negative then size - 1 else size
    if r.inf then some (sign ++ if 3 ≤ size then b!"inf" else [])
    else
      let before : Int := r.count + r.exp
      let after : Int := if r.exp < 0 then -r.exp else 0
      let complete : Int := max 1 before + max 1 after + 1
      if complete < expanded then (expandedText r size).map (sign ++ ·)
      else (scientificText r sign.length size).map (sign ++ ·)

/-- JSH 8126-8132 `ryu::to_buffer`. -/
def floatToBuffer (T : FloatTy) (f : Nat) : Option Bytes :=
  match decode T f with
  | none => none
  | some r => convertToBuffer r T.buf T.expanded

/-- JSH 8572-8600, 8617-8642 `TypeHandler<double>::from`, `TypeHandler<float>::from`: the text of the token. (Its type is
`Null` for `null` and `Number` otherwise. `size <= 0` does not occur.) -/
def floatFrom (T : FloatTy) (f : Nat) : Option Bytes :=
  if isNan T f || isInf T f then some b!"null" else floatToBuffer T f

/-! ## Reading -/

/-- JSH 6307, `str_to_float_conversion_type`: `uint64_t[2]`: low and high word. -/
abbrev Pair := Nat × Nat

/-- JSH 6153-6160 `left_shift<k>`. -/
def leftShiftBy (k : Nat) (a : Pair) : Pair := (a.1 * 2 ^ k % 2 ^ 64, (a.2 * 2 ^ k % 2 ^ 64) ||| (a.1 / 2 ^ (64 - k)))

/-- JSH 6170-6189 `left_shift(a, shift)`. -/
def leftShift (a : Pair) (shift : Nat) : Pair :=
  if shift = 0 then a
  else if 64 ≤ shift then (0, a.1 * 2 ^ (shift - 64) % 2 ^ 64)
  else leftShiftBy shift a

/-- JSH 6196-6200 `right_shift`. -/
def rightShift (a : Pair) : Pair := ((a.1 / 2) ||| (a.2 * 2 ^ 63 % 2 ^ 64), a.2 / 2)

/-- JSH 6212-6227 `add`: the new `b`. -/
def addPair (a b : Pair) : Pair :=
  let low0 := a.1 % 2 ^ 32 + b.1 % 2 ^ 32
  let low1 := a.2 % 2 ^ 32 + b.2 % 2 ^ 32
  let high0 := a.1 / 2 ^ 32 + b.1 / 2 ^ 32
  let high1 := a.2 / 2 ^ 32 + b.2 / 2 ^ 32
  let high0 := high0 + low0 / 2 ^ 32
  let low1 := low1 + high0 / 2 ^ 32
  let high1 := high1 + low1 / 2 ^ 32
  ((low0 % 2 ^ 32) ||| (high0 * 2 ^ 32 % 2 ^ 64), (low1 % 2 ^ 32) ||| (high1 * 2 ^ 32 % 2 ^ 64))

/-- JSH 6234-6243 `divide_by_10`. -/
def divideBy10 (a : Pair) : Pair :=
  let remainder := a.2 % 10
  let high := a.1 / 2 ^ 32 + remainder * 2 ^ 32
  let low := (a.1 % 2 ^ 32 + high % 10 * 2 ^ 32) / 10
  ((high / 10 * 2 ^ 32 % 2 ^ 64) ||| low, a.2 / 10)

/-- JSH 6337-6358 `shift_left_msb_to_index(a, 124)`: the new `a`, and the number of places. -/
def shiftMsb (a : Pair) : Pair × Nat :=
  if a.2 ≠ 0 then
    let msb := Nat.log2 a.2 + 64
    if 124 < msb then (a, 0) else (leftShift a (124 - msb), 124 - msb)
  else if a.1 ≠ 0 then
    let msb := Nat.log2 a.1
    if 124 < msb then (a, 0) else (leftShift a (124 - msb), 124 - msb)
  else (a, 0)

/-- JSH 8085-8089: shifts to the right while there is a bit in the mask. There are four bits in it. -/
def maskLoop : Nat → Pair → Int → Pair × Int
  | 0, a, e => (a, e)
  | n + 1, a, e => if a.2 / 2 ^ 60 ≠ 0 then maskLoop n (rightShift a) (e + 1) else (a, e)

/-- JSH 8078-8090: the loop for positive exponents. -/
def timesLoop : Nat → Pair → Int → Pair × Int
  | 0, a, e => (a, e)
  | n + 1, a, e =>
    let a := leftShiftBy 1 a
    let b := leftShiftBy 2 a
    let r := maskLoop 4 (addPair b a) e
    timesLoop n r.1 r.2

/-- JSH 8092-8097: the loop for negative exponents. -/
def overLoop : Nat → Pair → Int → Pair × Int
  | 0, a, e => (a, e)
  | n + 1, a, e =>
    let r := shiftMsb a
    overLoop n (divideBy10 r.1) (e - r.2)

/-- JSH 6359-6390: `q |= uint64_t(1) << 63` for negative numbers. -/
def withSign (negative : Bool) (q : Nat) : Nat := if negative then q ||| 2 ^ 63 else q

/-- JSH 6359-6372 `copy_denormal_to_type`, for `binary_exponent <= 0`. -/
def copyDenormal (a : Pair) (e : Int) (negative : Bool) : Option Nat :=
  let s := (-e + 9).toNat
  if 64 ≤ s then none else some (withSign negative ((a.2 + 2 ^ (s - 1)) % 2 ^ 64 / 2 ^ s))

/-- JSH 6374-6390 `copy_normal_to_type`. -/
def copyNormal (a : Pair) (e : Nat) (negative : Bool) : Nat :=
  let q := a.2 % 2 ^ 60
  let off := q % 2 ^ 8
  let bigger := decide (2 ^ 7 < off) || (off == 2 ^ 7 && a.1 != 0)
  let tieOdd := q % 2 ^ 7 == 0 && q / 2 ^ 8 % 2 == 1 && a.1 == 0
  let q := if bigger || tieOdd then q + 2 ^ 7 else q
  withSign negative ((q / 2 ^ 8 + e * 2 ^ 52) % 2 ^ 64)

/-- JSH 6525-6534, 6536-6546 `make_zero`, `make_inf`. -/
def makeZero (T : FloatTy) (negative : Bool) : Nat := if negative then 2 ^ (T.size - 1) else 0

/-- JSH 6536-6546 `make_inf`. -/
def makeInf (T : FloatTy) (negative : Bool) : Nat := T.inf + makeZero T negative

/-- JSH 8061-8068: the short cut for small numbers: `ds / de` or `ds * de`. Both `double(significand)` and
`double(getPow10(..))` are exact. -/
def shortCut (p : Parsed) : Nat :=
  withSign p.negative
    (if p.exp < 0 then roundTo f64.toFloatFmt p.significand (10 ^ p.exp.natAbs)
     else roundTo f64.toFloatFmt (p.significand * 10 ^ p.exp.natAbs) 1)

/-- JSH 8072-8115: the general case. -/
def longWay (p : Parsed) : Option Nat :=
  let a : Pair := (p.significand, 0)
  let r := if 0 < p.exp then timesLoop p.exp.toNat a 124 else overLoop (-p.exp).toNat a 124
  let t := shiftMsb r.1
  let e := r.2 - t.2 + f64.bias
  if e ≤ 0 then copyDenormal t.1 e p.negative
  else if e < 2 ^ f64.expw - 1 then some (copyNormal t.1 e.toNat p.negative)
  else some (makeInf f64 p.negative)

/-- JSH 8044-8116 `convertToNumber<double>`. -/
def convertToDouble (p : Parsed) : Option Nat :=
  let e10 : Int := p.exp + p.count - 1
  if 308 < e10 then some (makeInf f64 p.negative)
  else if e10 < -324 then some (makeZero f64 p.negative)
  else if p.significand = 0 then some (makeZero f64 p.negative)
  else if p.significand < 2 ^ 53 ∧ iabs ⟨32, true⟩ p.exp < countChars ⟨64, false⟩ (2 ^ 53) then some (shortCut p)
  else longWay p

/-- JSH 6548-6561 `make_nan<double>(true, 1)`. -/
def quietNan : Nat := f64.inf + 1

/-- JSH 8511-8526 `to_ieee_t<double>` and 8562-8570 `TypeHandler<double>::to`: the error and the new value; `none` is
undefined behaviour. -/
def doubleTo (text : Bytes) : Option (Err × Nat) :=
  let r := parseNumber (2 ^ 64) false text
  if r.1 = .ub then none
  else if r.1 ≠ .ok then some (.failedToParseDouble, quietNan)
  else
    match convertToDouble r.2 with
    | none => none
    | some v => some (if r.2.rest ≠ [] then .failedToParseDouble else .noError, v)

end JsonStruct
