import Verif.Model.Float

/-
Reading a `float`: `correctly_round_float` with its big integers (JSH 8278-8509), `to_ieee_t<float>`
(JSH 8528-8549) and `TypeHandler<float>::to` (JSH 8607-8615).

As in Model/Float, a floating point number is the number with the same bits, and `none` stands
for undefined behaviour.
-/

namespace JsonStruct

/-! ## Big integers -/

/-- JSH 8278-8284 `big_uint_cmp`: the vector `w` of 32-bit words, the lowest first. -/
abbrev Big := List Nat

/-- JSH 8281-8284: the default constructor. -/
def Big.zero : Big := [0]

/-- JSH 8285-8289 `normalize`: removes words that are 0 from the end, but not the last one. -/
def Big.normalize : Big → Big
  | [] => []
  | [x] => [x]
  | x :: y :: w =>
    let r := Big.normalize (y :: w)
    if r = [0] then [x] else x :: r

/-- JSH 8290-8301 `mul_small`; `c` is the carry. -/
def Big.mulLoop (m : Nat) : Big → Nat → Big
  | [], c => if c ≠ 0 then [c % 2 ^ 32] else []
  | x :: w, c =>
    let p := (x * m + c) % 2 ^ 64
    p % 2 ^ 32 :: Big.mulLoop m w (p / 2 ^ 32)

/-- JSH 8290-8301 `mul_small`. -/
def Big.mulSmall (w : Big) (m : Nat) : Big := Big.mulLoop m w 0

/-- JSH 8302-8313 `add_small`. -/
def Big.addSmall : Big → Nat → Big
  | [], c => if c ≠ 0 then [c % 2 ^ 32] else []
  | x :: w, c =>
    if c = 0 then x :: w
    else
      let p := (x + c) % 2 ^ 64
      p % 2 ^ 32 :: Big.addSmall w (p / 2 ^ 32)

/-- JSH 8314-8318 `mul_pow5`. -/
def Big.mulPow5 (w : Big) : Nat → Big
  | 0 => w
  | n + 1 => Big.mulPow5 (w.mulSmall 5) n

/-- JSH 8324-8332: the loop in `shift_left`. -/
def Big.shiftLoop (b : Nat) : Big → Nat → Big
  | [], c => if c ≠ 0 then [c] else []
  | x :: w, c =>
    let p := (x * 2 ^ b % 2 ^ 64) ||| c
    p % 2 ^ 32 :: Big.shiftLoop b w (p / 2 ^ 32 % 2 ^ 32)

/-- JSH 8319-8336 `shift_left`. -/
def Big.shiftLeft (w : Big) (bits : Nat) : Big :=
  let w := if bits % 32 ≠ 0 then Big.shiftLoop (bits % 32) w 0 else w
  List.replicate (bits / 32) 0 ++ w

/-- JSH 8345-8348: the loop of `compare_big`, from the highest word down. The arguments are the words with the highest
first. -/
def compareWords : List Nat → List Nat → Ordering
  | x :: a, y :: b => if x ≠ y then (if x < y then .lt else .gt) else compareWords a b
  | _, _ => .eq

/-- JSH 8339-8349 `compare_big`. -/
def compareBig (a b : Big) : Ordering :=
  let a := a.normalize
  let b := b.normalize
  if a.length ≠ b.length then (if a.length < b.length then .lt else .gt)
  else compareWords a.reverse b.reverse

/-- JSH 8351-8362 `compare_value_scaled`. -/
def compareScaled (digits : Big) (decExp : Int) (mid : Big) (midPow2 : Int) : Ordering :=
  let min5 := if decExp < 0 then decExp else 0
  let min2 := if decExp < midPow2 then decExp else midPow2
  compareBig ((digits.mulPow5 (decExp - min5).toNat).shiftLeft (decExp - min2).toNat)
    ((mid.mulPow5 (0 - min5).toNat).shiftLeft (midPow2 - min2).toNat)

/-- JSH 8364-8372 `float_to_int_pow2`. -/
def floatToIntPow2 (g : Nat) : Big × Int :=
  let ce : Nat := g / 2 ^ 23 % 2 ^ 8
  let mant : Nat := g % 2 ^ 23
  ([if ce ≠ 0 then mant ||| 0x800000 else mant], if ce ≠ 0 then (ce : Int) - 150 else -149)

/-- JSH 8383-8393: the sum of two big integers. -/
def Big.addLoop : Nat → Big → Big → Nat → Big
  | 0, _, _, c => if c ≠ 0 then [c % 2 ^ 32] else []
  | n + 1, a, b, c =>
    let p := (a.headD 0 + b.headD 0 + c) % 2 ^ 64
    p % 2 ^ 32 :: Big.addLoop n a.tail b.tail (p / 2 ^ 32)

/-- JSH 8374-8396 `float_pair_midpoint`. -/
def floatPairMidpoint (g1 g2 : Nat) : Big × Int :=
  let (m1, e1) := floatToIntPow2 g1
  let (m2, e2) := floatToIntPow2 g2
  let emin := if e1 < e2 then e1 else e2
  let m1 := m1.shiftLeft (e1 - emin).toNat
  let m2 := m2.shiftLeft (e2 - emin).toNat
  (Big.addLoop (if m2.length < m1.length then m1.length else m2.length) m1 m2 0, emin - 1)

/-- JSH 8398-8403 `float_mantissa_is_even`. -/
def floatIsEven (g : Nat) : Bool := g % 2 == 0

/-! ## The arithmetic of the processor

As in Model/Float. The numbers are without sign. -/

/-- JSH 6393-6402 `get_parts`: A finite number as a multiple of the smallest one. -/
def FloatFmt.units (F : FloatFmt) (b : Nat) : Nat :=
  if b / 2 ^ F.mant = 0 then b % 2 ^ F.mant else (2 ^ F.mant + b % 2 ^ F.mant) * 2 ^ (b / 2 ^ F.mant - 1)

/-- JSH 8435-8436: `double(g)` for a `float`. -/
def widen (g : Nat) : Nat := roundTo f64.toFloatFmt (f32.units g) (2 ^ 149)

/-- JSH 8541: `float(d)` for a `double`; infinity and what is too large become infinity. -/
def narrow (d : Nat) : Nat := roundTo f32.toFloatFmt (f64.units d) (2 ^ 1074)

/-- JSH 8435-8436: `a + b`. -/
def dAdd (a b : Nat) : Nat := roundTo f64.toFloatFmt (f64.units a + f64.units b) (2 ^ 1074)

/-- JSH 8433, 8435-8436: `fabs(a - b)`. -/
def dDist (a b : Nat) : Nat :=
  roundTo f64.toFloatFmt (f64.units a - f64.units b + (f64.units b - f64.units a)) (2 ^ 1074)

/-- JSH 8435-8436: `0.5 * a`. -/
def dHalf (a : Nat) : Nat := roundTo f64.toFloatFmt (f64.units a) (2 ^ 1075)

/-- JSH 8435-8436: `4.0 * a`. -/
def dTimes4 (a : Nat) : Nat := roundTo f64.toFloatFmt (4 * f64.units a) (2 ^ 1074)

/-! ## correctly_round_float -/

/-- JSH 8435-8436: is the double `a` within four units in the last place of the middle between the floats `g1` and `g2`? -/
def nearMiddle (a ulp g1 g2 : Nat) : Bool := decide (dDist a (dHalf (dAdd (widen g1) (widen g2))) ≤ dTimes4 ulp)

/-- JSH 8446-8465: the digits as a big integer, the number of digits behind the point, and what follows. `dot` is `seen_dot`. -/
def scanDigits : Bytes → Big → Nat → Bool → Big × Nat × Bytes
  | [], w, k, _ => (w, k, [])
  | c :: s, w, k, dot =>
    if c = DOT then if dot then (w, k, c :: s) else scanDigits s w k true
    else if !isDig c then (w, k, c :: s)
    else scanDigits s ((w.mulSmall 10).addSmall (c.toNat - 48)) (if dot then k + 1 else k) dot

/-- JSH 8476-8481: the digits of the exponent. `none` if the `int` overflows. -/
def scanExp : Bytes → Nat → Option Nat
  | [], e => some e
  | c :: s, e =>
    if !isDig c then some e
    else if 2 ^ 31 ≤ e * 10 + (c.toNat - 48) then none
    else scanExp s (e * 10 + (c.toNat - 48))

/-- JSH 8440-8483: the digits of the text and the decimal exponent. `none` if an `int` overflows. Simplified: an exponent
within 1000 of the limits of `int` gives `none` too, as the differences in `compare_value_scaled` may overflow then. -/
def scanNumber (text : Bytes) : Option (Big × Int) :=
  let s := text.dropWhile isSpace
  let s := match s with | c :: s' => if c = MINUS ∨ c = PLUS then s' else s | [] => []
  let (digits, frac, s) := scanDigits s Big.zero 0 false
  let exp : Option Int :=
    match s with
    | [] => some 0
    | c :: s =>
      if c = 101 ∨ c = 69 then
        match s with
        | [] => some 0
        | g :: s' =>
          let s := if g = MINUS ∨ g = PLUS then s' else s
          (scanExp s 0).map fun ex => if g = MINUS then -(ex : Int) else ex
      else some 0
  match exp with
  | none => none
  | some ex =>
    let e := -(frac : Int) + ex
    if 2 ^ 31 - 1000 ≤ frac ∨ e < -(2 ^ 31) + 1000 ∨ 2 ^ 31 - 1000 < e then none else some (digits, e)

/-- JSH 8421-8509 `correctly_round_float`, where `d` and `f` are given without their signs, and so is the result. (The
sign of `f` is put back at 8508, and `f` is returned at 8424, 8428 and 8438.) -/
def correctlyRound (text : Bytes) (ad af : Nat) : Option Nat :=
  if f32.inf < af ∨ af = 0 then some af
  else if ¬ af < f32.inf then some af
  else
    let up := af + 1
    let dn := af - 1
    let haveUp := decide (up < f32.inf)
    let ulp := dDist (ad + 1) ad
    let nearHi := haveUp && nearMiddle ad ulp af up
    let nearLo := nearMiddle ad ulp dn af
    if !nearHi && !nearLo then some af
    else
      match scanNumber text with
      | none => none
      | some (digits, decExp) =>
        let mag :=
          if nearHi then
            let (mid, e2) := floatPairMidpoint af up
            match compareScaled digits decExp mid e2 with
            | .gt => up
            | .eq => if floatIsEven af then af else up
            | .lt => af
          else af
        if mag = af ∧ nearLo then
          let (mid, e2) := floatPairMidpoint dn af
          match compareScaled digits decExp mid e2 with
          | .lt => some dn
          | .eq => some (if floatIsEven dn then dn else af)
          | .gt => some mag
        else some mag

/-- JSH 8508: The number with the sign of the double `d`. -/
def withSign32 (d b : Nat) : Nat := if d / 2 ^ 63 ≠ 0 then 2 ^ 31 + b else b

/-- JSH 8528-8549 `to_ieee_t<float>` and 8607-8615 `TypeHandler<float>::to`: the error and the new value; `none` is undefined
behaviour. -/
def floatTo (text : Bytes) : Option (Err × Nat) :=
  let r := parseNumber (2 ^ 64) false text
  if r.1 = .ub then none
  else if r.1 ≠ .ok then some (.failedToParseFloat, f32.inf + 1)
  else
    match convertToDouble r.2 with
    | none => none
    | some d =>
      match correctlyRound text (d % 2 ^ 63) (narrow (d % 2 ^ 63)) with
      | none => none
      | some b => some (if r.2.rest ≠ [] then .failedToParseFloat else .noError, withSign32 d b)

end JsonStruct
