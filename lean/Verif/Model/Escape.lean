import Verif.Model.Scan

/-
Decoding and encoding of the escapes in strings (JSH 5837-6111).
-/

namespace JsonStruct

/-! ## Decoding -/

/-- JSH 5837-5852 `push_back_escape`: what it appends for the byte behind the backslash. -/
def pushBackEscape (c : Byte) : Bytes :=
  -- escaped_table "bfnrt\"\\/" against replace_table "\b\f\n\r\t\"\\/"
  match ([98, 102, 110, 114, 116, 34, 92, 47] : List Byte).findIdx? (· = c) with
  | some i => [([8, 12, 10, 13, 9, 34, 92, 47] : List Byte).getD i 0]
  | none => [BSL, c]

/-- JSH 5887-5895, 5913-5921: value of one hex digit; `none` is `ok = false`. -/
def hexDigit (d : Byte) : Option Nat :=
  if 48 ≤ d ∧ d ≤ 57 then some (d.toNat - 48)
  else if 65 ≤ d ∧ d ≤ 70 then some (d.toNat - 65 + 10)
  else if 97 ≤ d ∧ d ≤ 102 then some (d.toNat - 97 + 10)
  else none

/-- JSH 5883-5900, 5910-5924: four hex digits at the front of `s`, `none` if there are
fewer than four bytes or one of them is no hex digit. (For the second group the C++ combines
the digits before it tests `lo_ok`; the value is then not used.) -/
def hex4 (s : Bytes) : Option Nat :=
  match s with
  | a :: b :: c :: d :: _ =>
    match hexDigit a, hexDigit b, hexDigit c, hexDigit d with
    | some a, some b, some c, some d =>
      some ((a <<< 12) ||| (b <<< 8) ||| (c <<< 4) ||| d)
    | _, _, _, _ => none
  | _ => none

/-- JSH 5932-5958: the bytes appended for a code point (`static_cast<char>`). -/
def utf8Bytes (cp : Nat) : Bytes :=
  if 0x10000 ≤ cp then
    [UInt8.ofNat (0xf0 ||| (cp >>> 18)), UInt8.ofNat (0x80 ||| ((cp >>> 12) &&& 0x3f)),
     UInt8.ofNat (0x80 ||| ((cp >>> 6) &&& 0x3f)), UInt8.ofNat (0x80 ||| (cp &&& 0x3f))]
  else if 0x0800 ≤ cp then
    [UInt8.ofNat (0xe0 ||| (cp >>> 12)), UInt8.ofNat (0x80 ||| ((cp >>> 6) &&& 0x3f)),
     UInt8.ofNat (0x80 ||| (cp &&& 0x3f))]
  else if 0x0080 ≤ cp then
    [UInt8.ofNat (0xc0 ||| (cp >>> 6)), UInt8.ofNat (0x80 ||| (cp &&& 0x3f))]
  else [UInt8.ofNat cp]

/-- JSH 5901-5930: `s` is what follows `\u`; its first four bytes are the digits of `cp`.
The resulting code point and `hex_consumed`. -/
def surrogate (cp : Nat) (s : Bytes) : Nat × Nat :=
  if 0xD800 ≤ cp ∧ cp ≤ 0xDBFF ∧ 10 ≤ s.length ∧ s.getD 4 0 = BSL ∧ s.getD 5 0 = 117 then
    match hex4 (s.drop 6) with
    | some lo =>
      if 0xDC00 ≤ lo ∧ lo ≤ 0xDFFF then (0x10000 + ((cp - 0xD800) <<< 10) + (lo - 0xDC00), 10)
      else (cp, 4)
    | none => (cp, 4)
  else (cp, 4)

/-- JSH 5857-5976, the loop of `handle_json_escapes_in`; `s` is `it[0..size)`. The first
argument bounds the iterations (`s.length` suffices, every iteration consumes a byte). -/
def escapesInLoop : Nat → Bytes → Bytes
  | 0, _ => []
  | n + 1, s =>
    if s.length = 0 then [] else
    let k := s.findIdx (· = BSL)             -- memchr
    if k = s.length then s else
    s.take k ++
    (let r := s.drop k                       -- next_it
     if r.length < 2 then [] else
     let c := r.getD 1 0
     let r := r.drop 2
     if c = 117 then
       match hex4 r with
       | some cp =>
         let (cp, used) := surrogate cp r
         utf8Bytes cp ++ escapesInLoop n (r.drop used)
       | none => [BSL, c] ++ escapesInLoop n r
     else pushBackEscape c ++ escapesInLoop n r)

/-- JSH 5854-5977 `handle_json_escapes_in`: the bytes appended to `to_type`. -/
def escapesIn (s : Bytes) : Bytes := escapesInLoop s.length s

/-! ## Encoding -/

/-- JSH 5993-5996, 6010-6013, 6023: byte that stops the scan. (`min_epu8(c, 0x0d) == c`
is `c <= 0x0d` lane by lane.) -/
def isEscOut (c : Byte) : Bool := c ≤ 0x0d || c == QUOTE || c == BSL

/-- JSH 5982-6027 `findFirstEscapeOut`; there is no NEON version. -/
def findFirstEscapeOut (m : Simd) (s : Bytes) : Nat :=
  match m with
  | .avx2 => scanTo 32 (firstSet isEscOut) isEscOut s
  | .sse2 | .sse42 => scanTo 16 (firstSet isEscOut) isEscOut s
  | .scalar | .neon => s.findIdx isEscOut

/-- JSH 6051-6077: the `switch`, what is appended for the byte found. -/
def escapeByte (c : Byte) : Bytes :=
  if c = 8 then [BSL, 98]
  else if c = 9 then [BSL, 116]
  else if c = 10 then [BSL, 110]
  else if c = 12 then [BSL, 102]
  else if c = 13 then [BSL, 114]
  else if c = QUOTE then [BSL, QUOTE]
  else if c = BSL then [BSL, BSL]
  else [c]

/-- JSH 6033-6079: the loop of `handle_json_escapes_out`. Result: `start_index` and
`buffer`. The first argument bounds the iterations (`d.length` suffices). -/
def escapesOutLoop (m : Simd) (d : Bytes) : Nat → (start i : Nat) → Bytes → Nat × Bytes
  | 0, start, _, buffer => (start, buffer)
  | n + 1, start, i, buffer =>
    if i < d.length then
      let i := i + findFirstEscapeOut m (d.drop i)
      if d.length ≤ i then (start, buffer) else
      let buffer := if start < i then buffer ++ (d.drop start).take (i - start) else buffer
      escapesOutLoop m d n (i + 1) (i + 1) (buffer ++ escapeByte (d.getD i 0))
    else (start, buffer)

/-- JSH 6029-6089 `handle_json_escapes_out` with an empty `buffer`: the bytes of the
`DataRef` returned. -/
def escapesOut (m : Simd) (d : Bytes) : Bytes :=
  let (start, buffer) := escapesOutLoop m d d.length 0 0 []
  if buffer.length ≠ 0 then
    if start < d.length then buffer ++ d.drop start else buffer
  else d

end JsonStruct
