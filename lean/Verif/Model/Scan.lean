import Verif.Model.Basic

/-
The scanners: given the bytes from the cursor to the end of the current buffer,
how far ahead does the token reach. The scalar loops are modelled on the
remaining bytes; the vector versions block by block.

The C++ passes `json_data` and reads `cursor_index`; here `s` is
`json_data.data[cursor_index .. json_data.size)`.
-/

namespace JsonStruct

/-! ## Scalar scanners -/

/-- For JSH 1975-2128, `chars_ahead` counted from further back: Add to the position of a result. -/
def bump (k : Nat) (r : Option Nat × Bool) : Option Nat × Bool := (r.1.map (· + k), r.2)

/-- JSH 1975-2007, scalar part of `findStringEnd`. Result: `chars_ahead` (one past
the closing quote) or `none` for `NeedMoreData`, and the new `is_escaped`.
Simplification: `std::find_if` to the next byte with
`lookup == StrEndOrBackSlash` and the loop around it are one byte-wise recursion. -/
def strEnd : Bool → Bytes → Option Nat × Bool
  | esc, [] => (none, esc)
  | true, _ :: cs => bump 1 (strEnd false cs)
  | false, c :: cs =>
    if lookup c = flStrEnd then
      if c = BSL then bump 1 (strEnd true cs)
      else if c = QUOTE then (some 1, false)
      else bump 1 (strEnd false cs)
    else bump 1 (strEnd false cs)

/-- JSH 2049-2127, the results of `findAsciiEnd` and `findNumberEnd`:
Outcome of a scan for the end of an ascii or number token. -/
inductive EndRes
  | found (ahead : Nat)
  | more
  deriving DecidableEq, Repr

/-- JSH 2055-2058 the lambda of `findAsciiEnd`: byte that may not continue an ascii word. -/
def asciiStop (c : Byte) : Bool := !has c (flAscii ||| flDigits ||| flHat)

/-- JSH 2065-2066: the range test applied to the byte found. -/
def asciiRange (c : Byte) : Bool :=
  (65 ≤ c && c ≤ 90) || (94 ≤ c && c ≤ 122) || (48 ≤ c && c ≤ 57)

/-- JSH 2049-2082, scalar part of `findAsciiEnd`. The `find_if` and the loop around
it are one byte-wise recursion. -/
def asciiEndFrom : Nat → Bytes → EndRes
  | _, [] => .more
  | k, c :: cs =>
    if asciiStop c then
      if asciiRange c then asciiEndFrom (k + 1) cs
      else if c = 0 then .more
      else .found k
    else asciiEndFrom (k + 1) cs

/-- JSH 2049-2082. -/
def asciiEnd (s : Bytes) : EndRes := asciiEndFrom 0 s

/-- JSH 2116-2119, the lambda of `findNumberEnd`. -/
def numberStop (c : Byte) : Bool := !has c flNumberEnd

/-- JSH 2111-2127, scalar part of `findNumberEnd`. -/
def numberEnd (s : Bytes) : EndRes :=
  let i := s.findIdx numberStop
  if i < s.length then .found i else .more

/-- JSH 2455-2471, scalar part of `skipComment`: `chars_ahead` or `none`. -/
def commentEnd (newLines : Bool) (s : Bytes) : Option Nat :=
  let i := s.findIdx (· = LF)
  if i < s.length then some (if newLines then i else i + 1) else none

/-! ## Vector scanners -/

/-- JSH 459, 947, 983, 1029, 1080, 1115, 1154, 1244:
`_mm_movemask_epi8`: bit `i` of the result is lane `i` of a comparison mask. -/
def movemask : List Bool → Nat
  | [] => 0
  | b :: bs => b.toNat + 2 * movemask bs

/-- JSH 432-441, `bit_scan_forward` (`__builtin_ctz`) on a 32 bit word. -/
def ctz : Nat → Nat → Nat
  | 0, _ => 0
  | n + 1, m => if m % 2 = 1 then 0 else 1 + ctz n (m / 2)

/-- First lane whose comparison result is set, through movemask and
bit_scan_forward; `none` when `mask == 0`. E.g. JSH 459-464. -/
def firstSet (p : Byte → Bool) (chunk : Bytes) : Option Nat :=
  let mask := movemask (chunk.map p)
  if mask ≠ 0 then some (ctz 32 mask) else none

/-- First lane whose comparison result is clear: `mask != 0xFFFF`, then
`bit_scan_forward(~mask & 0xFFFF)`. E.g. JSH 1028-1036 (16 lanes), 1080-1087 (32). -/
def firstClear (p : Byte → Bool) (chunk : Bytes) : Option Nat :=
  let full := 2 ^ chunk.length - 1
  let mask := movemask (chunk.map p)
  if mask ≠ full then some (ctz 32 (full - mask)) else none

/-- NEON: first set lane, by four 32 bit words and then the bytes of the word.
E.g. JSH 548-571. `none` when no lane is set. -/
def firstNeon (p : Byte → Bool) (chunk : Bytes) : Option Nat :=
  let m := chunk.map p
  let word (i : Nat) : List Bool := (m.drop (i * 4)).take 4
  let inWord (i : Nat) : Option Nat :=
    if (word i).any id then some (i * 4 + (word i).findIdx id) else none
  if m.any id then (inWord 0).or ((inWord 1).or ((inWord 2).or (inWord 3))) else none

/-- JSH 451-467, 502-514, 1016-1039 (and the others):
`while (current + w <= end)`: look at blocks of `w` bytes until one contains a
hit. Result: position reached, and whether a hit was found there. The first
argument bounds the number of iterations (`s.length` always suffices). -/
def blockScan (w : Nat) (first : Bytes → Option Nat) : Nat → Bytes → Nat × Bool
  | 0, _ => (0, false)
  | n + 1, s =>
    if w ≤ s.length then
      match first (s.take w) with
      | some k => (k, true)
      | none => let r := blockScan w first n (s.drop w); (w + r.1, r.2)
    else (0, false)

/-- JSH 451-490, 502-525, 1016-1049 (and the others): Block loop followed by the byte loop over the rest. -/
def scanTo (w : Nat) (first : Bytes → Option Nat) (stop : Byte → Bool) (s : Bytes) : Nat :=
  let r := blockScan w first s.length s
  if r.2 then r.1 else r.1 + (s.drop r.1).findIdx stop

/-- White space test of the vector and byte loops, JSH 1018-1026, 1042. -/
def isWsV (c : Byte) : Bool := c == SPACE || c == TAB || c == LF || c == CR

/-- JSH 1006-1052 `skipWhitespaceSIMD`. -/
def skipWhitespaceSIMD (s : Bytes) : Nat := scanTo 16 (firstClear isWsV) (fun c => !isWsV c) s

/-- JSH 1057-1103 `skipWhitespaceAVX2`. -/
def skipWhitespaceAVX2 (s : Bytes) : Nat := scanTo 32 (firstClear isWsV) (fun c => !isWsV c) s

/-- JSH 675-738 `skipWhitespaceNEON`. -/
def skipWhitespaceNEON (s : Bytes) : Nat :=
  scanTo 16 (firstNeon (fun c => !isWsV c)) (fun c => !isWsV c) s

/-- JSH 469-490 the byte loop at the end of `findStringEndSIMD` (same in AVX2, NEON):
bytes consumed and the new `is_escaped`. -/
def strLoop : Bool → Bytes → Nat × Bool
  | esc, [] => (0, esc)
  | true, _ :: cs => let r := strLoop false cs; (r.1 + 1, r.2)
  | false, c :: cs =>
    if c = BSL then let r := strLoop true cs; (r.1 + 1, r.2)
    else if c = QUOTE then (1, false)
    else let r := strLoop false cs; (r.1 + 1, r.2)

/-- JSH 455-457. -/
def isQuoteOrBsl (c : Byte) : Bool := c == QUOTE || c == BSL

/-- JSH 443-491 / 1138-1187 / 532-598: `findStringEndSIMD`, `AVX2`, `NEON`. The
vector loop does not look at `is_escaped`. -/
def findStringEndVec (w : Nat) (first : Bytes → Option Nat) (esc : Bool) (s : Bytes) : Nat × Bool :=
  let r := blockScan w first s.length s
  let t := strLoop esc (s.drop r.1)
  (r.1 + t.1, t.2)

/-- JSH 520: byte allowed in a number. -/
def isNumV (c : Byte) : Bool :=
  (48 ≤ c && c ≤ 57) || c == DOT || c == 101 || c == 69 || c == PLUS || c == MINUS

/-- JSH 506 `_mm_cmpistri(number_chars, chunk, EQUAL_ANY | NEGATIVE_POLARITY)`: index
of the first byte of the chunk that is not in the set or lies at or after a NUL
(implicit length string), `none` for 16. -/
def cmpistri (chunk : Bytes) : Option Nat :=
  let valid := chunk.takeWhile (· ≠ 0)
  let i := valid.findIdx (fun c => !isNumV c)
  if i < chunk.length then some i else none

/-- JSH 493-528 `findNumberEndSIMD` without SSE4.2: only the byte loop. -/
def findNumberEndSSE2 (s : Bytes) : Nat := s.findIdx (fun c => !isNumV c)

/-- JSH 493-528 `findNumberEndSIMD` with SSE4.2: block loop, `break` at a hit, then
the byte loop from there. -/
def findNumberEndSSE42 (s : Bytes) : Nat :=
  let r := blockScan 16 cmpistri s.length s
  r.1 + (s.drop r.1).findIdx (fun c => !isNumV c)

/-- JSH 600-673 `findNumberEndNEON`. -/
def findNumberEndNEON (s : Bytes) : Nat :=
  scanTo 16 (firstNeon (fun c => !isNumV c)) (fun c => !isNumV c) s

/-- JSH 912-945, 960-961: byte allowed in an ascii word. -/
def isAsciiV (c : Byte) : Bool :=
  (65 ≤ c && c ≤ 90) || (97 ≤ c && c ≤ 122) || (48 ≤ c && c ≤ 57) || c == 95 || c == 94 ||
  c == 96 || c == SLASH || c == DOT || c == MINUS

/-- JSH 892-971 `findAsciiEndSIMD`. -/
def findAsciiEndSIMD (s : Bytes) : Nat := scanTo 16 (firstClear isAsciiV) (fun c => !isAsciiV c) s

/-- JSH 1189-1267 `findAsciiEndAVX2` (not called by the tokenizer). -/
def findAsciiEndAVX2 (s : Bytes) : Nat := scanTo 32 (firstClear isAsciiV) (fun c => !isAsciiV c) s

/-- JSH 740-837 `findAsciiEndNEON`. -/
def findAsciiEndNEON (s : Bytes) : Nat :=
  scanTo 16 (firstNeon (fun c => !isAsciiV c)) (fun c => !isAsciiV c) s

/-- JSH 973-1004, 1105-1136, 839-886 `skipCommentSIMD`, `AVX2`, `NEON`: one past the
first new line, or the whole length. -/
def skipCommentVec (w : Nat) (first : Bytes → Option Nat) (s : Bytes) : Nat :=
  let r := blockScan w first s.length s
  if r.2 then r.1 + 1
  else
    let i := (s.drop r.1).findIdx (· = LF)
    if r.1 + i < s.length then r.1 + i + 1 else s.length

/-! ## The member functions that choose between them -/

/-- JSH 1923-2008 `Tokenizer::findStringEnd`. -/
def findStringEnd (m : Simd) (esc : Bool) (s : Bytes) : Option Nat × Bool :=
  let vec (w : Nat) (first : Bytes → Option Nat) : Option Nat × Bool :=
    if w ≤ s.length then
      let r := findStringEndVec w first esc s
      if r.1 < s.length then (some r.1, r.2) else strEnd esc s
    else strEnd esc s
  match m with
  | .scalar => strEnd esc s
  | .avx2 => vec 32 (firstSet isQuoteOrBsl)
  | .neon => vec 16 (firstNeon isQuoteOrBsl)
  | .sse2 | .sse42 => vec 16 (firstSet isQuoteOrBsl)

/-- JSH 2010-2083 `Tokenizer::findAsciiEnd`. -/
def findAsciiEnd (m : Simd) (s : Bytes) : EndRes :=
  let vec (scan : Bytes → Nat) : EndRes :=
    if 16 ≤ s.length then
      let consumed := scan s
      if consumed < s.length then
        if s.getD consumed 0 = 0 then .more else .found consumed
      else asciiEndFrom consumed (s.drop consumed)
    else asciiEnd s
  match m with
  | .scalar => asciiEnd s
  | .neon => vec findAsciiEndNEON
  | .sse2 | .sse42 | .avx2 => vec findAsciiEndSIMD

/-- JSH 2085-2128 `Tokenizer::findNumberEnd`. AVX2 hardware has SSE4.2. -/
def findNumberEnd (m : Simd) (s : Bytes) : EndRes :=
  let vec (scan : Bytes → Nat) : EndRes :=
    if 16 ≤ s.length then
      let consumed := scan s
      if 0 < consumed ∧ consumed < s.length then .found consumed else numberEnd s
    else numberEnd s
  match m with
  | .scalar => numberEnd s
  | .neon => vec findNumberEndNEON
  | .sse2 => vec findNumberEndSSE2
  | .sse42 | .avx2 => vec findNumberEndSSE42

/-- JSH 2427-2472 `Tokenizer::skipComment`. `none` is `NeedMoreData`. -/
def skipComment (m : Simd) (newLines : Bool) (s : Bytes) : Option Nat :=
  let vec (scan : Bytes → Nat) : Option Nat :=
    if 16 ≤ s.length && !newLines then
      let consumed := scan s
      if 0 < consumed ∧ consumed ≤ s.length ∧ s.getD (consumed - 1) 0 = LF then some consumed
      else commentEnd newLines s
    else commentEnd newLines s
  match m with
  | .scalar => commentEnd newLines s
  | .neon => vec (skipCommentVec 16 (firstNeon (· = LF)))
  | .sse2 | .sse42 | .avx2 => vec (skipCommentVec 16 (firstSet (· = LF)))

/-- The white space skip in front of `findStartOfNextValue`, `findDelimiter` and
`findTokenEnd` (JSH 2137-2156, 2272-2291, 2354-2373); `guard` is the extra
condition the caller has. -/
def wsSkip (m : Simd) (guard : Bool) (s : Bytes) : Nat :=
  match m with
  | .scalar => 0
  | .avx2 => if 32 ≤ s.length && guard then skipWhitespaceAVX2 s else 0
  | .neon => if 16 ≤ s.length && guard then skipWhitespaceNEON s else 0
  | .sse2 | .sse42 => if 16 ≤ s.length && guard then skipWhitespaceSIMD s else 0

end JsonStruct
