import Verif.Spec.Json

/-
The texts the tokenizer accepts. RFC 8259 is much smaller: see `Spec/Json`. The grammar below is
what a text has to be for its brackets to be closed with no error reported before, and it gives
the tokens reported for it. It is written from the observable behaviour only: bytes are named
by their characters, and nothing refers to the tokenizer's tables or states.

Beyond RFC 8259 it allows
* the bytes `/ . ^ _ \` \` and NUL in front of any name, value or closing bracket, as if they
  were white space, and NUL behind any of them;
* any bytes between quotes and, as numbers, any digits, signs, points and letters `e`, `E`
  that begin with a digit or a sign;
* in arrays any word as a value; in objects words as names and values with `allowAsciiType`;
* a comma behind the last element of an array if that element is no array or object,
  and behind any last element or member with `allowSuperfluousComma`;
* in objects, arrays and objects without a name;
* a name and a colon with no value in front of a closing brace.

With `allowNewLineAsTokenDelimiter` a line break is a separator: it may stand for a comma, also
behind the last element or member, and it may neither stand between a value and its comma or
closing bracket nor between a name and its colon. A comment behind a value then ends with the
line break that is the separator.
-/

namespace JsonStruct

namespace Lax

/-- Bytes passed over in front of a token. -/
def passed (c : Byte) : Bool := isWs c || c == 0 || b!"/.^_`\\".contains c

/-- Bytes passed over behind a token. -/
def blank (c : Byte) : Bool := isWs c || c == 0

def isLetter (c : Byte) : Bool := (0x41 ≤ c && c ≤ 0x5A) || (0x61 ≤ c && c ≤ 0x7A)

/-- Bytes that continue a word. -/
def wordByte (c : Byte) : Bool := isLetter c || isDigit c || b!"-./^_`".contains c

/-- Bytes that continue a number. -/
def numByte (c : Byte) : Bool := isDigit c || b!"+-.eE".contains c

/-- What may stand in front of a token. With comments enabled (`cm`), two slashes begin one. -/
inductive Skip (cm : Bool) : Bytes → Prop
  | nil : Skip cm []
  | byte {c w} : passed c = true → (cm = true → c = 0x2F → w.head? ≠ some 0x2F) → Skip cm w → Skip cm (c :: w)
  | comment {body w} : cm = true → 0x0A ∉ body → Skip cm w → Skip cm (0x2F :: 0x2F :: (body ++ 0x0A :: w))

/-- What may stand behind a token. -/
inductive Blank (o : Opts) : Bytes → Prop
  | nil : Blank o []
  | byte {c w} : blank c = true → (o.newLines = true → c ≠ 0x0A) → Blank o w → Blank o (c :: w)
  | comment {body w} : o.comments = true → o.newLines = false → 0x0A ∉ body → Blank o w →
      Blank o (0x2F :: 0x2F :: (body ++ 0x0A :: w))

/-- What separates elements and members; `true` for a comma. -/
inductive Sep (o : Opts) : Bool → Bytes → Prop
  | comma : Sep o true b!","
  | line : o.newLines = true → Sep o false b!"\n"
  | comment {body} : o.newLines = true → o.comments = true → 0x0A ∉ body →
      Sep o false (0x2F :: 0x2F :: (body ++ b!"\n"))

/-- Between quotes: anything up to the first quote that no backslash precedes. -/
inductive Quoted : Bytes → Prop
  | nil : Quoted []
  | plain {c s} : c ≠ 0x22 → c ≠ 0x5C → Quoted s → Quoted (c :: s)
  | esc {c s} : Quoted s → Quoted (0x5C :: c :: s)

/-- Sorts of values: bare words, strings and numbers, arrays and objects. -/
inductive Kind
  | word | plain | nested
  deriving DecidableEq

/-- `Scalar k ty d t`: the text `t` is a scalar, reported with type `ty` and value `d`. -/
inductive Scalar : Kind → Ty → Bytes → Bytes → Prop
  | str {s} : Quoted s → Scalar .plain .string s (0x22 :: (s ++ b!"\""))
  | num {c s} : (isDigit c || c == 0x2B || c == 0x2D) = true → (∀ x ∈ s, numByte x = true) →
      Scalar .plain .number (c :: s) (c :: s)
  | null : Scalar .word .null b!"null" b!"null"
  | tru : Scalar .word .bool b!"true" b!"true"
  | fls : Scalar .word .bool b!"false" b!"false"
  | word {c s} : isLetter c = true → (∀ x ∈ s, wordByte x = true) →
      c :: s ≠ b!"null" → c :: s ≠ b!"true" → c :: s ≠ b!"false" → Scalar .word .ascii (c :: s) (c :: s)

/-- What may stand behind a value or name, in front of the separator `x`: behind a word neither a NUL
nor a comment may follow directly. -/
def Behind (o : Opts) (k : Kind) (w x : Bytes) : Prop :=
  Blank o w ∧ (k = .word → (w ++ x).head? ≠ some 0 ∧ (w ++ x).head? ≠ some 0x2F)

/-- Names: strings, and words other than `null`, `true`, `false` with `allowAsciiType`. -/
def Name (o : Opts) (k : Kind) (nty : Ty) (n t : Bytes) : Prop :=
  Scalar k nty n t ∧ (nty = .string ∨ (nty = .ascii ∧ o.ascii = true))

mutual
/-- `Nested o nm nty t ks`: the text `t` of an array or object with the tokens `ks`, the first one
carrying the name. -/
inductive Nested (o : Opts) : Bytes → Ty → Bytes → List Tok → Prop
  | arr {nm nty b ks} : Items o b ks → Nested o nm nty (b!"[" ++ b ++ b!"]")
      (⟨nm, nty, b!"[", .arrayStart⟩ :: (ks ++ [⟨[], .ascii, b!"]", .arrayEnd⟩]))
  | obj {nm nty b ks} : Fields o b ks → Nested o nm nty (b!"{" ++ b ++ b!"}")
      (⟨nm, nty, b!"{", .objectStart⟩ :: ks)

/-- An array element, with what is passed over in front of it. -/
inductive Element (o : Opts) : Kind → Bytes → List Tok → Prop
  | scalar {g k ty d t} : Skip o.comments g → Scalar k ty d t → Element o k (g ++ t) [⟨[], .ascii, d, ty⟩]
  | nested {g t ks} : Skip o.comments g → Nested o [] .ascii t ks → Element o .nested (g ++ t) ks

/-- `Elements o b p ks`: elements, each with its separator; `b` tells whether the last one is an array
or object with a comma. -/
inductive Elements (o : Opts) : Bool → Bytes → List Tok → Prop
  | nil : Elements o false [] []
  | snoc {b p ks k t ls w c x} : Elements o b p ks → Element o k t ls → Behind o k w x → Sep o c x →
      Elements o (c && decide (k = .nested)) (p ++ t ++ w ++ x) (ks ++ ls)

/-- What stands between the brackets of an array. -/
inductive Items (o : Opts) : Bytes → List Tok → Prop
  | last {b p ks k t ls w} : Elements o b p ks → Element o k t ls → Behind o k w [] → Items o (p ++ t ++ w) (ks ++ ls)
  | comma {b p ks g} : Elements o b p ks → (b = true → o.superfluousComma = true) → Skip o.comments g → Items o (p ++ g) ks

/-- A member of an object, with what is passed over in front of it. -/
inductive Member (o : Opts) : Kind → Bytes → List Tok → Prop
  | scalar {g kn nty n tn w g' k ty d t} : Skip o.comments g → Name o kn nty n tn → Behind o kn w [] →
      Skip o.comments g' → Scalar k ty d t → (ty = .ascii → o.ascii = true) →
      Member o k (g ++ tn ++ w ++ b!":" ++ g' ++ t) [⟨n, nty, d, ty⟩]
  | nested {g kn nty n tn w g' t ks} : Skip o.comments g → Name o kn nty n tn → Behind o kn w [] →
      Skip o.comments g' → Nested o n nty t ks → Member o .nested (g ++ tn ++ w ++ b!":" ++ g' ++ t) ks
  | bare {g t ks} : Skip o.comments g → Nested o [] .ascii t ks → Member o .nested (g ++ t) ks

/-- `Members o b p ks`: members, each with its separator; `b` tells whether there is one in the end and it is a comma. -/
inductive Members (o : Opts) : Bool → Bytes → List Tok → Prop
  | nil : Members o false [] []
  | snoc {b p ks k t ls w c x} : Members o b p ks → Member o k t ls → Behind o k w x → Sep o c x →
      Members o c (p ++ t ++ w ++ x) (ks ++ ls)

/-- What stands between the braces of an object. The tokens include the one for the closing brace,
which carries the name that was left without a value. -/
inductive Fields (o : Opts) : Bytes → List Tok → Prop
  | last {b p ks k t ls w} : Members o b p ks → Member o k t ls → Behind o k w [] →
      Fields o (p ++ t ++ w) (ks ++ ls ++ [⟨[], .ascii, b!"}", .objectEnd⟩])
  | comma {b p ks g} : Members o b p ks → (b = true → o.superfluousComma = true) → Skip o.comments g →
      Fields o (p ++ g) (ks ++ [⟨[], .ascii, b!"}", .objectEnd⟩])
  | noValue {b p ks g kn nty n tn w g'} : Members o b p ks → Skip o.comments g → Name o kn nty n tn → Behind o kn w [] →
      Skip o.comments g' → Fields o (p ++ g ++ tn ++ w ++ b!":" ++ g') (ks ++ [⟨n, nty, b!"}", .objectEnd⟩])
end

/-- One document after the other: arrays and objects, nothing between them but what is passed over. -/
inductive Stream (o : Opts) : Bytes → List Tok → Prop
  | nil : Stream o [] []
  | snoc {p ks g t ls} : Stream o p ks → Skip o.comments g → Nested o [] .ascii t ls → Stream o (p ++ g ++ t) (ks ++ ls)

/-- Opening and closing brackets among the tokens. -/
def opens (ks : List Tok) : Nat := ks.countP (fun k => k.valueType == .arrayStart || k.valueType == .objectStart)
def closes (ks : List Tok) : Nat := ks.countP (fun k => k.valueType == .arrayEnd || k.valueType == .objectEnd)

end Lax

end JsonStruct
