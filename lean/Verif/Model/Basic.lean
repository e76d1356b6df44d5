/-
Basic vocabulary of the model: bytes, token types, errors, tokens and the
character classification table.

"JSH" is /repo/include/json_struct/json_struct.h.
-/

namespace JsonStruct

/-- A `char` of the input, seen as `unsigned char` (JSH casts to `unsigned char`
before every table lookup). -/
abbrev Byte := UInt8

/-- JSH 272-320, the bytes of a `DataRef`, and what `addData` (1626-1629) is given:
A buffer or a string. Sizes are unbounded naturals: `size_t` overflow is not
modelled (no buffer has `2^64` bytes). -/
abbrev Bytes := List UInt8

/-- JSH 322-335, `enum class Type`. -/
inductive Ty
  | error | string | ascii | number | objectStart | objectEnd | arrayStart | arrayEnd
  | bool | null | verbatim
  deriving DecidableEq, Repr, Inhabited

/-- JSH 1273-1306, `enum class Error`. `ub` is not an enumerator: it is the
model's outcome for a call whose behaviour C++ leaves undefined. -/
inductive Err
  | noError | needMoreData | invalidToken | expectedPropertyName | expectedDelimiter
  | expectedDataToken | expectedObjectStart | expectedObjectEnd | expectedArrayStart
  | expectedArrayEnd | unexpectedArrayEnd | unexpectedObjectEnd | illegalPropertyName
  | illegalPropertyType | illegalDataValue | encounteredIllegalChar | nodeNotFound
  | missingPropertyMember | missingFunction | failedToParseBoolean | failedToParseDouble
  | failedToParseFloat | failedToParseInt | unassignedRequiredMember | nonContigiousMemory
  | scopeHasEnded | keyNotFound | duplicateInSet | unknownPropertyMember | unknownError
  | userDefinedErrors
  | ub
  deriving DecidableEq, Repr, Inhabited

/-- JSH 272-320, `DataRef::data`, a pointer: Where the bytes of a `DataRef` live. `input off`: at offset `off` of the
tokenizer's current buffer; `own`: in the tokenizer's `intermediate_token`;
`lit`: anywhere else (string literals, user strings). -/
inductive Loc
  | input (off : Nat)
  | own
  | lit
  deriving DecidableEq, Repr, Inhabited

/-- JSH 272-320, `struct DataRef`: pointer and size. The model keeps the bytes
pointed at and the place they are at. -/
structure DataRef where
  loc : Loc := .lit
  bytes : Bytes := []
  deriving DecidableEq, Repr, Inhabited

/-- JSH 337-345 and 1576-1582, `struct Token` and its default constructor. -/
structure Token where
  name : DataRef := {}
  value : DataRef := {}
  nameType : Ty := .string
  valueType : Ty := .string
  deriving DecidableEq, Repr, Inhabited

/-- JSH 337-345, `struct Token`: A token with the addresses forgotten: what a user reads from it. -/
structure Tok where
  name : Bytes := []
  nameType : Ty := .string
  value : Bytes := []
  valueType : Ty := .string
  deriving DecidableEq, Repr, Inhabited

/-- JSH 337-345, `struct Token`: Contents of a token. -/
def Token.tok (t : Token) : Tok :=
  { name := t.name.bytes, nameType := t.nameType, value := t.value.bytes, valueType := t.valueType }

/-- `b!"text"` is the list of the UTF-8 bytes of the text, written out. -/
macro:max "b!" s:str : term => do
  let bs := s.getString.toUTF8.toList.toArray.map (fun b => Lean.Syntax.mkNumLit (toString b.toNat))
  `(([$[$bs],*] : List UInt8))

/-! ### Character codes

JSH 2158-2263 (`findStartOfNextValue`), 2296-2345 (`findDelimiter`), 2378-2424 (`findTokenEnd`), 2427-2472
(`skipComment`), 7901-8017 (`parseNumber`), 3215-3337 (`Serializer::write`): the characters compared with or written. -/

/-- JSH 448: `'"'`. -/
abbrev QUOTE : UInt8 := 34
/-- JSH 449: `'\\'`. -/
abbrev BSL : UInt8 := 92
/-- JSH 2160-2194: `'{'`. -/
abbrev LBRACE : UInt8 := 123
/-- JSH 2160-2194: `'}'`. -/
abbrev RBRACE : UInt8 := 125
/-- JSH 2160-2194: `'['`. -/
abbrev LBRACK : UInt8 := 91
/-- JSH 2160-2194: `']'`. -/
abbrev RBRACK : UInt8 := 93
/-- JSH 2378-2424: `','`. -/
abbrev COMMA : UInt8 := 44
/-- JSH 2296-2345: `':'`. -/
abbrev COLON : UInt8 := 58
/-- JSH 2427-2472: `'/'`. -/
abbrev SLASH : UInt8 := 47
/-- JSH 1044: `'\n'`. -/
abbrev LF : UInt8 := 10
/-- JSH 1044: `'\r'`. -/
abbrev CR : UInt8 := 13
/-- JSH 1044: `'\t'`. -/
abbrev TAB : UInt8 := 9
/-- JSH 1044: `' '`. -/
abbrev SPACE : UInt8 := 32
/-- JSH 520: `'-'`. -/
abbrev MINUS : UInt8 := 45
/-- JSH 520: `'+'`. -/
abbrev PLUS : UInt8 := 43
/-- JSH 520: `'.'`. -/
abbrev DOT : UInt8 := 46

/-- JSH 391-423, `lookup_table`. -/
def lookupTable : List Nat :=
  [ 4, 0, 0, 0, 0, 0, 0, 0,
    0, 4, 4, 0, 0, 4, 0, 0,
    0, 0, 0, 0, 0, 0, 0, 0,
    0, 0, 0, 0, 0, 0, 0, 0,
    4, 0, 1, 0, 0, 0, 0, 0,
    0, 0, 0, 72, 0, 104, 96, 32,
    80, 80, 80, 80, 80, 80, 80, 80,
    80, 80, 0, 0, 0, 0, 0, 0,
    0, 2, 2, 2, 2, 66, 2, 2,
    2, 2, 2, 2, 2, 2, 2, 2,
    2, 2, 2, 2, 2, 2, 2, 2,
    2, 2, 2, 0, 1, 0, 32, 32,
    32, 2, 2, 2, 2, 66, 2, 2,
    2, 2, 2, 2, 2, 2, 2, 2,
    2, 2, 2, 2, 2, 2, 2, 2,
    2, 2, 2, 0, 0, 0, 0, 0 ]
    -- entries 128..255 are all 0: `lookup` below returns 0 past the end of the list

/-- JSH 425-428, `lookup()[(unsigned char)c]`. -/
def lookup (c : Byte) : Nat := lookupTable.getD c.toNat 0

/-! JSH 379-388, `enum Lookup`. -/

/-- JSH 379-388: `StrEndOrBackSlash`. -/
def flStrEnd : Nat := 1
/-- JSH 379-388: `AsciiLetters`. -/
def flAscii : Nat := 2
/-- JSH 379-388: `WhiteSpaceOrNull`. -/
def flWs : Nat := 4
/-- JSH 379-388: `PlusOrMinus`. -/
def flPlusMinus : Nat := 8
/-- JSH 379-388: `Digits`. -/
def flDigits : Nat := 16
/-- JSH 379-388: `HatUnderscoreAprostoph`. -/
def flHat : Nat := 32
/-- JSH 379-388: `NumberEnd`. -/
def flNumberEnd : Nat := 64

/-- JSH 2056, 2117, 2340, 2414: `lookup()[c] & flags` as a truth value. -/
def has (c : Byte) (flags : Nat) : Bool := (lookup c &&& flags) != 0

/-- Which vector instruction set the library was compiled for (JSH 187-212: the
`JSON_STRUCT_HAS_*` macros; AVX2 builds also use the SSE2 scanners). `sse42` is SSE2 plus SSE4.2. -/
inductive Simd
  | scalar | sse2 | sse42 | avx2 | neon
  deriving DecidableEq, Repr, Inhabited

/-- The user settable options (JSH 1607-1625) and the build variant. -/
structure Opts where
  ascii : Bool := false
  newLines : Bool := false
  superfluousComma : Bool := false
  comments : Bool := false
  simd : Simd := .scalar
  deriving DecidableEq, Repr, Inhabited

end JsonStruct
