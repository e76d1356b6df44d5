import Verif.Model.Basic

/-
JSON documents, their texts and the tokens that describe them. Written from RFC 8259;
nothing here refers to the tokenizer.
-/

namespace JsonStruct

/-- A JSON document. Numbers and strings are kept as they are written (strings without
their quotes, escapes not decoded). -/
inductive JVal
  | null
  | bool (b : Bool)
  | num (txt : Bytes)
  | str (raw : Bytes)
  | arr (vs : List JVal)
  | obj (ms : List (Bytes × JVal))

/-! ### Texts -/

/-- RFC 8259 section 2: white space. -/
def isWs (c : Byte) : Bool := c == 0x20 || c == 0x09 || c == 0x0A || c == 0x0D

def Ws (w : Bytes) : Prop := ∀ c ∈ w, isWs c = true

def isDigit (c : Byte) : Bool := 0x30 ≤ c && c ≤ 0x39
def isHex (c : Byte) : Bool := isDigit c || (0x41 ≤ c && c ≤ 0x46) || (0x61 ≤ c && c ≤ 0x66)

/-- RFC 8259 section 7: what may stand between the quotes of a string. (Bytes from 0x80
on are parts of UTF-8 sequences; whether they form valid ones does not matter here.) -/
inductive JsonString : Bytes → Prop
  | nil : JsonString []
  | plain {c s} : 0x20 ≤ c → c ≠ 0x22 → c ≠ 0x5C → JsonString s → JsonString (c :: s)
  | esc {c s} : c ∈ b!"\"\\/bfnrt" → JsonString s → JsonString (0x5C :: c :: s)
  | uni {a b c d s} : isHex a → isHex b → isHex c → isHex d → JsonString s →
      JsonString (0x5C :: 0x75 :: a :: b :: c :: d :: s)

/-- A non empty run of digits. -/
def Digits (s : Bytes) : Prop := s ≠ [] ∧ ∀ c ∈ s, isDigit c = true

/-- RFC 8259 section 6: `int = zero / ( digit1-9 *DIGIT )`. -/
def JsonInt (s : Bytes) : Prop := s = b!"0" ∨ (Digits s ∧ s.head? ≠ some 0x30)

/-- RFC 8259 section 6: `[ frac ]`. -/
def JsonFrac (s : Bytes) : Prop := s = [] ∨ ∃ d, s = 0x2E :: d ∧ Digits d

/-- RFC 8259 section 6: `[ exp ]`. -/
def JsonExp (s : Bytes) : Prop :=
  s = [] ∨ ∃ e sign d, s = e :: (sign ++ d) ∧ (e = 0x65 ∨ e = 0x45) ∧
    (sign = [] ∨ sign = b!"+" ∨ sign = b!"-") ∧ Digits d

/-- RFC 8259 section 6: `number = [ minus ] int [ frac ] [ exp ]`. -/
def JsonNumber (s : Bytes) : Prop :=
  ∃ m i f e, s = m ++ i ++ f ++ e ∧ (m = [] ∨ m = b!"-") ∧ JsonInt i ∧ JsonFrac f ∧ JsonExp e

/-- The parts in which JSON dialects differ: string bodies, numbers, what may stand between
tokens, what may stand behind a value, whether a comma may follow the last member of an
object, and behind which last elements of an array. -/
structure Dialect where
  str : Bytes → Prop
  num : Bytes → Prop
  gap : Bytes → Prop
  after : JVal → Bytes → Prop
  trailObj : Prop
  trailArr : JVal → Prop

/-- RFC 8259. -/
def rfc : Dialect :=
  { str := JsonString, num := JsonNumber, gap := Ws, after := fun _ => Ws, trailObj := False, trailArr := fun _ => False }

/-- Line comments: `//` up to and including the new line. A gap is white space and comments. -/
inductive Gap : Bytes → Prop
  | nil : Gap []
  | ws {c w} : isWs c = true → Gap w → Gap (c :: w)
  | comment {body w} : 0x0A ∉ body → Gap w → Gap (0x2F :: 0x2F :: (body ++ 0x0A :: w))

/-- RFC 8259 with line comments wherever white space may stand. -/
def rfcComments : Dialect := { rfc with gap := Gap, after := fun _ => Gap }

/-- RFC 8259 with optional trailing commas. -/
def rfcCommas : Dialect := { rfc with trailObj := True, trailArr := fun _ => True }

mutual
/-- `Text d v t`: the bytes `t`, which begin and end with a token, are a text of `v`. -/
inductive Text (d : Dialect) : JVal → Bytes → Prop
  | null : Text d .null b!"null"
  | tru : Text d (.bool true) b!"true"
  | fls : Text d (.bool false) b!"false"
  | num {n} : d.num n → Text d (.num n) n
  | str {s} : d.str s → Text d (.str s) (0x22 :: (s ++ b!"\""))
  | arrEmpty {w} : d.gap w → Text d (.arr []) (b!"[" ++ w ++ b!"]")
  | arr {vs t} : TextElems d vs t → Text d (.arr vs) (b!"[" ++ t ++ b!"]")
  | objEmpty {w} : d.gap w → Text d (.obj []) (b!"{" ++ w ++ b!"}")
  | obj {ms t} : TextMembers d ms t → Text d (.obj ms) (b!"{" ++ t ++ b!"}")

/-- `element , element , ...` with at least one element. -/
inductive TextElems (d : Dialect) : List JVal → Bytes → Prop
  | one {v t w w'} : d.gap w → Text d v t → d.after v w' → TextElems d [v] (w ++ t ++ w')
  | cons {v t w w' vs ts} : d.gap w → Text d v t → d.after v w' → TextElems d vs ts →
      TextElems d (v :: vs) (w ++ t ++ w' ++ b!"," ++ ts)
  | trail {v t w w' w''} : d.trailArr v → d.gap w → Text d v t → d.after v w' → d.gap w'' →
      TextElems d [v] (w ++ t ++ w' ++ b!"," ++ w'')

/-- `"name" : value , ...` with at least one member. -/
inductive TextMembers (d : Dialect) : List (Bytes × JVal) → Bytes → Prop
  | one {n v t w1 w2 w3 w4} : d.gap w1 → d.str n → d.gap w2 → d.gap w3 → Text d v t → d.after v w4 →
      TextMembers d [(n, v)] (w1 ++ b!"\"" ++ n ++ b!"\"" ++ w2 ++ b!":" ++ w3 ++ t ++ w4)
  | cons {n v t w1 w2 w3 w4 ms ts} : d.gap w1 → d.str n → d.gap w2 → d.gap w3 → Text d v t → d.after v w4 →
      TextMembers d ms ts →
      TextMembers d ((n, v) :: ms) (w1 ++ b!"\"" ++ n ++ b!"\"" ++ w2 ++ b!":" ++ w3 ++ t ++ w4 ++ b!"," ++ ts)
  | trail {n v t w1 w2 w3 w4 w5} : d.trailObj → d.gap w1 → d.str n → d.gap w2 → d.gap w3 → Text d v t →
      d.after v w4 → d.gap w5 →
      TextMembers d [(n, v)] (w1 ++ b!"\"" ++ n ++ b!"\"" ++ w2 ++ b!":" ++ w3 ++ t ++ w4 ++ b!"," ++ w5)
end

/-- An array or an object. -/
def JVal.isContainer : JVal → Bool
  | .arr _ | .obj _ => true
  | _ => false

/-- `Doc d v t`: the text `t`, gaps around it included, is a document with root `v`. -/
def Doc (d : Dialect) (v : JVal) (t : Bytes) : Prop :=
  ∃ w b w', d.gap w ∧ Text d v b ∧ d.after v w' ∧ t = w ++ b ++ w'

/-! ### Tokens -/

mutual
/-- The tokens of a value, the first one carrying the name. -/
def JVal.toks (name : Bytes) (nameType : Ty) : JVal → List Tok
  | .null => [⟨name, nameType, b!"null", .null⟩]
  | .bool true => [⟨name, nameType, b!"true", .bool⟩]
  | .bool false => [⟨name, nameType, b!"false", .bool⟩]
  | .num n => [⟨name, nameType, n, .number⟩]
  | .str s => [⟨name, nameType, s, .string⟩]
  | .arr vs => ⟨name, nameType, b!"[", .arrayStart⟩ :: (elemToks vs ++ [⟨[], .ascii, b!"]", .arrayEnd⟩])
  | .obj ms => ⟨name, nameType, b!"{", .objectStart⟩ :: (memberToks ms ++ [⟨[], .ascii, b!"}", .objectEnd⟩])

/-- Array elements have no name; the library gives them an empty name of type `Ascii`. -/
def elemToks : List JVal → List Tok
  | [] => []
  | v :: vs => v.toks [] .ascii ++ elemToks vs

/-- Members carry their name, of type `String`. -/
def memberToks : List (Bytes × JVal) → List Tok
  | [] => []
  | (n, v) :: ms => v.toks n .string ++ memberToks ms
end

/-- The tokens of a document. -/
def JVal.docToks (v : JVal) : List Tok := v.toks [] .ascii

end JsonStruct
