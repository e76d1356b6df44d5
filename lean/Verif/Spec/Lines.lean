import Verif.Spec.Json

/-
Texts in which line breaks separate the elements of arrays and the members of objects, as with
`allowNewLineAsTokenDelimiter`. Written from the description of that option; nothing here refers to
the tokenizer.
-/

namespace JsonStruct

namespace Lines

/-- White space other than the line break. -/
def Blanks (w : Bytes) : Prop := ∀ c ∈ w, isWs c = true ∧ c ≠ 0x0A

/-- White space, and comments with `cm`. -/
def Space (cm : Bool) (w : Bytes) : Prop := if cm then Gap w else Ws w

/-- A line break; with `cm` a comment may stand in front of it. -/
inductive Break (cm : Bool) : Bytes → Prop
  | plain : Break cm b!"\n"
  | comment {body} : cm = true → 0x0A ∉ body → Break cm (0x2F :: 0x2F :: (body ++ b!"\n"))

/-- A comment may not follow directly behind one of the words `null`, `true`, `false`. -/
def NoComment (v : JVal) (s : Bytes) : Prop := v matches .null | .bool _ → s.head? ≠ some 0x2F

mutual
/-- `LText d cm v t`: the bytes `t`, which begin and end with a token, are a text of `v`. Only the strings
and numbers of the dialect matter. -/
inductive LText (d : Dialect) (cm : Bool) : JVal → Bytes → Prop
  | null : LText d cm .null b!"null"
  | tru : LText d cm (.bool true) b!"true"
  | fls : LText d cm (.bool false) b!"false"
  | num {n} : d.num n → LText d cm (.num n) n
  | str {s} : d.str s → LText d cm (.str s) (0x22 :: (s ++ b!"\""))
  | arr {vs t} : LElems d cm vs t → LText d cm (.arr vs) (b!"[" ++ t ++ b!"]")
  | obj {ms t} : LMembers d cm ms t → LText d cm (.obj ms) (b!"{" ++ t ++ b!"}")

/-- Between the brackets of an array: elements separated by commas or line breaks. A line break, but
no comma, may follow the last one. -/
inductive LElems (d : Dialect) (cm : Bool) : List JVal → Bytes → Prop
  | nil {w} : Space cm w → LElems d cm [] w
  | last {w v t w'} : Space cm w → LText d cm v t → Blanks w' → LElems d cm [v] (w ++ t ++ w')
  | comma {w v t w' v' vs ts} : Space cm w → LText d cm v t → Blanks w' → LElems d cm (v' :: vs) ts →
      LElems d cm (v :: v' :: vs) (w ++ t ++ w' ++ b!"," ++ ts)
  | line {w v t w' x vs ts} : Space cm w → LText d cm v t → Blanks w' → Break cm x → NoComment v (w' ++ x) → LElems d cm vs ts →
      LElems d cm (v :: vs) (w ++ t ++ w' ++ x ++ ts)

/-- Between the braces of an object. -/
inductive LMembers (d : Dialect) (cm : Bool) : List (Bytes × JVal) → Bytes → Prop
  | nil {w} : Space cm w → LMembers d cm [] w
  | last {n w1 w2 w3 v t w'} : Space cm w1 → d.str n → Blanks w2 → Space cm w3 → LText d cm v t → Blanks w' →
      LMembers d cm [(n, v)] (w1 ++ b!"\"" ++ n ++ b!"\"" ++ w2 ++ b!":" ++ w3 ++ t ++ w')
  | comma {n w1 w2 w3 v t w' m ms ts} : Space cm w1 → d.str n → Blanks w2 → Space cm w3 → LText d cm v t → Blanks w' →
      LMembers d cm (m :: ms) ts →
      LMembers d cm ((n, v) :: m :: ms) (w1 ++ b!"\"" ++ n ++ b!"\"" ++ w2 ++ b!":" ++ w3 ++ t ++ w' ++ b!"," ++ ts)
  | line {n w1 w2 w3 v t w' x ms ts} : Space cm w1 → d.str n → Blanks w2 → Space cm w3 → LText d cm v t → Blanks w' →
      Break cm x → NoComment v (w' ++ x) → LMembers d cm ms ts →
      LMembers d cm ((n, v) :: ms) (w1 ++ b!"\"" ++ n ++ b!"\"" ++ w2 ++ b!":" ++ w3 ++ t ++ w' ++ x ++ ts)
end

/-- A document: an array or object with anything that may stand between tokens around it. -/
def LDoc (d : Dialect) (cm : Bool) (v : JVal) (t : Bytes) : Prop :=
  ∃ w b w', Space cm w ∧ LText d cm v b ∧ Space cm w' ∧ t = w ++ b ++ w'

end Lines

end JsonStruct
