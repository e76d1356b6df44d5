import Verif.Model.Basic

/-
The names of an enumeration declared with `JS_ENUM`: the macro turns its arguments into a
string literal, and `populateEnumNames` cuts the names out of it (JSH 5557-5620).
-/

namespace JsonStruct

/-- JSH 5560-5565 `ParseEnumStringState`. `name` holds the bytes since `name_starts_at`, the last first. -/
inductive EnumScan where
  | findStart
  | findEnd (name : Bytes)
  | findSep
  deriving DecidableEq, Repr

/-- JSH 5578. -/
def isLetter (c : UInt8) : Bool := (0x41 ≤ c && c ≤ 0x5A) || (0x61 ≤ c && c ≤ 0x7A)

/-- JSH 5585: does the byte end a name? -/
def endsName (c : UInt8) : Bool := c = 0 || c = TAB || c = LF || c = CR || c = SPACE || c = COMMA

/-- JSH 5571-5595: one round of the loop: the name it appends, and the new state. -/
def EnumScan.step : EnumScan → UInt8 → List Bytes × EnumScan
  | .findStart, c => if isLetter c then ([], .findEnd [c]) else ([], .findStart)
  | .findEnd name, c =>
    if endsName c then ([name.reverse], if c = COMMA then .findStart else .findSep) else ([], .findEnd (c :: name))
  | .findSep, c => if c = COMMA then ([], .findStart) else ([], .findSep)

/-- JSH 5571: the loop over the characters of the literal, the last of which is NUL. `none` if the assertion of 5574 fails. -/
def enumScan : EnumScan → Bytes → Option (List Bytes)
  | _, [] => some []
  | s, c :: rest =>
    if c = 0x3D then none
    else (enumScan (s.step c).2 rest).map ((s.step c).1 ++ ·)

/-- JSH 5566-5597 `populateEnumNames`; `data` is the literal without the NUL at its end. -/
def populateEnumNames (data : Bytes) : Option (List Bytes) := enumScan .findStart (data ++ [0])

end JsonStruct
