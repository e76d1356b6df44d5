import Verif.Spec.Json

/- More about JSON values: when their strings and numbers are well formed, how deep they nest. -/

namespace JsonStruct

mutual
/-- All numbers, strings and names of the value are those of the dialect. -/
def JVal.WF (d : Dialect) : JVal → Prop
  | .null | .bool _ => True
  | .num n => d.num n
  | .str s => d.str s
  | .arr vs => elemsWF d vs
  | .obj ms => membersWF d ms
def elemsWF (d : Dialect) : List JVal → Prop
  | [] => True
  | v :: vs => v.WF d ∧ elemsWF d vs
def membersWF (d : Dialect) : List (Bytes × JVal) → Prop
  | [] => True
  | (n, v) :: ms => d.str n ∧ v.WF d ∧ membersWF d ms
end

mutual
/-- How many brackets are open at most. -/
def JVal.depth : JVal → Nat
  | .arr vs => elemsDepth vs + 1
  | .obj ms => membersDepth ms + 1
  | _ => 0
def elemsDepth : List JVal → Nat
  | [] => 0
  | v :: vs => max v.depth (elemsDepth vs)
def membersDepth : List (Bytes × JVal) → Nat
  | [] => 0
  | (_, v) :: ms => max v.depth (membersDepth ms)
end

mutual
/-- No object in the value has a member whose name is the empty string. -/
def JVal.Named : JVal → Prop
  | .arr vs => elemsNamed vs
  | .obj ms => membersNamed ms
  | _ => True
def elemsNamed : List JVal → Prop
  | [] => True
  | v :: vs => v.Named ∧ elemsNamed vs
def membersNamed : List (Bytes × JVal) → Prop
  | [] => True
  | (n, v) :: ms => n ≠ [] ∧ v.Named ∧ membersNamed ms
end

mutual
/-- The text of a value without any white space. -/
def JVal.compact : JVal → Bytes
  | .null => b!"null"
  | .bool true => b!"true"
  | .bool false => b!"false"
  | .num n => n
  | .str s => b!"\"" ++ s ++ b!"\""
  | .arr vs => b!"[" ++ elemsCompact vs ++ b!"]"
  | .obj ms => b!"{" ++ membersCompact ms ++ b!"}"
def elemsCompact : List JVal → Bytes
  | [] => []
  | [v] => v.compact
  | v :: v' :: vs => v.compact ++ b!"," ++ elemsCompact (v' :: vs)
def membersCompact : List (Bytes × JVal) → Bytes
  | [] => []
  | [(n, v)] => b!"\"" ++ n ++ b!"\":" ++ v.compact
  | (n, v) :: m :: ms => b!"\"" ++ n ++ b!"\":" ++ v.compact ++ b!"," ++ membersCompact (m :: ms)
end

/-- Removing the white space outside of string literals. The first argument tells where in
the text we are: outside of a literal, inside, or inside behind a backslash. -/
inductive StripSt | outside | inside | escaped
def strip : StripSt → Bytes → Bytes
  | _, [] => []
  | .outside, c :: s => if isWs c then strip .outside s else c :: strip (if c = 0x22 then .inside else .outside) s
  | .inside, c :: s => c :: strip (if c = 0x22 then .outside else if c = 0x5C then .escaped else .inside) s
  | .escaped, c :: s => c :: strip .inside s

/-- The text without its insignificant white space. -/
def withoutWs (t : Bytes) : Bytes := strip .outside t

end JsonStruct
