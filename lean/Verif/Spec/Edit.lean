import Verif.Spec.Encode
import Verif.Spec.Map

/-
Editing a struct by way of a `JS::Map`: the struct is written, the text is read into a map, members of the map are set, and the map is
written and read into a struct again.
-/

namespace JsonStruct

/-- The declared member `member` is given the value `x`, which is written as `j`. -/
structure Edit (A : Type) where
  member : Entry A
  x : member.M
  j : JVal

/-- In the map: `setValue(name, context, x)` with the name and the type of the member. -/
def Edit.op (e : Edit A) : SetOp := { t := e.member.type, name := e.member.names.headD [], x := e.x, j := e.j }

/-- In the struct: the member is assigned to. -/
def Edit.assign (v : A) (e : Edit A) : A := e.member.set e.x v

/-- What a sequence of assignments makes of the struct. -/
def edited (v : A) (es : List (Edit A)) : A := es.foldl Edit.assign v

/-- No call of the history but the last one is affected by the defect of `setValue`. -/
def SafeButLast : List SetOp → List (Bytes × JVal) → Prop
  | [], _ => True
  | [a], _ => a.Ok
  | a :: as, ms => a.Ok ∧ Replaceable a.name ms ∧ SafeButLast as (setMember a.name a.j ms)

end JsonStruct
