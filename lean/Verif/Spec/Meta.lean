import Verif.Spec.Json
import Verif.Model.Map

/-
What the metadata of a token list should say.
-/

namespace JsonStruct

/-- The direct children of a value. -/
def JVal.kids : JVal → List JVal
  | .arr vs => vs
  | .obj ms => ms.map Prod.snd
  | _ => []

mutual
/-- The arrays and objects in a value, itself included, in the order of their opening brackets, each with the index of
its opening bracket among the tokens, if the tokens of the value start at index `i`. -/
def JVal.containersAt (i : Nat) : JVal → List (Nat × JVal)
  | .arr vs => (i, .arr vs) :: elemContainersAt (i + 1) vs
  | .obj ms => (i, .obj ms) :: memberContainersAt (i + 1) ms
  | _ => []
def elemContainersAt (i : Nat) : List JVal → List (Nat × JVal)
  | [] => []
  | v :: vs => v.containersAt i ++ elemContainersAt (i + v.docToks.length) vs
def memberContainersAt (i : Nat) : List (Bytes × JVal) → List (Nat × JVal)
  | [] => []
  | (_, v) :: ms => v.containersAt i ++ memberContainersAt (i + v.docToks.length) ms
end

/-- The arrays and objects of a document. -/
def JVal.containers (v : JVal) : List (Nat × JVal) := v.containersAt 0

/-- A token that is no bracket. -/
def Tok.isScalar (k : Tok) : Bool :=
  k.valueType ≠ .arrayStart && k.valueType ≠ .objectStart && k.valueType ≠ .arrayEnd && k.valueType ≠ .objectEnd

/-- The entry for an array or object whose opening bracket has index `i`. -/
def metaOf (e : Nat × JVal) : JMeta where
  position := e.1
  size := e.2.docToks.length
  skip := e.2.containers.length
  children := e.2.kids.length
  complexChildren := (e.2.kids.filter JVal.isContainer).length
  isArray := match e.2 with | .arr _ => true | _ => false
  hasData := e.2.docToks.any Tok.isScalar

end JsonStruct
