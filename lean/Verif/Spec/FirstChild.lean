import Verif.Spec.Map
import Verif.Model.MapWhole

/-
What looking for a child with data should find, and reading a map as a whole.
-/

namespace JsonStruct

mutual
/-- The value is a string, number, `true`, `false` or `null`, or contains one at any depth. -/
def JVal.holdsScalar : JVal → Bool
  | .arr vs => elemsHoldScalar vs
  | .obj ms => membersHoldScalar ms
  | _ => true
def elemsHoldScalar : List JVal → Bool
  | [] => false
  | v :: vs => v.holdsScalar || elemsHoldScalar vs
def membersHoldScalar : List (Bytes × JVal) → Bool
  | [] => false
  | (_, v) :: ms => v.holdsScalar || membersHoldScalar ms
end

/-- Of the arrays and objects directly inside of a value, the index of the first that contains a scalar. -/
def JVal.firstWithData (v : JVal) : Option Nat := (v.kids.filter JVal.isContainer).findIdx? JVal.holdsScalar

/-- `castToType(context, to)`, which reads the whole map, ends, whatever bound is put on its loops as long as it is large enough; it
returns `r.err`, leaves `r.val` in the variable, and adds `r.missing` and `r.unassigned` to the reports of the context. -/
def JMap.CastsAll (m : JMap) (h : Handler T) (c : Ctx) (old : T) (r : Res T) : Prop :=
  ∃ N c', (∀ n, N ≤ n → m.castAll h n c old = some (r.err, r.val, c')) ∧ c'.missing = c.missing ++ r.missing ∧
    c'.unassigned = c.unassigned ++ r.unassigned

end JsonStruct
