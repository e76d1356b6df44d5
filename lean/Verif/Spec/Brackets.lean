import Verif.Model.Basic

/- Specification: properly nested brackets. -/

namespace JsonStruct

/-- One token through the bracket automaton: openings are pushed, a closing bracket
must match the innermost open one. -/
def bracketStep (st : List Ty) (ty : Ty) : Option (List Ty) :=
  match ty with
  | .objectStart => some (.objectStart :: st)
  | .arrayStart => some (.arrayStart :: st)
  | .objectEnd => match st with | .objectStart :: r => some r | _ => none
  | .arrayEnd => match st with | .arrayStart :: r => some r | _ => none
  | _ => some st

/-- The brackets open after a sequence of token types (innermost first), or `none` if
some closing bracket had no matching opening one. -/
def openBrackets (tys : List Ty) : Option (List Ty) := tys.foldlM bracketStep []

end JsonStruct
