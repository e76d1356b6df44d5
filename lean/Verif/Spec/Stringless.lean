import Verif.Spec.Types

/-
Types whose values contain no strings and no raw tokens. The handlers of these two take any token, even a bracket; all
others reject what is not a value of theirs.
-/

namespace JsonStruct

mutual
/-- No `std::string`, no `std::vector<Token>`, no `JS::Map`. (Names of members and keys of maps do not matter.) -/
def CType.Stringless : {T : Type} → CType T → Prop
  | _, .string _ | _, .silentString _ | _, .tokens | _, .jmap => False
  | _, .nullable t | _, .nullableChecked t | _, .optional t | _, .optionalChecked t | _, .stdOptional t | _, .sharedPtr t
  | _, .uniquePtr t | _, .silentVector t | _, .silentUniquePtr t | _, .vector t | _, .oneOrMany t | _, .array _ t
  | _, .arrayVariable _ t | _, .set _ _ t | _, .map _ t => t.Stringless
  | _, .tuple ts => ts.Stringless
  | _, .struct _ s => s.Stringless
  | _, _ => True
def CTypes.Stringless : {Ts : Type} → CTypes Ts → Prop
  | _, .nil => True
  | _, .cons t ts => t.Stringless ∧ ts.Stringless
def CStruct.Stringless : {T : Type} → CStruct T → Prop
  | _, .mk ms ss => ms.Stringless ∧ ss.Stringless
def CMembers.Stringless : {T : Type} → CMembers T → Prop
  | _, .nil => True
  | _, .cons _ t _ _ ms => t.Stringless ∧ ms.Stringless
def CSupers.Stringless : {T : Type} → CSupers T → Prop
  | _, .nil => True
  | _, .cons _ _ _ s ss => s.Stringless ∧ ss.Stringless
end

end JsonStruct
