import Verif.Spec.Alike

/-
Which types can be read without undefined operations.
-/

namespace JsonStruct

mutual
/-- If the texts of all values are in `P`, reading the type is defined: no floating point number and no time point in it has an
undefined conversion of such a text, and there is no `JS::Map` in it. -/
def CType.DefinedOn (P : Bytes → Prop) : {T : Type} → CType T → Prop
  | _, .double => ∀ s, P s → (doubleTo s).isSome
  | _, .float => ∀ s, P s → (floatTo s).isSome
  | _, .time C => ∀ s, P s → ∀ old, (timeTo C old s).1 ≠ .ub
  | _, .jmap => False
  | _, .nullable t | _, .nullableChecked t | _, .optional t | _, .optionalChecked t | _, .stdOptional t | _, .sharedPtr t
  | _, .uniquePtr t | _, .silentVector t | _, .silentUniquePtr t | _, .vector t | _, .oneOrMany t | _, .array _ t
  | _, .arrayVariable _ t | _, .set _ _ t | _, .map _ t => t.DefinedOn P
  | _, .tuple ts => ts.DefinedOn P
  | _, .struct _ s => s.DefinedOn P
  | _, .bool | _, .int _ | _, .string _ | _, .enum _ _ | _, .enumValue _ | _, .silentString _ | _, .tokens => True
def CTypes.DefinedOn (P : Bytes → Prop) : {Ts : Type} → CTypes Ts → Prop
  | _, .nil => True
  | _, .cons t ts => t.DefinedOn P ∧ ts.DefinedOn P
def CStruct.DefinedOn (P : Bytes → Prop) : {T : Type} → CStruct T → Prop
  | _, .mk ms ss => ms.DefinedOn P ∧ ss.DefinedOn P
def CMembers.DefinedOn (P : Bytes → Prop) : {T : Type} → CMembers T → Prop
  | _, .nil => True
  | _, .cons _ t _ _ ms => t.DefinedOn P ∧ ms.DefinedOn P
def CSupers.DefinedOn (P : Bytes → Prop) : {T : Type} → CSupers T → Prop
  | _, .nil => True
  | _, .cons _ _ _ s ss => s.DefinedOn P ∧ ss.DefinedOn P
end

end JsonStruct
