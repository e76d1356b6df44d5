import Verif.Spec.Encode

/-
Specification for C19 and C01: which members may be absent, and which types have no member that is required but may be left out when
written.
-/

namespace JsonStruct

/-- The types whose members need not be mentioned: `Optional`, `OptionalChecked`, `std::optional`, `std::unique_ptr`,
`SilentString`, `SilentVector` and `SilentUniquePtr`. -/
def CType.MayBeAbsent : CType T → Prop
  | .optional _ | .optionalChecked _ | .stdOptional _ | .uniquePtr _ | .silentString _ | .silentVector _ | .silentUniquePtr _ => True
  | .bool | .int _ | .double | .float | .time _ | .string _ | .enum _ _ | .enumValue _ | .nullable _ | .nullableChecked _ | .sharedPtr _
  | .vector _ | .oneOrMany _ | .array _ _ | .arrayVariable _ _ | .tuple _ | .set _ _ _ | .map _ _ | .tokens | .jmap | .struct _ _ => False

mutual
/-- Every member, of every struct in the type, may be absent or is always written. (Not so a member of type `OneOrMany`: nothing is
written for an empty one.) -/
def CType.WritesRequired : {T : Type} → CType T → Prop
  | _, .nullable t | _, .nullableChecked t | _, .optional t | _, .optionalChecked t | _, .stdOptional t | _, .sharedPtr t
  | _, .uniquePtr t | _, .silentVector t | _, .silentUniquePtr t | _, .vector t | _, .oneOrMany t | _, .array _ t
  | _, .arrayVariable _ t | _, .set _ _ t | _, .map _ t => t.WritesRequired
  | _, .tuple ts => ts.WritesRequired
  | _, .struct _ s => s.WritesRequired
  | _, _ => True
def CTypes.WritesRequired : {Ts : Type} → CTypes Ts → Prop
  | _, .nil => True
  | _, .cons t ts => t.WritesRequired ∧ ts.WritesRequired
def CStruct.WritesRequired : {T : Type} → CStruct T → Prop
  | _, .mk ms ss => ms.WritesRequired ∧ ss.WritesRequired
def CMembers.WritesRequired : {T : Type} → CMembers T → Prop
  | _, .nil => True
  | _, .cons _ t _ _ ms => ((t.MayBeAbsent ∨ ∀ v, t.Valid v → (t.enc v).isSome) ∧ t.WritesRequired) ∧ ms.WritesRequired
def CSupers.WritesRequired : {T : Type} → CSupers T → Prop
  | _, .nil => True
  | _, .cons _ _ _ s ss => s.WritesRequired ∧ ss.WritesRequired
end

end JsonStruct
