import Verif.Spec.Types

/-
The shape of a type: which JSON values it may be read from, looking at brackets only.
-/

namespace JsonStruct

mutual
/-- The JSON value has the shape of the type, at every depth. -/
def CType.Fits : {T : Type} → CType T → JVal → Prop
  | _, .bool, v | _, .int _, v | _, .double, v | _, .float, v | _, .time _, v | _, .string _, v | _, .silentString _, v | _, .enum _ _, v | _, .enumValue _, v => v.isContainer = false
  | _, .nullable t, v | _, .nullableChecked t, v | _, .sharedPtr t, v | _, .uniquePtr t, v | _, .silentUniquePtr t, v => v = .null ∨ t.Fits v
  | _, .optional t, v | _, .optionalChecked t, v | _, .stdOptional t, v => t.Fits v
  | _, .vector t, v | _, .silentVector t, v | _, .array _ t, v | _, .arrayVariable _ t, v | _, .set _ _ t, v =>
    ∃ vs, v = .arr vs ∧ ∀ w ∈ vs, t.Fits w
  | _, .oneOrMany t, v => (∃ vs, v = .arr vs ∧ ∀ w ∈ vs, t.Fits w) ∨ t.Fits v
  | _, .tuple ts, v => ∃ vs, v = .arr vs ∧ ts.Fits vs
  | _, .map _ t, v => ∃ ms, v = .obj ms ∧ ∀ e ∈ ms, t.Fits e.2
  | _, .tokens, _ | _, .jmap, _ => True
  | _, .struct _ s, v => ∃ ms, v = .obj ms ∧ ∀ e ∈ ms, s.Knows e.1 → s.Takes e.1 e.2
/-- The elements of a tuple, one by one. -/
def CTypes.Fits : {Ts : Type} → CTypes Ts → List JVal → Prop
  | _, .nil, vs => vs = []
  | _, .cons t ts, vs => ∃ w ws, vs = w :: ws ∧ t.Fits w ∧ ts.Fits ws
/-- Some member has the name. -/
def CStruct.Knows : {T : Type} → CStruct T → Bytes → Prop
  | _, .mk ms ss, n => ms.Knows n ∨ ss.Knows n
def CMembers.Knows : {T : Type} → CMembers T → Bytes → Prop
  | _, .nil, _ => False
  | _, .cons names _ _ _ ms, n => n ∈ names ∨ ms.Knows n
def CSupers.Knows : {T : Type} → CSupers T → Bytes → Prop
  | _, .nil, _ => False
  | _, .cons _ _ _ s ss, n => s.Knows n ∨ ss.Knows n
/-- Some member has the name, and the value has the shape of its type. -/
def CStruct.Takes : {T : Type} → CStruct T → Bytes → JVal → Prop
  | _, .mk ms ss, n, v => ms.Takes n v ∨ ss.Takes n v
def CMembers.Takes : {T : Type} → CMembers T → Bytes → JVal → Prop
  | _, .nil, _, _ => False
  | _, .cons names t _ _ ms, n, v => (n ∈ names ∧ t.Fits v) ∨ ms.Takes n v
def CSupers.Takes : {T : Type} → CSupers T → Bytes → JVal → Prop
  | _, .nil, _, _ => False
  | _, .cons _ _ _ s ss, n, v => s.Takes n v ∨ ss.Takes n v
end

end JsonStruct
