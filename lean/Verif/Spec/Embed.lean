import Verif.Model.RawType
import Verif.Model.Own

/-
The types of the library among those with raw captures (C90) and those with handlers of users (C88).
-/

namespace JsonStruct

mutual
/-- The same type, as one that could have captures in it: spelled out constructor by constructor, with scalars, captured tokens and `JS::Map` for leaves. -/
def CType.asRaw : {T : Type} → CType T → RType T
  | _, .bool => .lib .bool
  | _, .int I => .lib (.int I)
  | _, .double => .lib .double
  | _, .float => .lib .float
  | _, .time C => .lib (.time C)
  | _, .string m => .lib (.string m)
  | _, .enum names U => .lib (.enum names U)
  | _, .enumValue U => .lib (.enumValue U)
  | _, .nullable t => .nullable t.asRaw
  | _, .nullableChecked t => .nullableChecked t.asRaw
  | _, .optional t => .optional t.asRaw
  | _, .optionalChecked t => .optionalChecked t.asRaw
  | _, .stdOptional t => .stdOptional t.asRaw
  | _, .sharedPtr t => .sharedPtr t.asRaw
  | _, .uniquePtr t => .uniquePtr t.asRaw
  | _, .silentString m => .lib (.silentString m)
  | _, .silentVector t => .silentVector t.asRaw
  | _, .silentUniquePtr t => .silentUniquePtr t.asRaw
  | _, .vector t => .vector t.asRaw
  | _, .oneOrMany t => .oneOrMany t.asRaw
  | _, .array N t => .array N t.asRaw
  | _, .arrayVariable count t => .arrayVariable count t.asRaw
  | _, .tuple ts => .tuple ts.asRaw
  | _, .set eq ins t => .set eq ins t.asRaw
  | _, .map ins t => .map ins t.asRaw
  | _, .tokens => .lib .tokens
  | _, .jmap => .lib .jmap
  | _, .struct init s => .struct init s.asRaw
def CTypes.asRaw : {Ts : Type} → CTypes Ts → RTypes Ts
  | _, .nil => .nil
  | _, .cons t ts => .cons t.asRaw ts.asRaw
def CStruct.asRaw : {T : Type} → CStruct T → RStruct T
  | _, .mk ms ss => .mk ms.asRaw ss.asRaw
def CMembers.asRaw : {T : Type} → CMembers T → RMembers T
  | _, .nil => .nil
  | _, .cons names t get set ms => .cons names t.asRaw get set ms.asRaw
def CSupers.asRaw : {T : Type} → CSupers T → RSupers T
  | _, .nil => .nil
  | _, .cons name get set s ss => .cons name get set s.asRaw ss.asRaw
end

mutual
/-- The same type, as one that could have handlers of users in it: spelled out constructor by constructor, with scalars, captured tokens and `JS::Map` for leaves. -/
def CType.asOwn : {T : Type} → CType T → OType T
  | _, .bool => .lib .bool
  | _, .int I => .lib (.int I)
  | _, .double => .lib .double
  | _, .float => .lib .float
  | _, .time C => .lib (.time C)
  | _, .string m => .lib (.string m)
  | _, .enum names U => .lib (.enum names U)
  | _, .enumValue U => .lib (.enumValue U)
  | _, .nullable t => .nullable t.asOwn
  | _, .nullableChecked t => .nullableChecked t.asOwn
  | _, .optional t => .optional t.asOwn
  | _, .optionalChecked t => .optionalChecked t.asOwn
  | _, .stdOptional t => .stdOptional t.asOwn
  | _, .sharedPtr t => .sharedPtr t.asOwn
  | _, .uniquePtr t => .uniquePtr t.asOwn
  | _, .silentString m => .lib (.silentString m)
  | _, .silentVector t => .silentVector t.asOwn
  | _, .silentUniquePtr t => .silentUniquePtr t.asOwn
  | _, .vector t => .vector t.asOwn
  | _, .oneOrMany t => .oneOrMany t.asOwn
  | _, .array N t => .array N t.asOwn
  | _, .arrayVariable count t => .arrayVariable count t.asOwn
  | _, .tuple ts => .tuple ts.asOwn
  | _, .set eq ins t => .set eq ins t.asOwn
  | _, .map ins t => .map ins t.asOwn
  | _, .tokens => .lib .tokens
  | _, .jmap => .lib .jmap
  | _, .struct init s => .struct init s.asOwn
def CTypes.asOwn : {Ts : Type} → CTypes Ts → OTypes Ts
  | _, .nil => .nil
  | _, .cons t ts => .cons t.asOwn ts.asOwn
def CStruct.asOwn : {T : Type} → CStruct T → OStruct T
  | _, .mk ms ss => .mk ms.asOwn ss.asOwn
def CMembers.asOwn : {T : Type} → CMembers T → OMembers T
  | _, .nil => .nil
  | _, .cons names t get set ms => .cons names t.asOwn get set ms.asOwn
def CSupers.asOwn : {T : Type} → CSupers T → OSupers T
  | _, .nil => .nil
  | _, .cons name get set s ss => .cons name get set s.asOwn ss.asOwn
end

end JsonStruct
