import Verif.Spec.Embed

/- Spelled out or not, it is the same handler. -/

namespace JsonStruct

theorem asRaw_isOptional (t : CType T) : t.asRaw.isOptional = t.isOptional := by
  cases t <;> rfl

mutual
theorem CType.asRaw_handler : {T : Type} → (t : CType T) → t.asRaw.build rawH = t.handler
  | _, .bool | _, .int _ | _, .double | _, .float | _, .time _ | _, .string _ | _, .enum _ _ | _, .enumValue _ | _, .silentString _ | _, .tokens | _, .jmap => by
    simp only [CType.asRaw, RType.build]
  | _, .nullable t => by simp only [CType.asRaw, RType.build, CType.handler, t.asRaw_handler]
  | _, .nullableChecked t => by simp only [CType.asRaw, RType.build, CType.handler, t.asRaw_handler]
  | _, .optional t => by simp only [CType.asRaw, RType.build, CType.handler, t.asRaw_handler]
  | _, .optionalChecked t => by simp only [CType.asRaw, RType.build, CType.handler, t.asRaw_handler]
  | _, .stdOptional t => by simp only [CType.asRaw, RType.build, CType.handler, t.asRaw_handler]
  | _, .sharedPtr t => by simp only [CType.asRaw, RType.build, CType.handler, t.asRaw_handler]
  | _, .uniquePtr t => by simp only [CType.asRaw, RType.build, CType.handler, t.asRaw_handler]
  | _, .silentVector t => by simp only [CType.asRaw, RType.build, CType.handler, t.asRaw_handler]
  | _, .silentUniquePtr t => by simp only [CType.asRaw, RType.build, CType.handler, t.asRaw_handler]
  | _, .vector t => by simp only [CType.asRaw, RType.build, CType.handler, t.asRaw_handler]
  | _, .oneOrMany t => by simp only [CType.asRaw, RType.build, CType.handler, t.asRaw_handler]
  | _, .array _ t => by simp only [CType.asRaw, RType.build, CType.handler, t.asRaw_handler]
  | _, .arrayVariable _ t => by simp only [CType.asRaw, RType.build, CType.handler, t.asRaw_handler]
  | _, .tuple ts => by simp only [CType.asRaw, RType.build, CType.handler, ts.asRaw_handler]
  | _, .set _ _ t => by simp only [CType.asRaw, RType.build, CType.handler, t.asRaw_handler]
  | _, .map _ t => by simp only [CType.asRaw, RType.build, CType.handler, t.asRaw_handler]
  | _, .struct _ s => by simp only [CType.asRaw, RType.build, CType.handler, s.asRaw_meta]
theorem CTypes.asRaw_handler : {Ts : Type} → (ts : CTypes Ts) → ts.asRaw.build rawH = ts.handler
  | _, .nil => by simp only [CTypes.asRaw, RTypes.build, CTypes.handler]
  | _, .cons t ts => by simp only [CTypes.asRaw, RTypes.build, CTypes.handler, t.asRaw_handler, ts.asRaw_handler]
theorem CStruct.asRaw_meta : {T : Type} → (s : CStruct T) → s.asRaw.meta rawH = s.meta
  | _, .mk ms ss => by simp only [CStruct.asRaw, RStruct.meta, CStruct.meta, ms.asRaw_members, ss.asRaw_supers]
theorem CMembers.asRaw_members : {T : Type} → (ms : CMembers T) → ms.asRaw.members rawH = ms.members
  | _, .nil => by simp only [CMembers.asRaw, RMembers.members, CMembers.members]
  | _, .cons _ t _ _ ms => by simp only [CMembers.asRaw, RMembers.members, CMembers.members, t.asRaw_handler, ms.asRaw_members, asRaw_isOptional]
theorem CSupers.asRaw_supers : {T : Type} → (ss : CSupers T) → ss.asRaw.supers rawH = ss.supers
  | _, .nil => by simp only [CSupers.asRaw, RSupers.supers, CSupers.supers]
  | _, .cons _ _ _ s ss => by simp only [CSupers.asRaw, RSupers.supers, CSupers.supers, s.asRaw_meta, ss.asRaw_supers]
end

theorem asOwn_isOptional (t : CType T) : t.asOwn.isOptional = t.isOptional := by
  cases t <;> rfl

mutual
theorem CType.asOwn_handler : {T : Type} → (t : CType T) → t.asOwn.handler = t.handler
  | _, .bool | _, .int _ | _, .double | _, .float | _, .time _ | _, .string _ | _, .enum _ _ | _, .enumValue _ | _, .silentString _ | _, .tokens | _, .jmap => by
    simp only [CType.asOwn, OType.handler]
  | _, .nullable t => by simp only [CType.asOwn, OType.handler, CType.handler, t.asOwn_handler]
  | _, .nullableChecked t => by simp only [CType.asOwn, OType.handler, CType.handler, t.asOwn_handler]
  | _, .optional t => by simp only [CType.asOwn, OType.handler, CType.handler, t.asOwn_handler]
  | _, .optionalChecked t => by simp only [CType.asOwn, OType.handler, CType.handler, t.asOwn_handler]
  | _, .stdOptional t => by simp only [CType.asOwn, OType.handler, CType.handler, t.asOwn_handler]
  | _, .sharedPtr t => by simp only [CType.asOwn, OType.handler, CType.handler, t.asOwn_handler]
  | _, .uniquePtr t => by simp only [CType.asOwn, OType.handler, CType.handler, t.asOwn_handler]
  | _, .silentVector t => by simp only [CType.asOwn, OType.handler, CType.handler, t.asOwn_handler]
  | _, .silentUniquePtr t => by simp only [CType.asOwn, OType.handler, CType.handler, t.asOwn_handler]
  | _, .vector t => by simp only [CType.asOwn, OType.handler, CType.handler, t.asOwn_handler]
  | _, .oneOrMany t => by simp only [CType.asOwn, OType.handler, CType.handler, t.asOwn_handler]
  | _, .array _ t => by simp only [CType.asOwn, OType.handler, CType.handler, t.asOwn_handler]
  | _, .arrayVariable _ t => by simp only [CType.asOwn, OType.handler, CType.handler, t.asOwn_handler]
  | _, .tuple ts => by simp only [CType.asOwn, OType.handler, CType.handler, ts.asOwn_handler]
  | _, .set _ _ t => by simp only [CType.asOwn, OType.handler, CType.handler, t.asOwn_handler]
  | _, .map _ t => by simp only [CType.asOwn, OType.handler, CType.handler, t.asOwn_handler]
  | _, .struct _ s => by simp only [CType.asOwn, OType.handler, CType.handler, s.asOwn_meta]
theorem CTypes.asOwn_handler : {Ts : Type} → (ts : CTypes Ts) → ts.asOwn.handler = ts.handler
  | _, .nil => by simp only [CTypes.asOwn, OTypes.handler, CTypes.handler]
  | _, .cons t ts => by simp only [CTypes.asOwn, OTypes.handler, CTypes.handler, t.asOwn_handler, ts.asOwn_handler]
theorem CStruct.asOwn_meta : {T : Type} → (s : CStruct T) → s.asOwn.meta = s.meta
  | _, .mk ms ss => by simp only [CStruct.asOwn, OStruct.meta, CStruct.meta, ms.asOwn_members, ss.asOwn_supers]
theorem CMembers.asOwn_members : {T : Type} → (ms : CMembers T) → ms.asOwn.members = ms.members
  | _, .nil => by simp only [CMembers.asOwn, OMembers.members, CMembers.members]
  | _, .cons _ t _ _ ms => by simp only [CMembers.asOwn, OMembers.members, CMembers.members, t.asOwn_handler, ms.asOwn_members, asOwn_isOptional]
theorem CSupers.asOwn_supers : {T : Type} → (ss : CSupers T) → ss.asOwn.supers = ss.supers
  | _, .nil => by simp only [CSupers.asOwn, OSupers.supers, CSupers.supers]
  | _, .cons _ _ _ s ss => by simp only [CSupers.asOwn, OSupers.supers, CSupers.supers, s.asOwn_meta, ss.asOwn_supers]
end

end JsonStruct
