import Verif.Model.Types
import Verif.Spec.Parsing

/-
What reading a JSON value into each type amounts to.
-/

namespace JsonStruct

/-- Reading a member of a part of `T`, reached by `get` and `set`. -/
def partDec (get : T → M) (set : M → T → T) (d : Dec M) : Dec T := fun o old i => (d o (get old) i).map (Res.map (set · old))

/-- The name reported for a member: `Super::name` for a member of a super class. -/
def qualifiedName (superName name : Bytes) : Bytes := (if superName = [] then [] else superName ++ b!"::") ++ name

def MemberSpec.up (get : T → S) (set : S → T → T) (m : MemberSpec S) : MemberSpec T :=
  { qname := m.qname, names := m.names, optional := m.optional, dec := partDec get set m.dec }

/-- A value-initialised variable of the type. -/
def CType.init (t : CType T) : T := t.handler.init

/-- A `JS::Map` takes the tokens, and what `metaForTokens` says about them (C25). -/
def jmapDec : Dec JMap := fun p old i =>
  (tokensDec p old.tokens i).bind fun r => (metaForTokens r.val).map fun metas => ⟨.noError, { tokens := r.val, metas }, [], []⟩

mutual
def CType.dec : {T : Type} → CType T → Dec T
  | _, .bool => boolDec
  | _, .int I => intDec I
  | _, .double => doubleDec
  | _, .float => floatDec
  | _, .time C => timeDec C
  | _, .string _ => stringDec
  | _, .enum names U => enumDec names U
  | _, .enumValue U => enumValueDec U
  | _, .nullable t => nullableDec t.dec
  | _, .nullableChecked t => nullableCheckedDec t.dec
  | _, .optional t => t.dec
  | _, .optionalChecked t => optionalCheckedDec t.dec
  | _, .stdOptional t => stdOptionalDec t.init t.dec
  | _, .sharedPtr t => ptrDec t.init t.dec
  | _, .uniquePtr t => ptrDec t.init t.dec
  | _, .silentString _ => stringDec
  | _, .silentVector t => vecDec t.init t.dec
  | _, .silentUniquePtr t => ptrDec t.init t.dec
  | _, .vector t => vecDec t.init t.dec
  | _, .oneOrMany t => oneOrManyDec t.init t.dec
  | _, .array _ t => arrDec t.dec
  | _, .arrayVariable _ t => avcDec t.dec
  | _, .tuple ts => tupleDec ts.dec
  | _, .set _ ins t => setDec ins t.init t.dec
  | _, .map ins t => mapDec (mapSet ins) t.init t.dec
  | _, .tokens => tokensDec
  | _, .jmap => jmapDec
  | _, .struct _ s => structDec (s.specs [])
def CTypes.dec : {Ts : Type} → CTypes Ts → TupDec Ts
  | _, .nil => tupNilDec
  | _, .cons t ts => tupConsDec t.dec ts.dec
/-- The members of a struct in the order in which they are looked for: the last declared first, then those of the
super classes. -/
def CStruct.specs (superName : Bytes) : {T : Type} → CStruct T → List (MemberSpec T)
  | _, .mk ms ss => (ms.specs superName).reverse ++ ss.specs
def CMembers.specs (superName : Bytes) : {T : Type} → CMembers T → List (MemberSpec T)
  | _, .nil => []
  | _, .cons names t get set ms =>
    { qname := qualifiedName superName (names.headD []), names := names, optional := t.isOptional, dec := partDec get set t.dec }
      :: ms.specs superName
def CSupers.specs : {T : Type} → CSupers T → List (MemberSpec T)
  | _, .nil => []
  | _, .cons name get set s ss => (s.specs name).map (MemberSpec.up get set) ++ ss.specs
end

end JsonStruct
