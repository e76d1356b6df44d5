import Verif.Spec.Types
import Verif.Spec.History
import Verif.Spec.Parsing

/-
What a successful parse says about the tokens it was made of, and when parsing ends at all.
-/

namespace JsonStruct

/-- `Accepted t k t' k'`: calling `nextToken` some number of times brings a tokenizer from the state `t` to `t'`, and
the token variable from `k` to `k'`, and **every one** of the calls returned `NoError`. -/
inductive Accepted : Tz → Token → Tz → Token → Prop
  | refl {t : Tz} {k : Token} : Accepted t k t k
  | call {t t' t'' : Tz} {k k' k'' : Token} (h : t.nextToken k = (.noError, t', k')) (hs : Accepted t' k' t'' k'') :
      Accepted t k t'' k''

/-- A context whose tokenizer has been used in any way before. -/
def World.ctx (w : World) (p : POpts) : Ctx :=
  { tz := w.tz, token := w.tok, allowMissing := p.allowMissing, allowUnassigned := p.allowUnassigned, track := p.track }

mutual
/-- No `std::map` and no `std::unordered_map` in it. -/
def CType.NoMap : {T : Type} → CType T → Prop
  | _, .map _ _ => False
  | _, .nullable t | _, .nullableChecked t | _, .optional t | _, .optionalChecked t | _, .stdOptional t | _, .sharedPtr t
  | _, .uniquePtr t | _, .silentVector t | _, .silentUniquePtr t | _, .vector t | _, .oneOrMany t | _, .array _ t
  | _, .arrayVariable _ t | _, .set _ _ t => t.NoMap
  | _, .tuple ts => ts.NoMap
  | _, .struct _ s => s.NoMap
  | _, .bool | _, .int _ | _, .double | _, .float | _, .time _ | _, .string _ | _, .enum _ _ | _, .enumValue _ | _, .silentString _ | _, .tokens | _, .jmap => True
def CTypes.NoMap : {Ts : Type} → CTypes Ts → Prop
  | _, .nil => True
  | _, .cons t ts => t.NoMap ∧ ts.NoMap
def CStruct.NoMap : {T : Type} → CStruct T → Prop
  | _, .mk ms ss => ms.NoMap ∧ ss.NoMap
def CMembers.NoMap : {T : Type} → CMembers T → Prop
  | _, .nil => True
  | _, .cons _ t _ _ ms => t.NoMap ∧ ms.NoMap
def CSupers.NoMap : {T : Type} → CSupers T → Prop
  | _, .nil => True
  | _, .cons _ _ _ s ss => s.NoMap ∧ ss.NoMap
end

end JsonStruct
