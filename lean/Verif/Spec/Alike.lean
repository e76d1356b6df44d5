import Verif.Spec.Success

/-
When two tokenizers look the same to a program that calls `nextToken`.
-/

namespace JsonStruct

/-- Up to and including the first call that fails, the calls return the same errors, and those before it leave tokens
with the same names, values and types in the variables `k` and `k'`. After the call that fails the variables hold tokens
with the same type of value. -/
inductive AnswersAlike : Tz → Token → Tz → Token → Prop
  | fails {t t' u u' : Tz} {k k' l l' : Token} {e : Err} (hk : k.tok = k'.tok) (he : e ≠ .noError)
      (h : t.nextToken k = (e, u, l)) (h' : t'.nextToken k' = (e, u', l')) (hl : l.valueType = l'.valueType) : AnswersAlike t k t' k'
  | token {t t' u u' : Tz} {k k' l l' : Token} (hk : k.tok = k'.tok)
      (h : t.nextToken k = (.noError, u, l)) (h' : t'.nextToken k' = (.noError, u', l')) (hs : AnswersAlike u l u' l') : AnswersAlike t k t' k'

/-- `n` calls of `nextToken`, whatever they return: the tokenizer and the token variable. -/
def Tz.calls : Nat → Tz → Token → Tz × Token
  | 0, t, k => (t, k)
  | n + 1, t, k => Tz.calls n (t.nextToken k).2.1 (t.nextToken k).2.2

/-- All calls return the same errors and leave the same names, values and types in the variables. -/
def AlikeForever (t : Tz) (k : Token) (t' : Tz) (k' : Token) : Prop :=
  ∀ n, (t.calls n k).2.tok = (t'.calls n k').2.tok ∧
    ((t.calls n k).1.nextToken (t.calls n k).2).1 = ((t'.calls n k').1.nextToken (t'.calls n k').2).1

mutual
/-- No `JsonTokens`, no `std::vector<Token>` and no `JS::Map` in it. -/
def CType.NoTokens : {T : Type} → CType T → Prop
  | _, .tokens | _, .jmap => False
  | _, .nullable t | _, .nullableChecked t | _, .optional t | _, .optionalChecked t | _, .stdOptional t | _, .sharedPtr t
  | _, .uniquePtr t | _, .silentVector t | _, .silentUniquePtr t | _, .vector t | _, .oneOrMany t | _, .array _ t
  | _, .arrayVariable _ t | _, .set _ _ t | _, .map _ t => t.NoTokens
  | _, .tuple ts => ts.NoTokens
  | _, .struct _ s => s.NoTokens
  | _, .bool | _, .int _ | _, .double | _, .float | _, .time _ | _, .string _ | _, .enum _ _ | _, .enumValue _ | _, .silentString _ => True
def CTypes.NoTokens : {Ts : Type} → CTypes Ts → Prop
  | _, .nil => True
  | _, .cons t ts => t.NoTokens ∧ ts.NoTokens
def CStruct.NoTokens : {T : Type} → CStruct T → Prop
  | _, .mk ms ss => ms.NoTokens ∧ ss.NoTokens
def CMembers.NoTokens : {T : Type} → CMembers T → Prop
  | _, .nil => True
  | _, .cons _ t _ _ ms => t.NoTokens ∧ ms.NoTokens
def CSupers.NoTokens : {T : Type} → CSupers T → Prop
  | _, .nil => True
  | _, .cons _ _ _ s ss => s.NoTokens ∧ ss.NoTokens
end

end JsonStruct
