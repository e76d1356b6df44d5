import Verif.Model.Own
import Verif.Spec.Success
import Verif.Spec.Strict

/-
Specification for C88: the handlers of users that hide no error.
-/

namespace JsonStruct

/-- The rest of the program returns the error `e`, without reading on. -/
def OProg.Fails (e : Err) : {T : Type} → OProg T → Prop
  | _, .ret e' _ => e' = e
  | _, .store _ k => k.Fails e
  | _, .next _ => False
  | _, .call _ _ _ => False
  | _, .each _ _ _ => False

mutual
/-- No handler of a user's own in the type hides an error: where `nextToken` fails, it returns an error; where the handler of another type or a loop returns an error,
it returns the same. -/
def OType.PassesOn : {T : Type} → OType T → Prop
  | _, .lib _ => True
  | _, .own _ _ f _ => ∀ old k, (f old k).PassesOn
  | _, .nullable t | _, .nullableChecked t | _, .optional t | _, .optionalChecked t | _, .stdOptional t | _, .sharedPtr t
  | _, .uniquePtr t | _, .silentVector t | _, .silentUniquePtr t | _, .vector t | _, .oneOrMany t | _, .array _ t
  | _, .arrayVariable _ t | _, .set _ _ t | _, .map _ t => t.PassesOn
  | _, .tuple ts => ts.PassesOn
  | _, .struct _ s => s.PassesOn
def OTypes.PassesOn : {Ts : Type} → OTypes Ts → Prop
  | _, .nil => True
  | _, .cons t ts => t.PassesOn ∧ ts.PassesOn
def OStruct.PassesOn : {T : Type} → OStruct T → Prop
  | _, .mk ms ss => ms.PassesOn ∧ ss.PassesOn
def OMembers.PassesOn : {T : Type} → OMembers T → Prop
  | _, .nil => True
  | _, .cons _ t _ _ ms => t.PassesOn ∧ ms.PassesOn
def OSupers.PassesOn : {T : Type} → OSupers T → Prop
  | _, .nil => True
  | _, .cons _ _ _ s ss => s.PassesOn ∧ ss.PassesOn
def OProg.PassesOn : {T : Type} → OProg T → Prop
  | _, .ret _ _ => True
  | _, .store _ k => k.PassesOn
  | _, .next k => ∀ e tok, (k e tok).PassesOn ∧ (e ≠ .noError → ∃ e', e' ≠ .noError ∧ (k e tok).Fails e')
  | _, .call t _ k => t.PassesOn ∧ ∀ e v tok, (k e v tok).PassesOn ∧ (e ≠ .noError → (k e v tok).Fails e)
  | _, .each _ body k => (∀ s tok, (body s tok).PassesOn) ∧ ∀ e s tok, (k e s tok).PassesOn ∧ (e ≠ .noError → (k e s tok).Fails e)
end

mutual
/-- No `std::map` and no `std::unordered_map` of the library's in it. -/
def OType.NoMap : {T : Type} → OType T → Prop
  | _, .lib t => t.NoMap
  | _, .own _ _ f _ => ∀ old k, (f old k).NoMap
  | _, .map _ _ => False
  | _, .nullable t | _, .nullableChecked t | _, .optional t | _, .optionalChecked t | _, .stdOptional t | _, .sharedPtr t
  | _, .uniquePtr t | _, .silentVector t | _, .silentUniquePtr t | _, .vector t | _, .oneOrMany t | _, .array _ t
  | _, .arrayVariable _ t | _, .set _ _ t => t.NoMap
  | _, .tuple ts => ts.NoMap
  | _, .struct _ s => s.NoMap
def OTypes.NoMap : {Ts : Type} → OTypes Ts → Prop
  | _, .nil => True
  | _, .cons t ts => t.NoMap ∧ ts.NoMap
def OStruct.NoMap : {T : Type} → OStruct T → Prop
  | _, .mk ms ss => ms.NoMap ∧ ss.NoMap
def OMembers.NoMap : {T : Type} → OMembers T → Prop
  | _, .nil => True
  | _, .cons _ t _ _ ms => t.NoMap ∧ ms.NoMap
def OSupers.NoMap : {T : Type} → OSupers T → Prop
  | _, .nil => True
  | _, .cons _ _ _ s ss => s.NoMap ∧ ss.NoMap
def OProg.NoMap : {T : Type} → OProg T → Prop
  | _, .ret _ _ => True
  | _, .store _ k => k.NoMap
  | _, .next k => ∀ e tok, (k e tok).NoMap
  | _, .call t _ k => t.NoMap ∧ ∀ e v tok, (k e v tok).NoMap
  | _, .each _ body k => (∀ s tok, (body s tok).NoMap) ∧ ∀ e s tok, (k e s tok).NoMap
end

end JsonStruct
