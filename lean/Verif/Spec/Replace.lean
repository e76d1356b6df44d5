import Verif.Spec.Encode

/-
For which types reading a value replaces all that was in the variable.
-/

namespace JsonStruct

/-- The members of the struct are different parts of it and together all of it. -/
structure CStruct.Complete (s : CStruct T) : Prop where
  apart : (s.entries.map Entry.access).Pairwise Access.Apart
  stored : ∀ e ∈ s.entries, ∀ x t, e.get (e.set x t) = x
  all : ∀ a b, (∀ e ∈ s.entries, e.get a = e.get b) → a = b

mutual
/-- Arrays have the length of their type, as they always have in C++. -/
def CType.Sized : {T : Type} → CType T → T → Prop
  | _, .optional t, x => t.Sized x
  | _, .optionalChecked t, x => t.Sized x.1
  | _, .sharedPtr t, x => ∀ y, x = some y → t.Sized y
  | _, .uniquePtr t, x => ∀ y, x = some y → t.Sized y
  | _, .silentUniquePtr t, x => ∀ y, x = some y → t.Sized y
  | _, .array N t, x => x.length = N ∧ ∀ y ∈ x, t.Sized y
  | _, .tuple ts, x => ts.Sized x
  | _, .struct _ s, x => s.Sized x
  | _, _, _ => True
def CTypes.Sized : {Ts : Type} → CTypes Ts → Ts → Prop
  | _, .nil, _ => True
  | _, .cons t ts, x => t.Sized x.1 ∧ ts.Sized x.2
def CStruct.Sized : {T : Type} → CStruct T → T → Prop
  | _, .mk ms ss, x => ms.Sized x ∧ ss.Sized x
def CMembers.Sized : {T : Type} → CMembers T → T → Prop
  | _, .nil, _ => True
  | _, .cons _ t get _ ms, x => t.Sized (get x) ∧ ms.Sized x
def CSupers.Sized : {T : Type} → CSupers T → T → Prop
  | _, .nil, _ => True
  | _, .cons _ get _ s ss, x => s.Sized (get x) ∧ ss.Sized x
end

mutual
/-- Scalars, strings, arrays and sets of any elements, optionals of anything; pointers to, and fixed size arrays and tuples of
such types. Structs whose members are all of it, none of them optional and all of such types. Not:
maps, which keep the keys they have; `Nullable`, which keeps its value on `null`; `OneOrMany`, which appends a single value;
arrays of variable length, which keep what is behind the end; captured tokens. -/
def CType.Replaced : {T : Type} → CType T → Prop
  | _, .bool | _, .int _ | _, .double | _, .float | _, .time _ | _, .string _ | _, .enum _ _ | _, .enumValue _
  | _, .silentString _ | _, .stdOptional _ | _, .silentVector _ | _, .vector _ | _, .set _ _ _ => True
  | _, .optional t | _, .optionalChecked t | _, .sharedPtr t | _, .uniquePtr t | _, .silentUniquePtr t | _, .array _ t => t.Replaced
  | _, .tuple ts => ts.Replaced
  | _, .struct init s => s.Complete ∧ s.Sized init ∧ s.Replaced
  | _, _ => False
def CTypes.Replaced : {Ts : Type} → CTypes Ts → Prop
  | _, .nil => True
  | _, .cons t ts => t.Replaced ∧ ts.Replaced
def CStruct.Replaced : {T : Type} → CStruct T → Prop
  | _, .mk ms ss => ms.Replaced ∧ ss.Replaced
def CMembers.Replaced : {T : Type} → CMembers T → Prop
  | _, .nil => True
  | _, .cons _ t _ _ ms => (t.isOptional = false ∧ t.Replaced) ∧ ms.Replaced
def CSupers.Replaced : {T : Type} → CSupers T → Prop
  | _, .nil => True
  | _, .cons _ _ _ s ss => s.Replaced ∧ ss.Replaced
end

end JsonStruct
