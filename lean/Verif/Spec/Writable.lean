import Verif.Spec.Encode

/-
Which values are written as JSON. In contrast to `CType.Valid` it does not matter whether they are represented exactly: NaN,
empty optionals in arrays, pointers to empty pointers and so on are fine.
-/

namespace JsonStruct

/-- RFC 8259; if not strict, any byte may stand in a string. -/
def textsOf (strict : Bool) : Dialect := if strict then rfc else rfcBytes

/-- No control characters but backspace, tab, line feed, form feed and carriage return. -/
def NoControls (s : Bytes) : Prop := ∀ c ∈ s, c < 0x20 → c ∈ ([8, 9, 10, 12, 13] : Bytes)

/-- A name that can be written as it stands. -/
def GoodName (strict : Bool) (n : Bytes) : Prop := n ≠ [] ∧ (textsOf strict).str n

mutual
/-- Integers and floating point numbers are values of their type (which they always are in C++), enumerations have one of
the values declared, arrays of variable length are not longer than their storage, names and keys need no escapes and are
not empty. If strict, strings have no control characters but the five that have short escapes. -/
def CType.Writable (strict : Bool) : {T : Type} → CType T → T → Prop
  | _, .bool, _ => True
  | _, .int I, v => I.Supported ∧ I.InRange v
  | _, .double, v => v < 2 ^ 64
  | _, .float, v => v < 2 ^ 32
  | _, .time _, _ => True
  | _, .string _, v => strict = true → NoControls v
  | _, .enum names _, v => 0 ≤ v ∧ ∃ n, names[v.toNat]? = some n ∧ (textsOf strict).str n
  | _, .enumValue U, v => U.Supported ∧ U.InRange v
  | _, .nullable t, v => t.Writable strict v
  | _, .nullableChecked t, v => v.2 = false → t.Writable strict v.1
  | _, .optional t, v => t.Writable strict v
  | _, .optionalChecked t, v => v.2 = true → t.Writable strict v.1
  | _, .stdOptional t, v => ∀ x, v = some x → t.Writable strict x
  | _, .sharedPtr t, v => ∀ x, v = some x → t.Writable strict x
  | _, .uniquePtr t, v => ∀ x, v = some x → t.Writable strict x
  | _, .silentString _, v => strict = true → NoControls v
  | _, .silentVector t, v => ∀ x ∈ v, t.Writable strict x
  | _, .silentUniquePtr t, v => ∀ x, v = some x → t.Writable strict x
  | _, .vector t, v => ∀ x ∈ v, t.Writable strict x
  | _, .oneOrMany t, v => ∀ x ∈ v, t.Writable strict x
  | _, .array _ t, v => ∀ x ∈ v, t.Writable strict x
  | _, .arrayVariable _ t, v => v.2 ≤ v.1.length ∧ ∀ x ∈ v.1.take v.2, t.Writable strict x
  | _, .tuple ts, v => ts.Writable strict v
  | _, .set _ _ t, v => ∀ x ∈ v, t.Writable strict x
  | _, .map _ t, v => ∀ e ∈ v, GoodName strict e.1 ∧ t.Writable strict e.2
  | _, .tokens, _ | _, .jmap, _ => False
  | _, .struct _ s, v => s.Writable strict v
def CTypes.Writable (strict : Bool) : {Ts : Type} → CTypes Ts → Ts → Prop
  | _, .nil, _ => True
  | _, .cons t ts, v => t.Writable strict v.1 ∧ ts.Writable strict v.2
def CStruct.Writable (strict : Bool) : {T : Type} → CStruct T → T → Prop
  | _, .mk ms ss, v => ms.Writable strict v ∧ ss.Writable strict v
def CMembers.Writable (strict : Bool) : {T : Type} → CMembers T → T → Prop
  | _, .nil, _ => True
  | _, .cons names t get _ ms, v => GoodName strict (names.headD []) ∧ t.Writable strict (get v) ∧ ms.Writable strict v
def CSupers.Writable (strict : Bool) : {T : Type} → CSupers T → T → Prop
  | _, .nil, _ => True
  | _, .cons _ get _ s ss, v => s.Writable strict (get v) ∧ ss.Writable strict v
end

end JsonStruct
