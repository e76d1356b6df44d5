import Verif.Spec.Encode

/-
What was read can be saved. Of the conditions under which a value is read back as it was written (`CType.Valid`), most say how a value is
put together, and hold of every value that was read: what remains is said here, about the numbers, enumerators and keys in the
value (`Ordinary`) and about the type (`Storable`).
-/

namespace JsonStruct

mutual
/-- The scalars in the value are written exactly: floating point numbers are finite, and not ±2^-140 as a `double` (C33), time points
are those of C62, enumerators have names, and keys are not empty and need no escapes (C38). What is not in use holds the default: the data
of a null `NullableChecked`, and places beyond the size of an `ArrayVariableContent`. -/
def CType.Ordinary : {T : Type} → CType T → T → Prop
  | _, .bool, _ | _, .int _, _ | _, .string _, _ | _, .enumValue _, _ | _, .silentString _, _ => True
  | _, .double, v => v < 2 ^ 64 ∧ Finite 52 11 v ∧ magnitude 52 11 v ≠ 0x3730000000000000
  | _, .float, v => v < 2 ^ 32 ∧ Finite 23 8 v
  | _, .time C, v => TimeExact C v
  | _, .enum names _, v => 0 ≤ v ∧ v < names.length
  | _, .nullable t, v | _, .optional t, v => t.Ordinary v
  | _, .nullableChecked t, v => if v.2 then v.1 = t.init else t.Ordinary v.1
  | _, .optionalChecked t, v => v.2 = true → t.Ordinary v.1
  | _, .stdOptional t, v | _, .sharedPtr t, v | _, .uniquePtr t, v | _, .silentUniquePtr t, v => ∀ x, v = some x → t.Ordinary x
  | _, .silentVector t, v | _, .vector t, v | _, .oneOrMany t, v | _, .array _ t, v | _, .set _ _ t, v => ∀ x ∈ v, t.Ordinary x
  | _, .arrayVariable _ t, v => (∀ x ∈ v.1.take v.2, t.Ordinary x) ∧ ∀ x ∈ v.1.drop v.2, x = t.init
  | _, .tuple ts, v => ts.Ordinary v
  | _, .map _ t, v => ∀ e ∈ v, e.1 ≠ [] ∧ Quotable e.1 ∧ escapesIn e.1 = e.1 ∧ t.Ordinary e.2
  | _, .tokens, _ | _, .jmap, _ => True
  | _, .struct _ s, v => s.Ordinary v
def CTypes.Ordinary : {Ts : Type} → CTypes Ts → Ts → Prop
  | _, .nil, _ => True
  | _, .cons t ts, v => t.Ordinary v.1 ∧ ts.Ordinary v.2
def CStruct.Ordinary : {T : Type} → CStruct T → T → Prop
  | _, .mk ms ss, v => ms.Ordinary v ∧ ss.Ordinary v
def CMembers.Ordinary : {T : Type} → CMembers T → T → Prop
  | _, .nil, _ => True
  | _, .cons _ t get _ ms, v => t.Ordinary (get v) ∧ ms.Ordinary v
def CSupers.Ordinary : {T : Type} → CSupers T → T → Prop
  | _, .nil, _ => True
  | _, .cons _ get _ s ss, v => s.Ordinary (get v) ∧ ss.Ordinary v
end

/-- If inserting the elements in the order of iteration gives this order again, this stays so with a new one. (So for sorted
containers, and for those that append.) -/
def SetKeepsOrder (ins : List T → T → List T) : Prop :=
  ∀ (l : List T) (x : T), l.Nodup → l.foldl ins [] = l → x ∉ l → (ins l x).foldl ins [] = ins l x

/-- The same for maps, where the value of a key may also be replaced. -/
def MapKeepsOrder (ins : List (Bytes × V) → Bytes × V → List (Bytes × V)) : Prop :=
  ∀ l : List (Bytes × V), (l.map Prod.fst).Nodup → l.foldl ins [] = l →
    (∀ x : Bytes × V, x.1 ∉ l.map Prod.fst → (ins l x).foldl ins [] = ins l x) ∧
    ∀ (k : Bytes) (v : V), (l.map fun e => if e.1 = k then (k, v) else e).foldl ins [] = l.map fun e => if e.1 = k then (k, v) else e

/-- Something is written for every value that was read. -/
def CType.Shown : {T : Type} → CType T → Prop
  | _, .silentString _ | _, .silentVector _ | _, .silentUniquePtr _ | _, .oneOrMany _ => False
  | _, .nullable t => ∀ v, t.Valid v → (t.enc v).isSome
  | _, .optional t => t.Shown
  | _, _ => True

mutual
/-- Elements of containers and what wrappers hold are always written, and a default value of theirs can be written exactly;
the order of iteration of a set or map is kept if its entries are inserted in this order; the elements of a `OneOrMany` are not
arrays. No `JsonTokens` and no `JS::Map`. -/
def CType.Storable : {T : Type} → CType T → Prop
  | _, .bool | _, .int _ | _, .double | _, .float | _, .time _ | _, .string _ | _, .enum _ _ | _, .enumValue _ | _, .silentString _ => True
  | _, .optional t => t.Storable
  | _, .nullable t | _, .array _ t => t.Storable ∧ t.Shown
  | _, .nullableChecked t | _, .optionalChecked t | _, .stdOptional t | _, .sharedPtr t | _, .uniquePtr t | _, .silentUniquePtr t
  | _, .silentVector t | _, .vector t | _, .arrayVariable _ t => t.Storable ∧ t.Shown ∧ t.Valid t.init
  | _, .oneOrMany t => (t.Storable ∧ t.Shown ∧ t.Valid t.init) ∧ ∀ v vs, t.enc v ≠ some (.arr vs)
  | _, .set _ ins t => (t.Storable ∧ t.Shown ∧ t.Valid t.init) ∧ SetKeepsOrder ins
  | _, .map ins t => (t.Storable ∧ t.Shown ∧ t.Valid t.init) ∧ MapKeepsOrder ins
  | _, .tuple ts => ts.Storable
  | _, .tokens | _, .jmap => False
  | _, .struct _ s => s.Storable
def CTypes.Storable : {Ts : Type} → CTypes Ts → Prop
  | _, .nil => True
  | _, .cons t ts => (t.Storable ∧ t.Shown) ∧ ts.Storable
def CStruct.Storable : {T : Type} → CStruct T → Prop
  | _, .mk ms ss => ms.Storable ∧ ss.Storable
def CMembers.Storable : {T : Type} → CMembers T → Prop
  | _, .nil => True
  | _, .cons _ t _ _ ms => t.Storable ∧ ms.Storable
def CSupers.Storable : {T : Type} → CSupers T → Prop
  | _, .nil => True
  | _, .cons _ _ _ s ss => s.Storable ∧ ss.Storable
end

/-- The variable held `a`; then it was the target of any number of successful calls of `parseTo`, each in any state of any
context: any text, in any buffers, with any options; now it holds `b`. -/
inductive Loaded (h : Handler T) : T → T → Prop
  | none {a} : Loaded h a a
  | more {a b v} {n : Nat} {c c' : Ctx} : Loaded h a b → parseTo h n b c = some (.noError, v, c') → Loaded h a v

end JsonStruct
