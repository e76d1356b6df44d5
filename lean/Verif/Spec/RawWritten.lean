import Verif.Spec.Source
import Verif.Spec.Encode
import Verif.Spec.Absent

/-
Specification for C92: what is written for a value of a type with raw captures in it, which values are represented exactly, and what variables must hold before. `RType` is
`CType` with two more cases, and so is everything that is said about it (Spec/Encode, Spec/Absent).
-/

namespace JsonStruct

/-- `JsonArray` is for arrays, `JsonObject` for objects, `JsonObjectOrArray` for both. -/
def RawKind.Takes : RawKind → JVal → Prop
  | .array, .arr _ | .object, .obj _ | .any, .arr _ | .any, .obj _ => True
  | _, _ => False

/-- The text of the value begins with the opening bracket of an array. -/
def JVal.BeginsArray : JVal → Prop
  | .arr _ => True
  | .num t => t.head? = some 0x5B
  | _ => False

/-- The text of the value begins with an opening bracket. -/
def JVal.Bracketed : JVal → Prop
  | .arr _ | .obj _ => True
  | .num t => t.head? = some 0x5B ∨ t.head? = some 0x7B
  | _ => False

mutual
/-- The JSON value written for a value; `none` if nothing is written. What a capture holds is written as it is, like the digits of a number: it is represented as a `num`. -/
def RType.enc : {T : Type} → RType T → T → Option JVal
  | _, .lib t, v => t.enc v
  | _, .raw k _, v => some (.num (if v = [] then (if k = .array then b!"[]" else b!"{}") else v))
  | _, .rawRef _, v => some (.num v)
  | _, .nullable t, v => t.enc v
  | _, .nullableChecked t, v => if v.2 then some .null else t.enc v.1
  | _, .optional t, v => t.enc v
  | _, .optionalChecked t, v => if v.2 then t.enc v.1 else none
  | _, .stdOptional t, v => v.bind t.enc
  | _, .sharedPtr t, v => match v with | none => some .null | some x => t.enc x
  | _, .uniquePtr t, v => match v with | none => some .null | some x => t.enc x
  | _, .silentVector t, v => if v.isEmpty then none else some (.arr (v.filterMap t.enc))
  | _, .silentUniquePtr t, v => v.bind t.enc
  | _, .vector t, v => some (.arr (v.filterMap t.enc))
  | _, .oneOrMany t, v => match v with | [] => none | [x] => t.enc x | v => some (.arr (v.filterMap t.enc))
  | _, .array _ t, v => some (.arr (v.filterMap t.enc))
  | _, .arrayVariable _ t, v => some (.arr ((v.1.take v.2).filterMap t.enc))
  | _, .tuple ts, v => some (.arr (ts.enc v))
  | _, .set _ _ t, v => some (.arr (v.filterMap t.enc))
  | _, .map _ t, v => some (.obj (v.filterMap fun e => (t.enc e.2).map (e.1, ·)))
  | _, .struct _ s, v => some (.obj (s.enc v))
def RTypes.enc : {Ts : Type} → RTypes Ts → Ts → List JVal
  | _, .nil, _ => []
  | _, .cons t ts, v => (t.enc v.1).toList ++ ts.enc v.2
/-- The members written for a struct: its own first, then those of the super classes. -/
def RStruct.enc : {T : Type} → RStruct T → T → List (Bytes × JVal)
  | _, .mk ms ss, v => ms.enc v ++ ss.enc v
def RMembers.enc : {T : Type} → RMembers T → T → List (Bytes × JVal)
  | _, .nil, _ => []
  | _, .cons names t get _ ms, v => ((t.enc (get v)).map (names.headD [], ·)).toList ++ ms.enc v
def RSupers.enc : {T : Type} → RSupers T → T → List (Bytes × JVal)
  | _, .nil, _ => []
  | _, .cons _ get _ s ss, v => s.enc (get v) ++ ss.enc v
end

/-- Something other than `null` is written. -/
def RType.Solid (t : RType T) (v : T) : Prop := ∃ j, t.enc v = some j ∧ j ≠ .null

mutual
/-- The values that are represented exactly. A capture holds a text, in the dialect `d`, of a value of its kind. A set or map is the list of its entries in the order of iteration:
inserting them in this order must give this order (as it does for the ordered containers). -/
def RType.Valid (d : Dialect) : {T : Type} → RType T → T → Prop
  | _, .lib t, v => t.Valid v
  | _, .raw k _, v | _, .rawRef k, v => ∃ j, Text d j v ∧ k.Takes j
  | _, .nullable t, v => t.Valid d v ∧ t.enc v ≠ some .null
  | _, .nullableChecked t, v => if v.2 then v.1 = t.init else t.Valid d v.1 ∧ t.Solid v.1
  | _, .optional t, v => t.Valid d v
  | _, .optionalChecked t, v => if v.2 then t.Valid d v.1 ∧ (t.enc v.1).isSome else v.1 = t.init
  | _, .stdOptional t, v => ∀ x, v = some x → t.Valid d x ∧ (t.enc x).isSome
  | _, .sharedPtr t, v => ∀ x, v = some x → t.Valid d x ∧ t.Solid x
  | _, .uniquePtr t, v => ∀ x, v = some x → t.Valid d x ∧ t.Solid x
  | _, .silentVector t, v => ∀ x ∈ v, t.Valid d x ∧ (t.enc x).isSome
  | _, .silentUniquePtr t, v => ∀ x, v = some x → t.Valid d x ∧ t.Solid x
  | _, .vector t, v => ∀ x ∈ v, t.Valid d x ∧ (t.enc x).isSome
  | _, .oneOrMany t, v => (∀ x ∈ v, t.Valid d x ∧ (t.enc x).isSome) ∧ ∀ x j, v = [x] → t.enc x = some j → ¬ j.BeginsArray
  | _, .array N t, v => v.length = N ∧ ∀ x ∈ v, t.Valid d x ∧ (t.enc x).isSome
  | _, .arrayVariable count t, v => v.1.length = count ∧ (v.2 < count ∨ v.2 = 0) ∧
      (∀ x ∈ v.1.take v.2, t.Valid d x ∧ (t.enc x).isSome) ∧ ∀ x ∈ v.1.drop v.2, x = t.init
  | _, .tuple ts, v => ts.Valid d v
  | _, .set _ ins t, v => v.Nodup ∧ v.foldl ins [] = v ∧ ∀ x ∈ v, t.Valid d x ∧ (t.enc x).isSome
  | _, .map ins t, v => (v.map Prod.fst).Nodup ∧ v.foldl ins [] = v ∧
      ∀ e ∈ v, e.1 ≠ [] ∧ Quotable e.1 ∧ escapesIn e.1 = e.1 ∧ t.Valid d e.2 ∧ (t.enc e.2).isSome
  | _, .struct _ s, v => s.Valid d v
def RTypes.Valid (d : Dialect) : {Ts : Type} → RTypes Ts → Ts → Prop
  | _, .nil, _ => True
  | _, .cons t ts, v => (t.Valid d v.1 ∧ (t.enc v.1).isSome) ∧ ts.Valid d v.2
def RStruct.Valid (d : Dialect) : {T : Type} → RStruct T → T → Prop
  | _, .mk ms ss, v => ms.Valid d v ∧ ss.Valid d v
def RMembers.Valid (d : Dialect) : {T : Type} → RMembers T → T → Prop
  | _, .nil, _ => True
  | _, .cons _ t get _ ms, v => t.Valid d (get v) ∧ ms.Valid d v
def RSupers.Valid (d : Dialect) : {T : Type} → RSupers T → T → Prop
  | _, .nil, _ => True
  | _, .cons _ get _ s ss, v => s.Valid d (get v) ∧ ss.Valid d v
end

mutual
/-- A variable that holds nothing that would survive reading: every value-initialised variable does (for structs: if
their members do). -/
def RType.Fresh : {T : Type} → RType T → T → Prop
  | _, .lib t, x => t.Fresh x
  | _, .raw _ _, x => x = []
  | _, .rawRef _, _ => True
  | _, .nullable t, x => t.Fresh x
  | _, .nullableChecked t, x => x.1 = t.init
  | _, .optional t, x => t.Fresh x
  | _, .optionalChecked t, x => x = (t.init, false)
  | _, .stdOptional _, x => x = none
  | _, .sharedPtr t, x => ∀ y, x = some y → t.Fresh y
  | _, .uniquePtr t, x => ∀ y, x = some y → t.Fresh y
  | _, .silentVector _, x => x = []
  | _, .silentUniquePtr _, x => x = none
  | _, .oneOrMany _, x => x = []
  | _, .array N t, x => x.length = N ∧ ∀ y ∈ x, t.Fresh y
  | _, .arrayVariable count t, x => x.1 = List.replicate count t.init ∧ (count = 0 → x.2 = 0)
  | _, .tuple ts, x => ts.Fresh x
  | _, .map _ _, x => x = []
  | _, .struct _ s, x => s.Fresh x
  | _, .vector _, _ | _, .set _ _ _, _ => True
def RTypes.Fresh : {Ts : Type} → RTypes Ts → Ts → Prop
  | _, .nil, _ => True
  | _, .cons t ts, x => t.Fresh x.1 ∧ ts.Fresh x.2
def RStruct.Fresh : {T : Type} → RStruct T → T → Prop
  | _, .mk ms ss, x => ms.Fresh x ∧ ss.Fresh x
def RMembers.Fresh : {T : Type} → RMembers T → T → Prop
  | _, .nil, _ => True
  | _, .cons _ t get _ ms, x => t.Fresh (get x) ∧ ms.Fresh x
def RSupers.Fresh : {T : Type} → RSupers T → T → Prop
  | _, .nil, _ => True
  | _, .cons _ get _ s ss, x => s.Fresh (get x) ∧ ss.Fresh x
end

/-- A declared member, of the struct itself or of a super class: names, type, access. -/
structure REntry (T : Type) where
  {M : Type}
  names : List Bytes
  type : RType M
  get : T → M
  set : M → T → T

def REntry.up (get : T → S) (set : S → T → T) (e : REntry S) : REntry T :=
  { names := e.names, type := e.type, get := fun t => e.get (get t), set := fun x t => set (e.set x (get t)) t }

def REntry.access (e : REntry T) : Access T := { get := e.get, set := e.set }

mutual
/-- All members, in the order in which they are written. -/
def RStruct.entries : {T : Type} → RStruct T → List (REntry T)
  | _, .mk ms ss => ms.entries ++ ss.entries
def RMembers.entries : {T : Type} → RMembers T → List (REntry T)
  | _, .nil => []
  | _, .cons names t get set ms => { names := names, type := t, get := get, set := set } :: ms.entries
def RSupers.entries : {T : Type} → RSupers T → List (REntry T)
  | _, .nil => []
  | _, .cons _ get set s ss => s.entries.map (REntry.up get set) ++ ss.entries
end

/-- The declaration of a struct makes sense: every member has a non empty name that can stand between quotes, no two
members have the same (primary) name, they are different parts of the struct and together all of it. -/
structure RStruct.Sensible (s : RStruct T) : Prop where
  named : ∀ e ∈ s.entries, ∃ n, e.names.head? = some n ∧ n ≠ [] ∧ Quotable n
  distinct : (s.entries.map fun e => e.names.head?).Nodup
  apart : (s.entries.map REntry.access).Pairwise Access.Apart
  stored : ∀ e ∈ s.entries, ∀ x t, e.get (e.set x t) = x
  all : ∀ a b, (∀ e ∈ s.entries, e.get a = e.get b) → a = b

mutual
/-- All structs occurring in a type make sense, and new objects of them are fresh; inserting into a set or map adds
the new entry somewhere and leaves the others. -/
def RType.Lawful : {T : Type} → RType T → Prop
  | _, .lib t => t.Lawful
  | _, .raw _ _ | _, .rawRef _ => True
  | _, .nullable t | _, .nullableChecked t | _, .optional t | _, .optionalChecked t | _, .stdOptional t | _, .sharedPtr t
  | _, .uniquePtr t | _, .silentVector t | _, .silentUniquePtr t | _, .vector t | _, .oneOrMany t | _, .array _ t
  | _, .arrayVariable _ t => t.Lawful
  | _, .set _ ins t => (∀ l x, (ins l x).Perm (x :: l)) ∧ t.Lawful
  | _, .map ins t => (∀ l x, (ins l x).Perm (x :: l)) ∧ t.Lawful
  | _, .tuple ts => ts.Lawful
  | _, .struct init s => s.Sensible ∧ s.Fresh init ∧ s.Lawful
def RTypes.Lawful : {Ts : Type} → RTypes Ts → Prop
  | _, .nil => True
  | _, .cons t ts => t.Lawful ∧ ts.Lawful
def RStruct.Lawful : {T : Type} → RStruct T → Prop
  | _, .mk ms ss => ms.Lawful ∧ ss.Lawful
def RMembers.Lawful : {T : Type} → RMembers T → Prop
  | _, .nil => True
  | _, .cons _ t _ _ ms => t.Lawful ∧ ms.Lawful
def RSupers.Lawful : {T : Type} → RSupers T → Prop
  | _, .nil => True
  | _, .cons _ _ _ s ss => s.Lawful ∧ ss.Lawful
end

mutual
/-- Every member, of every struct in the type, may be absent or is always written. (Not so a member of type `OneOrMany`: nothing is
written for an empty one.) -/
def RType.WritesRequired (d : Dialect) : {T : Type} → RType T → Prop
  | _, .lib t => t.WritesRequired
  | _, .raw _ _ | _, .rawRef _ => True
  | _, .nullable t | _, .nullableChecked t | _, .optional t | _, .optionalChecked t | _, .stdOptional t | _, .sharedPtr t
  | _, .uniquePtr t | _, .silentVector t | _, .silentUniquePtr t | _, .vector t | _, .oneOrMany t | _, .array _ t
  | _, .arrayVariable _ t | _, .set _ _ t | _, .map _ t => t.WritesRequired d
  | _, .tuple ts => ts.WritesRequired d
  | _, .struct _ s => s.WritesRequired d
def RTypes.WritesRequired (d : Dialect) : {Ts : Type} → RTypes Ts → Prop
  | _, .nil => True
  | _, .cons t ts => t.WritesRequired d ∧ ts.WritesRequired d
def RStruct.WritesRequired (d : Dialect) : {T : Type} → RStruct T → Prop
  | _, .mk ms ss => ms.WritesRequired d ∧ ss.WritesRequired d
def RMembers.WritesRequired (d : Dialect) : {T : Type} → RMembers T → Prop
  | _, .nil => True
  | _, .cons _ t _ _ ms => ((t.isOptional = true ∨ ∀ v, t.Valid d v → (t.enc v).isSome) ∧ t.WritesRequired d) ∧ ms.WritesRequired d
def RSupers.WritesRequired (d : Dialect) : {T : Type} → RSupers T → Prop
  | _, .nil => True
  | _, .cons _ _ _ s ss => s.WritesRequired d ∧ ss.WritesRequired d
end

end JsonStruct
