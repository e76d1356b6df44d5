import Verif.Spec.Access
import Verif.Spec.Value
import Verif.Spec.Unicode
import Verif.Spec.Float

/-
What is written for a C++ value, as a JSON value; which values it represents exactly; and what a variable must hold
before it is read into. Scalars are written by `intFrom`, `floatFrom`, `timeFrom`, `boolText` and `escapesOut`, which have
specifications of their own (C11, C16, C17, C33, C62).
-/

namespace JsonStruct

/-- RFC 8259, except that any byte may stand in a string, control characters included. -/
def rfcBytes : Dialect := { rfc with str := Quotable }

/-- The time points that are read as they are written: the epoch; those of the high resolution clock from 1973 on; those of
other clocks in whole microseconds from 1973 to 2286. -/
def TimeExact (C : Clock) (v : Int) : Prop :=
  0 < C.perMicro ∧ v < 2 ^ 63 ∧
  (v = 0 ∨ C.hires = true ∧ C.perMicro = 1000 ∧ 10 ^ 17 + 8 < v ∨ C.hires = false ∧ ∃ m : Int, v = m * C.perMicro ∧ 10 ^ 14 < m ∧ m ≤ 10 ^ 16)

mutual
/-- The JSON value written for a value; `none` if nothing is written. -/
def CType.enc : {T : Type} → CType T → T → Option JVal
  | _, .bool, v => some (.bool v)
  | _, .int I, v => (intFrom I v).map .num
  | _, .double, v => if Finite 52 11 v then (floatFrom f64 v).map .num else some .null
  | _, .float, v => if Finite 23 8 v then (floatFrom f32 v).map .num else some .null
  | _, .time C, v => (intFrom ⟨64, false⟩ (timeFrom C v)).map .num
  | _, .string m, v => some (.str (escapesOut m v))
  | _, .enum names _, v => (names[v.toNat]?).map .str
  | _, .enumValue U, v => (intFrom U v).map .num
  | _, .nullable t, v => t.enc v
  | _, .nullableChecked t, v => if v.2 then some .null else t.enc v.1
  | _, .optional t, v => t.enc v
  | _, .optionalChecked t, v => if v.2 then t.enc v.1 else none
  | _, .stdOptional t, v => v.bind t.enc
  | _, .sharedPtr t, v => match v with | none => some .null | some x => t.enc x
  | _, .uniquePtr t, v => match v with | none => some .null | some x => t.enc x
  | _, .silentString m, v => if v = [] then none else some (.str (escapesOut m v))
  | _, .silentVector t, v => if v.isEmpty then none else some (.arr (v.filterMap t.enc))
  | _, .silentUniquePtr t, v => v.bind t.enc
  | _, .vector t, v => some (.arr (v.filterMap t.enc))
  | _, .oneOrMany t, v => match v with | [] => none | [x] => t.enc x | v => some (.arr (v.filterMap t.enc))
  | _, .array _ t, v => some (.arr (v.filterMap t.enc))
  | _, .arrayVariable _ t, v => some (.arr ((v.1.take v.2).filterMap t.enc))
  | _, .tuple ts, v => some (.arr (ts.enc v))
  | _, .set _ _ t, v => some (.arr (v.filterMap t.enc))
  | _, .map _ t, v => some (.obj (v.filterMap fun e => (t.enc e.2).map (e.1, ·)))
  | _, .tokens, _ | _, .jmap, _ => none
  | _, .struct _ s, v => some (.obj (s.enc v))
def CTypes.enc : {Ts : Type} → CTypes Ts → Ts → List JVal
  | _, .nil, _ => []
  | _, .cons t ts, v => (t.enc v.1).toList ++ ts.enc v.2
/-- The members written for a struct: its own first, then those of the super classes. -/
def CStruct.enc : {T : Type} → CStruct T → T → List (Bytes × JVal)
  | _, .mk ms ss, v => ms.enc v ++ ss.enc v
def CMembers.enc : {T : Type} → CMembers T → T → List (Bytes × JVal)
  | _, .nil, _ => []
  | _, .cons names t get _ ms, v => ((t.enc (get v)).map (names.headD [], ·)).toList ++ ms.enc v
def CSupers.enc : {T : Type} → CSupers T → T → List (Bytes × JVal)
  | _, .nil, _ => []
  | _, .cons _ get _ s ss, v => s.enc (get v) ++ ss.enc v
end

/-- Something other than `null` is written. -/
def CType.Solid (t : CType T) (v : T) : Prop := ∃ j, t.enc v = some j ∧ j ≠ .null

mutual
/-- The values that are represented exactly. A set or map is the list of its entries in the order of iteration:
inserting them in this order must give this order (as it does for the ordered containers). -/
def CType.Valid : {T : Type} → CType T → T → Prop
  | _, .bool, _ => True
  | _, .int I, v => I.Supported ∧ I.InRange v
  | _, .double, v => v < 2 ^ 64 ∧ Finite 52 11 v ∧ magnitude 52 11 v ≠ 0x3730000000000000
  | _, .float, v => v < 2 ^ 32 ∧ Finite 23 8 v
  | _, .time C, v => TimeExact C v
  | _, .string _, _ => True
  | _, .enum names _, v => names.Nodup ∧ (∀ n ∈ names, Quotable n) ∧ 0 ≤ v ∧ v < names.length
  | _, .enumValue U, v => U.Supported ∧ U.InRange v
  | _, .nullable t, v => t.Valid v ∧ t.enc v ≠ some .null
  | _, .nullableChecked t, v => if v.2 then v.1 = t.init else t.Valid v.1 ∧ t.Solid v.1
  | _, .optional t, v => t.Valid v
  | _, .optionalChecked t, v => if v.2 then t.Valid v.1 ∧ (t.enc v.1).isSome else v.1 = t.init
  | _, .stdOptional t, v => ∀ x, v = some x → t.Valid x ∧ (t.enc x).isSome
  | _, .sharedPtr t, v => ∀ x, v = some x → t.Valid x ∧ t.Solid x
  | _, .uniquePtr t, v => ∀ x, v = some x → t.Valid x ∧ t.Solid x
  | _, .silentString _, _ => True
  | _, .silentVector t, v => ∀ x ∈ v, t.Valid x ∧ (t.enc x).isSome
  | _, .silentUniquePtr t, v => ∀ x, v = some x → t.Valid x ∧ t.Solid x
  | _, .vector t, v => ∀ x ∈ v, t.Valid x ∧ (t.enc x).isSome
  | _, .oneOrMany t, v => (∀ x ∈ v, t.Valid x ∧ (t.enc x).isSome) ∧ ∀ x vs, v = [x] → t.enc x ≠ some (.arr vs)
  | _, .array N t, v => v.length = N ∧ ∀ x ∈ v, t.Valid x ∧ (t.enc x).isSome
  | _, .arrayVariable count t, v => v.1.length = count ∧ (v.2 < count ∨ v.2 = 0) ∧
      (∀ x ∈ v.1.take v.2, t.Valid x ∧ (t.enc x).isSome) ∧ ∀ x ∈ v.1.drop v.2, x = t.init
  | _, .tuple ts, v => ts.Valid v
  | _, .set _ ins t, v => v.Nodup ∧ v.foldl ins [] = v ∧ ∀ x ∈ v, t.Valid x ∧ (t.enc x).isSome
  | _, .map ins t, v => (v.map Prod.fst).Nodup ∧ v.foldl ins [] = v ∧
      ∀ e ∈ v, e.1 ≠ [] ∧ Quotable e.1 ∧ escapesIn e.1 = e.1 ∧ t.Valid e.2 ∧ (t.enc e.2).isSome
  | _, .tokens, _ | _, .jmap, _ => False
  | _, .struct _ s, v => s.Valid v
def CTypes.Valid : {Ts : Type} → CTypes Ts → Ts → Prop
  | _, .nil, _ => True
  | _, .cons t ts, v => (t.Valid v.1 ∧ (t.enc v.1).isSome) ∧ ts.Valid v.2
def CStruct.Valid : {T : Type} → CStruct T → T → Prop
  | _, .mk ms ss, v => ms.Valid v ∧ ss.Valid v
def CMembers.Valid : {T : Type} → CMembers T → T → Prop
  | _, .nil, _ => True
  | _, .cons _ t get _ ms, v => t.Valid (get v) ∧ ms.Valid v
def CSupers.Valid : {T : Type} → CSupers T → T → Prop
  | _, .nil, _ => True
  | _, .cons _ get _ s ss, v => s.Valid (get v) ∧ ss.Valid v
end

mutual
/-- A variable that holds nothing that would survive reading: every value-initialised variable does (for structs: if
their members do). -/
def CType.Fresh : {T : Type} → CType T → T → Prop
  | _, .nullable t, x => t.Fresh x
  | _, .nullableChecked t, x => x.1 = t.init
  | _, .optional t, x => t.Fresh x
  | _, .optionalChecked t, x => x = (t.init, false)
  | _, .stdOptional _, x => x = none
  | _, .sharedPtr t, x => ∀ y, x = some y → t.Fresh y
  | _, .uniquePtr t, x => ∀ y, x = some y → t.Fresh y
  | _, .silentString _, x => x = []
  | _, .silentVector _, x => x = []
  | _, .silentUniquePtr _, x => x = none
  | _, .oneOrMany _, x => x = []
  | _, .array N t, x => x.length = N ∧ ∀ y ∈ x, t.Fresh y
  | _, .arrayVariable count t, x => x.1 = List.replicate count t.init ∧ (count = 0 → x.2 = 0)
  | _, .tuple ts, x => ts.Fresh x
  | _, .map _ _, x => x = []
  | _, .struct _ s, x => s.Fresh x
  | _, _, _ => True
def CTypes.Fresh : {Ts : Type} → CTypes Ts → Ts → Prop
  | _, .nil, _ => True
  | _, .cons t ts, x => t.Fresh x.1 ∧ ts.Fresh x.2
def CStruct.Fresh : {T : Type} → CStruct T → T → Prop
  | _, .mk ms ss, x => ms.Fresh x ∧ ss.Fresh x
def CMembers.Fresh : {T : Type} → CMembers T → T → Prop
  | _, .nil, _ => True
  | _, .cons _ t get _ ms, x => t.Fresh (get x) ∧ ms.Fresh x
def CSupers.Fresh : {T : Type} → CSupers T → T → Prop
  | _, .nil, _ => True
  | _, .cons _ get _ s ss, x => s.Fresh (get x) ∧ ss.Fresh x
end

/-- A declared member, of the struct itself or of a super class: names, type, access. -/
structure Entry (T : Type) where
  {M : Type}
  names : List Bytes
  type : CType M
  get : T → M
  set : M → T → T

def Entry.up (get : T → S) (set : S → T → T) (e : Entry S) : Entry T :=
  { names := e.names, type := e.type, get := fun t => e.get (get t), set := fun x t => set (e.set x (get t)) t }

def Entry.access (e : Entry T) : Access T := { get := e.get, set := e.set }

mutual
/-- All members, in the order in which they are written. -/
def CStruct.entries : {T : Type} → CStruct T → List (Entry T)
  | _, .mk ms ss => ms.entries ++ ss.entries
def CMembers.entries : {T : Type} → CMembers T → List (Entry T)
  | _, .nil => []
  | _, .cons names t get set ms => { names := names, type := t, get := get, set := set } :: ms.entries
def CSupers.entries : {T : Type} → CSupers T → List (Entry T)
  | _, .nil => []
  | _, .cons _ get set s ss => s.entries.map (Entry.up get set) ++ ss.entries
end

/-- The declaration of a struct makes sense: every member has a non empty name that can stand between quotes, no two
members have the same (primary) name, they are different parts of the struct and together all of it. -/
structure CStruct.Sensible (s : CStruct T) : Prop where
  named : ∀ e ∈ s.entries, ∃ n, e.names.head? = some n ∧ n ≠ [] ∧ Quotable n
  distinct : (s.entries.map fun e => e.names.head?).Nodup
  apart : (s.entries.map Entry.access).Pairwise Access.Apart
  stored : ∀ e ∈ s.entries, ∀ x t, e.get (e.set x t) = x
  all : ∀ a b, (∀ e ∈ s.entries, e.get a = e.get b) → a = b

mutual
/-- All structs occurring in a type make sense, and new objects of them are fresh; inserting into a set or map adds
the new entry somewhere and leaves the others. -/
def CType.Lawful : {T : Type} → CType T → Prop
  | _, .nullable t | _, .nullableChecked t | _, .optional t | _, .optionalChecked t | _, .stdOptional t | _, .sharedPtr t
  | _, .uniquePtr t | _, .silentVector t | _, .silentUniquePtr t | _, .vector t | _, .oneOrMany t | _, .array _ t
  | _, .arrayVariable _ t => t.Lawful
  | _, .set _ ins t => (∀ l x, (ins l x).Perm (x :: l)) ∧ t.Lawful
  | _, .map ins t => (∀ l x, (ins l x).Perm (x :: l)) ∧ t.Lawful
  | _, .tuple ts => ts.Lawful
  | _, .struct init s => s.Sensible ∧ s.Fresh init ∧ s.Lawful
  | _, _ => True
def CTypes.Lawful : {Ts : Type} → CTypes Ts → Prop
  | _, .nil => True
  | _, .cons t ts => t.Lawful ∧ ts.Lawful
def CStruct.Lawful : {T : Type} → CStruct T → Prop
  | _, .mk ms ss => ms.Lawful ∧ ss.Lawful
def CMembers.Lawful : {T : Type} → CMembers T → Prop
  | _, .nil => True
  | _, .cons _ t _ _ ms => t.Lawful ∧ ms.Lawful
def CSupers.Lawful : {T : Type} → CSupers T → Prop
  | _, .nil => True
  | _, .cons _ _ _ s ss => s.Lawful ∧ ss.Lawful
end

end JsonStruct
