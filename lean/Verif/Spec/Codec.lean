import Verif.Spec.Absent
import Verif.Lemmas.Writes
import Verif.Lemmas.Parse

/-
Specification for C89: the types of the library with types inside for which users have written handlers themselves, what is written for their
values, which values are represented exactly and what variables must hold before. `KType` is `CType` with one more case, and so is everything that
is said about it; that case asks of the user's handler no more than that it reads back what it writes.
-/

namespace JsonStruct

/-- A handler written by a user together with what it is meant for: reading (`to`) does what `dec` says, writing (`from`) writes the JSON value `enc v`, or nothing;
`valid` are the values it is meant for and `fresh` the variables it may be handed. `strict`: no member is reported as unassigned. -/
structure Codec (T : Type) where
  handler : Handler T
  optional : Bool
  dec : Dec T
  enc : T → Option JVal
  valid : T → Prop
  fresh : T → Prop
  strict : Prop

/-- What a user's handler must do, on its own, wherever the tokens of the value stand: read back what it writes. -/
structure Codec.Faithful (k : Codec T) : Prop where
  fresh_init : k.fresh k.handler.init
  writes : ∀ v, k.valid v → FromSem (k.handler.from_ v) fun n => encToks n (k.enc v)
  good : ∀ v, k.valid v → ∀ j, k.enc v = some j → j.WF rfcBytes ∧ j.Named
  reads : ∀ [EndCond], k.handler.Sem k.dec
  back : ∀ v, k.valid v → ∀ old, k.fresh old → ∀ p l, p.allowUnassigned = true ∨ k.strict →
    match k.enc v with
    | some j => ∃ un, k.dec p old (.val l j) = some ⟨.noError, v, [], un⟩ ∧ (k.strict → un = [])
    | none => old = v

mutual
/-- JSH 4686-10311, the specialisations of `TypeHandler`, and JSH 4216-4221 for those of the user: a type of the library;
one with a handler of the user's own; or one of the library's templates with such types for parameters. -/
inductive KType : Type → Type 1
  | lib {T : Type} (t : CType T) : KType T
  | own {T : Type} (k : Codec T) : KType T
  | nullable {T : Type} (t : KType T) : KType T
  | nullableChecked {T : Type} (t : KType T) : KType (T × Bool)
  | optional {T : Type} (t : KType T) : KType T
  | optionalChecked {T : Type} (t : KType T) : KType (T × Bool)
  | stdOptional {T : Type} (t : KType T) : KType (Option T)
  | sharedPtr {T : Type} (t : KType T) : KType (Option T)
  | uniquePtr {T : Type} (t : KType T) : KType (Option T)
  | silentVector {T : Type} (t : KType T) : KType (List T)
  | silentUniquePtr {T : Type} (t : KType T) : KType (Option T)
  | vector {T : Type} (t : KType T) : KType (List T)
  | oneOrMany {T : Type} (t : KType T) : KType (List T)
  | array (N : Nat) {T : Type} (t : KType T) : KType (List T)
  | arrayVariable (count : Nat) {T : Type} (t : KType T) : KType (List T × Nat)
  | tuple {Ts : Type} (ts : KTypes Ts) : KType Ts
  | set {T : Type} (eq : DecidableEq T) (ins : List T → T → List T) (t : KType T) : KType (List T)
  | map {V : Type} (ins : List (Bytes × V) → Bytes × V → List (Bytes × V)) (t : KType V) : KType (List (Bytes × V))
  | struct {T : Type} (init : T) (s : KStruct T) : KType T

/-- JSH 9483-9522, `Ts...`: The element types of a tuple. -/
inductive KTypes : Type → Type 1
  | nil : KTypes Unit
  | cons {T Ts : Type} (t : KType T) (ts : KTypes Ts) : KTypes (T × Ts)

/-- JSH 4118-4199: A struct, as `CStruct`. -/
inductive KStruct : Type → Type 1
  | mk {T : Type} (ms : KMembers T) (ss : KSupers T) : KStruct T

/-- JSH 4174-4185: Declared members, as `CMembers`. -/
inductive KMembers : Type → Type 1
  | nil {T : Type} : KMembers T
  | cons {T M : Type} (names : List Bytes) (t : KType M) (get : T → M) (set : M → T → T) (ms : KMembers T) : KMembers T

/-- JSH 4188-4199: Super classes, as `CSupers`. -/
inductive KSupers : Type → Type 1
  | nil {T : Type} : KSupers T
  | cons {T S : Type} (name : Bytes) (get : T → S) (set : S → T → T) (s : KStruct S) (ss : KSupers T) : KSupers T
end

/-- JSH 3833-3862 `IsOptionalType`. -/
def KType.isOptional : KType T → Bool
  | .lib t => t.isOptional
  | .own k => k.optional
  | .optional _ | .optionalChecked _ | .stdOptional _ | .uniquePtr _ | .silentVector _ | .silentUniquePtr _ => true
  | _ => false

mutual
/-- JSH 5626-10311 (see each handler): The specialisation of `TypeHandler` for each type. -/
def KType.handler : {T : Type} → KType T → Handler T
  | _, .lib t => t.handler
  | _, .own k => k.handler
  | _, .nullable t => nullableH t.handler
  | _, .nullableChecked t => nullableCheckedH t.handler
  | _, .optional t => optionalH t.handler
  | _, .optionalChecked t => optionalCheckedH t.handler
  | _, .stdOptional t => stdOptionalH t.handler
  | _, .sharedPtr t => ptrH t.handler
  | _, .uniquePtr t => ptrH t.handler
  | _, .silentVector t => silentVecH t.handler
  | _, .silentUniquePtr t => silentPtrH t.handler
  | _, .vector t => vecH t.handler
  | _, .oneOrMany t => oneOrManyH t.handler
  | _, .array N t => arrH N t.handler
  | _, .arrayVariable count t => avcH count t.handler
  | _, .tuple ts => tupleH ts.handler
  | _, .set _ ins t => setH ins t.handler
  | _, .map ins t => mapH ins t.handler
  | _, .struct init s => structH init s.meta
/-- JSH 9483-9522 `TupleTypeHandler`. -/
def KTypes.handler : {Ts : Type} → KTypes Ts → TupleH Ts
  | _, .nil => TupleH.nil
  | _, .cons t ts => TupleH.cons t.handler ts.handler
/-- JSH 4118-4152: `js_static_meta_data_info` and `js_static_meta_super_info` of a struct. -/
def KStruct.meta : {T : Type} → KStruct T → Meta T
  | _, .mk ms ss => .mk ms.members ss.supers
/-- JSH 4203-4208 `makeMemberInfo` for each member. -/
def KMembers.members : {T : Type} → KMembers T → List (Member T)
  | _, .nil => []
  | _, .cons names t get set ms => Member.of names t.isOptional t.handler get set :: ms.members
/-- JSH 4210-4214 `makeSuperInfo` for each super class. -/
def KSupers.supers : {T : Type} → KSupers T → List (Bytes × Meta T)
  | _, .nil => []
  | _, .cons name get set s ss => (name, s.meta.up get set) :: ss.supers
end

/-- A value-initialised variable. -/
abbrev KType.init (t : KType T) : T := t.handler.init

mutual
/-- What a variable holds and what is reported after a JSON value has been read into it (as `CType.dec`). -/
def KType.dec : {T : Type} → KType T → Dec T
  | _, .lib t => t.dec
  | _, .own k => k.dec
  | _, .nullable t => nullableDec t.dec
  | _, .nullableChecked t => nullableCheckedDec t.dec
  | _, .optional t => t.dec
  | _, .optionalChecked t => optionalCheckedDec t.dec
  | _, .stdOptional t => stdOptionalDec t.init t.dec
  | _, .sharedPtr t => ptrDec t.init t.dec
  | _, .uniquePtr t => ptrDec t.init t.dec
  | _, .silentVector t => vecDec t.init t.dec
  | _, .silentUniquePtr t => ptrDec t.init t.dec
  | _, .vector t => vecDec t.init t.dec
  | _, .oneOrMany t => oneOrManyDec t.init t.dec
  | _, .array _ t => arrDec t.dec
  | _, .arrayVariable _ t => avcDec t.dec
  | _, .tuple ts => tupleDec ts.dec
  | _, .set _ ins t => setDec ins t.init t.dec
  | _, .map ins t => mapDec (mapSet ins) t.init t.dec
  | _, .struct _ s => structDec (s.specs [])
def KTypes.dec : {Ts : Type} → KTypes Ts → TupDec Ts
  | _, .nil => tupNilDec
  | _, .cons t ts => tupConsDec t.dec ts.dec
/-- The members of a struct in the order in which they are looked for: the last declared first, then those of the
super classes. -/
def KStruct.specs (superName : Bytes) : {T : Type} → KStruct T → List (MemberSpec T)
  | _, .mk ms ss => (ms.specs superName).reverse ++ ss.specs
def KMembers.specs (superName : Bytes) : {T : Type} → KMembers T → List (MemberSpec T)
  | _, .nil => []
  | _, .cons names t get set ms =>
    { qname := qualifiedName superName (names.headD []), names := names, optional := t.isOptional, dec := partDec get set t.dec }
      :: ms.specs superName
def KSupers.specs : {T : Type} → KSupers T → List (MemberSpec T)
  | _, .nil => []
  | _, .cons name get set s ss => (s.specs name).map (MemberSpec.up get set) ++ ss.specs
end

mutual
/-- The JSON value written for a value; `none` if nothing is written. -/
def KType.enc : {T : Type} → KType T → T → Option JVal
  | _, .lib t, v => t.enc v
  | _, .own k, v => k.enc v
  | _, .nullable t, v => t.enc v
  | _, .nullableChecked t, v => if v.2 then some .null else t.enc v.1
  | _, .optional t, v => t.enc v
  | _, .optionalChecked t, v => if v.2 then t.enc v.1 else none
  | _, .stdOptional t, v => v.bind t.enc
  | _, .sharedPtr t, v => match v with | none => some .null | some x => t.enc x
  | _, .uniquePtr t, v => match v with | none => some .null | some x => t.enc x
  | _, .silentVector t, v => if v.isEmpty then none else some (.arr (v.filterMap t.enc))
  | _, .silentUniquePtr t, v => v.bind t.enc
  | _, .vector t, v => some (.arr (v.filterMap t.enc))
  | _, .oneOrMany t, v => match v with | [] => none | [x] => t.enc x | v => some (.arr (v.filterMap t.enc))
  | _, .array _ t, v => some (.arr (v.filterMap t.enc))
  | _, .arrayVariable _ t, v => some (.arr ((v.1.take v.2).filterMap t.enc))
  | _, .tuple ts, v => some (.arr (ts.enc v))
  | _, .set _ _ t, v => some (.arr (v.filterMap t.enc))
  | _, .map _ t, v => some (.obj (v.filterMap fun e => (t.enc e.2).map (e.1, ·)))
  | _, .struct _ s, v => some (.obj (s.enc v))
def KTypes.enc : {Ts : Type} → KTypes Ts → Ts → List JVal
  | _, .nil, _ => []
  | _, .cons t ts, v => (t.enc v.1).toList ++ ts.enc v.2
/-- The members written for a struct: its own first, then those of the super classes. -/
def KStruct.enc : {T : Type} → KStruct T → T → List (Bytes × JVal)
  | _, .mk ms ss, v => ms.enc v ++ ss.enc v
def KMembers.enc : {T : Type} → KMembers T → T → List (Bytes × JVal)
  | _, .nil, _ => []
  | _, .cons names t get _ ms, v => ((t.enc (get v)).map (names.headD [], ·)).toList ++ ms.enc v
def KSupers.enc : {T : Type} → KSupers T → T → List (Bytes × JVal)
  | _, .nil, _ => []
  | _, .cons _ get _ s ss, v => s.enc (get v) ++ ss.enc v
end

/-- Something other than `null` is written. -/
def KType.Solid (t : KType T) (v : T) : Prop := ∃ j, t.enc v = some j ∧ j ≠ .null

mutual
/-- The values that are represented exactly. A set or map is the list of its entries in the order of iteration:
inserting them in this order must give this order (as it does for the ordered containers). -/
def KType.Valid : {T : Type} → KType T → T → Prop
  | _, .lib t, v => t.Valid v
  | _, .own k, v => k.valid v
  | _, .nullable t, v => t.Valid v ∧ t.enc v ≠ some .null
  | _, .nullableChecked t, v => if v.2 then v.1 = t.init else t.Valid v.1 ∧ t.Solid v.1
  | _, .optional t, v => t.Valid v
  | _, .optionalChecked t, v => if v.2 then t.Valid v.1 ∧ (t.enc v.1).isSome else v.1 = t.init
  | _, .stdOptional t, v => ∀ x, v = some x → t.Valid x ∧ (t.enc x).isSome
  | _, .sharedPtr t, v => ∀ x, v = some x → t.Valid x ∧ t.Solid x
  | _, .uniquePtr t, v => ∀ x, v = some x → t.Valid x ∧ t.Solid x
  | _, .silentVector t, v => ∀ x ∈ v, t.Valid x ∧ (t.enc x).isSome
  | _, .silentUniquePtr t, v => ∀ x, v = some x → t.Valid x ∧ t.Solid x
  | _, .vector t, v => ∀ x ∈ v, t.Valid x ∧ (t.enc x).isSome
  | _, .oneOrMany t, v => (∀ x ∈ v, t.Valid x ∧ (t.enc x).isSome) ∧ ∀ x vs, v = [x] → t.enc x ≠ some (.arr vs)
  | _, .array N t, v => v.length = N ∧ ∀ x ∈ v, t.Valid x ∧ (t.enc x).isSome
  | _, .arrayVariable count t, v => v.1.length = count ∧ (v.2 < count ∨ v.2 = 0) ∧
      (∀ x ∈ v.1.take v.2, t.Valid x ∧ (t.enc x).isSome) ∧ ∀ x ∈ v.1.drop v.2, x = t.init
  | _, .tuple ts, v => ts.Valid v
  | _, .set _ ins t, v => v.Nodup ∧ v.foldl ins [] = v ∧ ∀ x ∈ v, t.Valid x ∧ (t.enc x).isSome
  | _, .map ins t, v => (v.map Prod.fst).Nodup ∧ v.foldl ins [] = v ∧
      ∀ e ∈ v, e.1 ≠ [] ∧ Quotable e.1 ∧ escapesIn e.1 = e.1 ∧ t.Valid e.2 ∧ (t.enc e.2).isSome
  | _, .struct _ s, v => s.Valid v
def KTypes.Valid : {Ts : Type} → KTypes Ts → Ts → Prop
  | _, .nil, _ => True
  | _, .cons t ts, v => (t.Valid v.1 ∧ (t.enc v.1).isSome) ∧ ts.Valid v.2
def KStruct.Valid : {T : Type} → KStruct T → T → Prop
  | _, .mk ms ss, v => ms.Valid v ∧ ss.Valid v
def KMembers.Valid : {T : Type} → KMembers T → T → Prop
  | _, .nil, _ => True
  | _, .cons _ t get _ ms, v => t.Valid (get v) ∧ ms.Valid v
def KSupers.Valid : {T : Type} → KSupers T → T → Prop
  | _, .nil, _ => True
  | _, .cons _ get _ s ss, v => s.Valid (get v) ∧ ss.Valid v
end

mutual
/-- A variable that holds nothing that would survive reading: every value-initialised variable does (for structs: if
their members do). -/
def KType.Fresh : {T : Type} → KType T → T → Prop
  | _, .lib t, x => t.Fresh x
  | _, .own k, x => k.fresh x
  | _, .nullable t, x => t.Fresh x
  | _, .nullableChecked t, x => x.1 = t.init
  | _, .optional t, x => t.Fresh x
  | _, .optionalChecked t, x => x = (t.init, false)
  | _, .stdOptional _, x => x = none
  | _, .sharedPtr t, x => ∀ y, x = some y → t.Fresh y
  | _, .uniquePtr t, x => ∀ y, x = some y → t.Fresh y
  | _, .silentVector _, x => x = []
  | _, .silentUniquePtr _, x => x = none
  | _, .oneOrMany _, x => x = []
  | _, .array N t, x => x.length = N ∧ ∀ y ∈ x, t.Fresh y
  | _, .arrayVariable count t, x => x.1 = List.replicate count t.init ∧ (count = 0 → x.2 = 0)
  | _, .tuple ts, x => ts.Fresh x
  | _, .map _ _, x => x = []
  | _, .struct _ s, x => s.Fresh x
  | _, .vector _, _ | _, .set _ _ _, _ => True
def KTypes.Fresh : {Ts : Type} → KTypes Ts → Ts → Prop
  | _, .nil, _ => True
  | _, .cons t ts, x => t.Fresh x.1 ∧ ts.Fresh x.2
def KStruct.Fresh : {T : Type} → KStruct T → T → Prop
  | _, .mk ms ss, x => ms.Fresh x ∧ ss.Fresh x
def KMembers.Fresh : {T : Type} → KMembers T → T → Prop
  | _, .nil, _ => True
  | _, .cons _ t get _ ms, x => t.Fresh (get x) ∧ ms.Fresh x
def KSupers.Fresh : {T : Type} → KSupers T → T → Prop
  | _, .nil, _ => True
  | _, .cons _ get _ s ss, x => s.Fresh (get x) ∧ ss.Fresh x
end

/-- A declared member, of the struct itself or of a super class: names, type, access. -/
structure KEntry (T : Type) where
  {M : Type}
  names : List Bytes
  type : KType M
  get : T → M
  set : M → T → T

def KEntry.up (get : T → S) (set : S → T → T) (e : KEntry S) : KEntry T :=
  { names := e.names, type := e.type, get := fun t => e.get (get t), set := fun x t => set (e.set x (get t)) t }

def KEntry.access (e : KEntry T) : Access T := { get := e.get, set := e.set }

mutual
/-- All members, in the order in which they are written. -/
def KStruct.entries : {T : Type} → KStruct T → List (KEntry T)
  | _, .mk ms ss => ms.entries ++ ss.entries
def KMembers.entries : {T : Type} → KMembers T → List (KEntry T)
  | _, .nil => []
  | _, .cons names t get set ms => { names := names, type := t, get := get, set := set } :: ms.entries
def KSupers.entries : {T : Type} → KSupers T → List (KEntry T)
  | _, .nil => []
  | _, .cons _ get set s ss => s.entries.map (KEntry.up get set) ++ ss.entries
end

/-- The declaration of a struct makes sense: every member has a non empty name that can stand between quotes, no two
members have the same (primary) name, they are different parts of the struct and together all of it. -/
structure KStruct.Sensible (s : KStruct T) : Prop where
  named : ∀ e ∈ s.entries, ∃ n, e.names.head? = some n ∧ n ≠ [] ∧ Quotable n
  distinct : (s.entries.map fun e => e.names.head?).Nodup
  apart : (s.entries.map KEntry.access).Pairwise Access.Apart
  stored : ∀ e ∈ s.entries, ∀ x t, e.get (e.set x t) = x
  all : ∀ a b, (∀ e ∈ s.entries, e.get a = e.get b) → a = b

mutual
/-- All structs occurring in a type make sense, and new objects of them are fresh; inserting into a set or map adds
the new entry somewhere and leaves the others. -/
def KType.Lawful : {T : Type} → KType T → Prop
  | _, .lib t => t.Lawful
  | _, .own k => k.Faithful
  | _, .nullable t | _, .nullableChecked t | _, .optional t | _, .optionalChecked t | _, .stdOptional t | _, .sharedPtr t
  | _, .uniquePtr t | _, .silentVector t | _, .silentUniquePtr t | _, .vector t | _, .oneOrMany t | _, .array _ t
  | _, .arrayVariable _ t => t.Lawful
  | _, .set _ ins t => (∀ l x, (ins l x).Perm (x :: l)) ∧ t.Lawful
  | _, .map ins t => (∀ l x, (ins l x).Perm (x :: l)) ∧ t.Lawful
  | _, .tuple ts => ts.Lawful
  | _, .struct init s => s.Sensible ∧ s.Fresh init ∧ s.Lawful
def KTypes.Lawful : {Ts : Type} → KTypes Ts → Prop
  | _, .nil => True
  | _, .cons t ts => t.Lawful ∧ ts.Lawful
def KStruct.Lawful : {T : Type} → KStruct T → Prop
  | _, .mk ms ss => ms.Lawful ∧ ss.Lawful
def KMembers.Lawful : {T : Type} → KMembers T → Prop
  | _, .nil => True
  | _, .cons _ t _ _ ms => t.Lawful ∧ ms.Lawful
def KSupers.Lawful : {T : Type} → KSupers T → Prop
  | _, .nil => True
  | _, .cons _ _ _ s ss => s.Lawful ∧ ss.Lawful
end

mutual
/-- Every member, of every struct in the type, may be absent or is always written. (Not so a member of type `OneOrMany`: nothing is
written for an empty one.) -/
def KType.WritesRequired : {T : Type} → KType T → Prop
  | _, .lib t => t.WritesRequired
  | _, .own k => k.strict
  | _, .nullable t | _, .nullableChecked t | _, .optional t | _, .optionalChecked t | _, .stdOptional t | _, .sharedPtr t
  | _, .uniquePtr t | _, .silentVector t | _, .silentUniquePtr t | _, .vector t | _, .oneOrMany t | _, .array _ t
  | _, .arrayVariable _ t | _, .set _ _ t | _, .map _ t => t.WritesRequired
  | _, .tuple ts => ts.WritesRequired
  | _, .struct _ s => s.WritesRequired
def KTypes.WritesRequired : {Ts : Type} → KTypes Ts → Prop
  | _, .nil => True
  | _, .cons t ts => t.WritesRequired ∧ ts.WritesRequired
def KStruct.WritesRequired : {T : Type} → KStruct T → Prop
  | _, .mk ms ss => ms.WritesRequired ∧ ss.WritesRequired
def KMembers.WritesRequired : {T : Type} → KMembers T → Prop
  | _, .nil => True
  | _, .cons _ t _ _ ms => ((t.isOptional = true ∨ ∀ v, t.Valid v → (t.enc v).isSome) ∧ t.WritesRequired) ∧ ms.WritesRequired
def KSupers.WritesRequired : {T : Type} → KSupers T → Prop
  | _, .nil => True
  | _, .cons _ _ _ s ss => s.WritesRequired ∧ ss.WritesRequired
end

end JsonStruct
