import Verif.Model.Raw
import Verif.Model.Types

/-
Types with raw captures in them: `JsonArray`, `JsonObject`, `JsonObjectOrArray` and their `Ref` forms as members of
structs and as elements of containers.

Simplification: the address of the variable is part of the type. All elements of a container have the same one; only
one of them is being filled at a time.
-/

namespace JsonStruct

mutual
/-- JSH 4686-10311, the specialisations of `TypeHandler`: a type of the library without raw captures; `JsonArray`, `JsonObject` or `JsonObjectOrArray` at an address (JSH 3708-3738);
their `Ref` forms; or one of the library's templates with such types for parameters. -/
inductive RType : Type → Type 1
  | lib {T : Type} (t : CType T) : RType T
  | raw (k : RawKind) (addr : Nat) : RType Bytes
  | rawRef (k : RawKind) : RType Bytes
  | nullable {T : Type} (t : RType T) : RType T
  | nullableChecked {T : Type} (t : RType T) : RType (T × Bool)
  | optional {T : Type} (t : RType T) : RType T
  | optionalChecked {T : Type} (t : RType T) : RType (T × Bool)
  | stdOptional {T : Type} (t : RType T) : RType (Option T)
  | sharedPtr {T : Type} (t : RType T) : RType (Option T)
  | uniquePtr {T : Type} (t : RType T) : RType (Option T)
  | silentVector {T : Type} (t : RType T) : RType (List T)
  | silentUniquePtr {T : Type} (t : RType T) : RType (Option T)
  | vector {T : Type} (t : RType T) : RType (List T)
  | oneOrMany {T : Type} (t : RType T) : RType (List T)
  | array (N : Nat) {T : Type} (t : RType T) : RType (List T)
  | arrayVariable (count : Nat) {T : Type} (t : RType T) : RType (List T × Nat)
  | tuple {Ts : Type} (ts : RTypes Ts) : RType Ts
  | set {T : Type} (eq : DecidableEq T) (ins : List T → T → List T) (t : RType T) : RType (List T)
  | map {V : Type} (ins : List (Bytes × V) → Bytes × V → List (Bytes × V)) (t : RType V) : RType (List (Bytes × V))
  | struct {T : Type} (init : T) (s : RStruct T) : RType T

/-- JSH 9483-9522, `Ts...`: The element types of a tuple. -/
inductive RTypes : Type → Type 1
  | nil : RTypes Unit
  | cons {T Ts : Type} (t : RType T) (ts : RTypes Ts) : RTypes (T × Ts)

/-- JSH 4118-4199: A struct, as `CStruct`. -/
inductive RStruct : Type → Type 1
  | mk {T : Type} (ms : RMembers T) (ss : RSupers T) : RStruct T

/-- JSH 4174-4185: Declared members, as `CMembers`. -/
inductive RMembers : Type → Type 1
  | nil {T : Type} : RMembers T
  | cons {T M : Type} (names : List Bytes) (t : RType M) (get : T → M) (set : M → T → T) (ms : RMembers T) : RMembers T

/-- JSH 4188-4199: Super classes, as `CSupers`. -/
inductive RSupers : Type → Type 1
  | nil {T : Type} : RSupers T
  | cons {T S : Type} (name : Bytes) (get : T → S) (set : S → T → T) (s : RStruct S) (ss : RSupers T) : RSupers T
end

/-- JSH 3833-3862 `IsOptionalType`. -/
def RType.isOptional : RType T → Bool
  | .lib t => t.isOptional
  | .optional _ | .optionalChecked _ | .stdOptional _ | .uniquePtr _ | .silentVector _ | .silentUniquePtr _ => true
  | _ => false

mutual
/-- JSH 5626-10311 (see each handler): The specialisation of `TypeHandler` for each type, given those for raw captures. -/
def RType.build (cap : RawKind → Nat → Handler Bytes) : {T : Type} → RType T → Handler T
  | _, .lib t => t.handler
  | _, .raw k addr => cap k addr
  | _, .rawRef k => rawRefH k
  | _, .nullable t => nullableH (t.build cap)
  | _, .nullableChecked t => nullableCheckedH (t.build cap)
  | _, .optional t => optionalH (t.build cap)
  | _, .optionalChecked t => optionalCheckedH (t.build cap)
  | _, .stdOptional t => stdOptionalH (t.build cap)
  | _, .sharedPtr t => ptrH (t.build cap)
  | _, .uniquePtr t => ptrH (t.build cap)
  | _, .silentVector t => silentVecH (t.build cap)
  | _, .silentUniquePtr t => silentPtrH (t.build cap)
  | _, .vector t => vecH (t.build cap)
  | _, .oneOrMany t => oneOrManyH (t.build cap)
  | _, .array N t => arrH N (t.build cap)
  | _, .arrayVariable count t => avcH count (t.build cap)
  | _, .tuple ts => tupleH (ts.build cap)
  | _, .set _ ins t => setH ins (t.build cap)
  | _, .map ins t => mapH ins (t.build cap)
  | _, .struct init s => structH init (s.meta cap)
/-- JSH 9483-9522 `TupleTypeHandler`. -/
def RTypes.build (cap : RawKind → Nat → Handler Bytes) : {Ts : Type} → RTypes Ts → TupleH Ts
  | _, .nil => TupleH.nil
  | _, .cons t ts => TupleH.cons (t.build cap) (ts.build cap)
/-- JSH 4118-4152: `js_static_meta_data_info` and `js_static_meta_super_info` of a struct. -/
def RStruct.meta (cap : RawKind → Nat → Handler Bytes) : {T : Type} → RStruct T → Meta T
  | _, .mk ms ss => .mk (ms.members cap) (ss.supers cap)
/-- JSH 4203-4208 `makeMemberInfo` for each member. -/
def RMembers.members (cap : RawKind → Nat → Handler Bytes) : {T : Type} → RMembers T → List (Member T)
  | _, .nil => []
  | _, .cons names t get set ms => Member.of names t.isOptional (t.build cap) get set :: (ms.members cap)
/-- JSH 4210-4214 `makeSuperInfo` for each super class. -/
def RSupers.supers (cap : RawKind → Nat → Handler Bytes) : {T : Type} → RSupers T → List (Bytes × Meta T)
  | _, .nil => []
  | _, .cons name get set s ss => (name, (s.meta cap).up get set) :: (ss.supers cap)
end

/-- JSH 5626-10311, with 9252-9294, 9331-9372 and 9423-9478 for raw captures: `TypeHandler<T>`. -/
def RType.handler (t : RType T) : Handler T := t.build rawH

end JsonStruct
