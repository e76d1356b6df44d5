import Verif.Model.Struct
import Verif.Model.FloatHandler
import Verif.Model.Time
import Verif.Model.Map

/-
The types the library can read and write, arbitrarily nested, and the `TypeHandler` chosen for each of them.
`CType T` describes a C++ type whose values are modelled by `T`. Structs are described as by the macros `JS_OBJECT`,
`JS_OBJECT_WITH_SUPER`, `JS_MEMBER`, `JS_MEMBER_WITH_NAME`, `JS_MEMBER_ALIASES` (JSH 4020-4160): by their members,
each with its names, its type and how it is reached in the struct, and by their super classes.

`std::vector<bool>` has a handler of its own, which does what the general one does.

Not among them: `JsonObject` and its relatives, `Type`, `int128`-typed enums, function
objects and types with a handler of the user's own. Elements of sets are the same if they are equal in the model; sets of
floating point numbers, for which C++ takes 0.0 and -0.0 to be equal, are not meant to be covered.
-/

namespace JsonStruct

mutual
/-- JSH 4686-10311, the specialisations of `TypeHandler`: A C++ type with a `TypeHandler`. -/
inductive CType : Type → Type 1
  | bool : CType Bool
  | int (I : IntTy) : CType Int
  | double : CType Nat
  | float : CType Nat
  | time (C : Clock) : CType Int
  | string (m : Simd) : CType Bytes
  | enum (names : List Bytes) (U : IntTy) : CType Int
  | enumValue (U : IntTy) : CType Int
  | nullable {T : Type} (t : CType T) : CType T
  | nullableChecked {T : Type} (t : CType T) : CType (T × Bool)
  | optional {T : Type} (t : CType T) : CType T
  | optionalChecked {T : Type} (t : CType T) : CType (T × Bool)
  | stdOptional {T : Type} (t : CType T) : CType (Option T)
  | sharedPtr {T : Type} (t : CType T) : CType (Option T)
  | uniquePtr {T : Type} (t : CType T) : CType (Option T)
  | silentString (m : Simd) : CType Bytes
  | silentVector {T : Type} (t : CType T) : CType (List T)
  | silentUniquePtr {T : Type} (t : CType T) : CType (Option T)
  | vector {T : Type} (t : CType T) : CType (List T)
  | oneOrMany {T : Type} (t : CType T) : CType (List T)
  | array (N : Nat) {T : Type} (t : CType T) : CType (List T)
  | arrayVariable (count : Nat) {T : Type} (t : CType T) : CType (List T × Nat)
  | tuple {Ts : Type} (ts : CTypes Ts) : CType Ts
  | set {T : Type} (eq : DecidableEq T) (ins : List T → T → List T) (t : CType T) : CType (List T)
  | map {V : Type} (ins : List (Bytes × V) → Bytes × V → List (Bytes × V)) (t : CType V) : CType (List (Bytes × V))
  | tokens : CType (List Tok)
  | jmap : CType JMap
  | struct {T : Type} (init : T) (s : CStruct T) : CType T

/-- JSH 9483-9522, `Ts...`: The element types of a tuple. -/
inductive CTypes : Type → Type 1
  | nil : CTypes Unit
  | cons {T Ts : Type} (t : CType T) (ts : CTypes Ts) : CTypes (T × Ts)

/-- JSH 4118-4199: A struct: its members as declared; its super classes, from the last one declared to the first. -/
inductive CStruct : Type → Type 1
  | mk {T : Type} (ms : CMembers T) (ss : CSupers T) : CStruct T

/-- JSH 4174-4185: Declared members: names (the primary one first), type, access. -/
inductive CMembers : Type → Type 1
  | nil {T : Type} : CMembers T
  | cons {T M : Type} (names : List Bytes) (t : CType M) (get : T → M) (set : M → T → T) (ms : CMembers T) : CMembers T

/-- JSH 4188-4199: Super classes: name, access, description. -/
inductive CSupers : Type → Type 1
  | nil {T : Type} : CSupers T
  | cons {T S : Type} (name : Bytes) (get : T → S) (set : S → T → T) (s : CStruct S) (ss : CSupers T) : CSupers T
end

/-- JSH 3833-3862 `IsOptionalType`, with the `typedef`s at 3614, 3686, 3692, 3699 and 3706. -/
def CType.isOptional : CType T → Bool
  | .optional _ | .optionalChecked _ | .stdOptional _ | .uniquePtr _ | .silentString _ | .silentVector _ | .silentUniquePtr _ => true
  | _ => false

mutual
/-- JSH 5626-10311 (see each handler): The specialisation of `TypeHandler` for each type. -/
def CType.handler : {T : Type} → CType T → Handler T
  | _, .bool => boolH
  | _, .int I => intH I
  | _, .double => doubleH
  | _, .float => floatH
  | _, .time C => timeH C
  | _, .string m => stringH m
  | _, .enum names U => enumH names U
  | _, .enumValue U => enumValueH U
  | _, .nullable t => nullableH t.handler
  | _, .nullableChecked t => nullableCheckedH t.handler
  | _, .optional t => optionalH t.handler
  | _, .optionalChecked t => optionalCheckedH t.handler
  | _, .stdOptional t => stdOptionalH t.handler
  | _, .sharedPtr t => ptrH t.handler
  | _, .uniquePtr t => ptrH t.handler
  | _, .silentString m => silentStringH m
  | _, .silentVector t => silentVecH t.handler
  | _, .silentUniquePtr t => silentPtrH t.handler
  | _, .vector t => vecH t.handler
  | _, .oneOrMany t => oneOrManyH t.handler
  | _, .array N t => arrH N t.handler
  | _, .arrayVariable count t => avcH count t.handler
  | _, .tuple ts => tupleH ts.handler
  | _, .set _ ins t => setH ins t.handler
  | _, .map ins t => mapH ins t.handler
  | _, .tokens => tokensH
  | _, .jmap => jmapH
  | _, .struct init s => structH init s.meta
/-- JSH 9483-9522 `TupleTypeHandler`. -/
def CTypes.handler : {Ts : Type} → CTypes Ts → TupleH Ts
  | _, .nil => TupleH.nil
  | _, .cons t ts => TupleH.cons t.handler ts.handler
/-- JSH 4118-4152: `js_static_meta_data_info` and `js_static_meta_super_info` of a struct. -/
def CStruct.meta : {T : Type} → CStruct T → Meta T
  | _, .mk ms ss => .mk ms.members ss.supers
/-- JSH 4203-4208 `makeMemberInfo` for each member. -/
def CMembers.members : {T : Type} → CMembers T → List (Member T)
  | _, .nil => []
  | _, .cons names t get set ms => Member.of names t.isOptional t.handler get set :: ms.members
/-- JSH 4210-4214 `makeSuperInfo` for each super class. -/
def CSupers.supers : {T : Type} → CSupers T → List (Bytes × Meta T)
  | _, .nil => []
  | _, .cons name get set s ss => (name, s.meta.up get set) :: ss.supers
end

end JsonStruct
