import Verif.Model.Types

/-
Type handlers that users write themselves (JSH 4216-4221; README 207-262; examples/01_simple_struct.cpp 33-81, examples/08_custom_types.cpp
12-30, tests/json-struct-map-typehandler.cpp 7-64), and the types of the library with such types inside.

`TypeHandler<T>::to` is any program that looks at `context.token`, calls `context.nextToken()`, sets `context.error`, calls the
handlers of other types, loops over the tokens, and returns an error. Its own variables and what it computes with them are functions of Lean.

Of `context.token` a handler sees the bytes and types of the name and the value (`Tok`), not where they are in memory.

Not covered: handlers that use the tokenizer of the context otherwise than by `nextToken` (`copyFromValue`, scopes), change the options or the lists of
names of the context, use `user_data` or have effects outside of the variable they fill; and handlers with loops in which no token is read.
-/

namespace JsonStruct

/-- A loop in a handler of a user's own, as in examples/01_simple_struct.cpp 43-58 and tests/json-struct-map-typehandler.cpp 24-38 and in the library's own (JSH 9020-9031):
the body is executed; if it returns an error or says so, the loop ends; otherwise the next token is fetched and, if there is one, the body executed again.
`s` is what the loop changes. -/
def eachTo (body : S → Nat → Ctx → Option (Err × (Bool × S) × Ctx)) (fuel : Nat) : Nat → S → Ctx → Option (Err × S × Ctx)
  | 0, _, _ => none
  | n + 1, s, c => (body s fuel c).bind fun r =>
    if r.1 ≠ .noError ∨ r.2.1.1 = false then some (r.1, r.2.1.2, r.2.2)
    else if r.2.2.next.error ≠ .noError then some (r.2.2.next.error, r.2.1.2, r.2.2.next)
    else eachTo body fuel n r.2.1.2 r.2.2.next

mutual
/-- JSH 4686-10311, the specialisations of `TypeHandler`, and JSH 4216-4221 for those of the user: a type of the library; one with a handler of the user's own (with
or without `IsOptionalType`, JSH 3833-3846; its default value; reading; writing); or one of the library's templates with such types for parameters. -/
inductive OType : Type → Type 1
  | lib {T : Type} (t : CType T) : OType T
  | own {T : Type} (optional : Bool) (init : T) (f : T → Tok → OProg T) (from_ : T → Tok → Ser → Option (Tok × Ser)) : OType T
  | nullable {T : Type} (t : OType T) : OType T
  | nullableChecked {T : Type} (t : OType T) : OType (T × Bool)
  | optional {T : Type} (t : OType T) : OType T
  | optionalChecked {T : Type} (t : OType T) : OType (T × Bool)
  | stdOptional {T : Type} (t : OType T) : OType (Option T)
  | sharedPtr {T : Type} (t : OType T) : OType (Option T)
  | uniquePtr {T : Type} (t : OType T) : OType (Option T)
  | silentVector {T : Type} (t : OType T) : OType (List T)
  | silentUniquePtr {T : Type} (t : OType T) : OType (Option T)
  | vector {T : Type} (t : OType T) : OType (List T)
  | oneOrMany {T : Type} (t : OType T) : OType (List T)
  | array (N : Nat) {T : Type} (t : OType T) : OType (List T)
  | arrayVariable (count : Nat) {T : Type} (t : OType T) : OType (List T × Nat)
  | tuple {Ts : Type} (ts : OTypes Ts) : OType Ts
  | set {T : Type} (eq : DecidableEq T) (ins : List T → T → List T) (t : OType T) : OType (List T)
  | map {V : Type} (ins : List (Bytes × V) → Bytes × V → List (Bytes × V)) (t : OType V) : OType (List (Bytes × V))
  | struct {T : Type} (init : T) (s : OStruct T) : OType T

/-- JSH 9483-9522, `Ts...`: The element types of a tuple. -/
inductive OTypes : Type → Type 1
  | nil : OTypes Unit
  | cons {T Ts : Type} (t : OType T) (ts : OTypes Ts) : OTypes (T × Ts)

/-- JSH 4118-4199: A struct, as `CStruct`. -/
inductive OStruct : Type → Type 1
  | mk {T : Type} (ms : OMembers T) (ss : OSupers T) : OStruct T

/-- JSH 4174-4185: Declared members, as `CMembers`. -/
inductive OMembers : Type → Type 1
  | nil {T : Type} : OMembers T
  | cons {T M : Type} (names : List Bytes) (t : OType M) (get : T → M) (set : M → T → T) (ms : OMembers T) : OMembers T

/-- JSH 4188-4199: Super classes, as `CSupers`. -/
inductive OSupers : Type → Type 1
  | nil {T : Type} : OSupers T
  | cons {T S : Type} (name : Bytes) (get : T → S) (set : S → T → T) (s : OStruct S) (ss : OSupers T) : OSupers T

/-- JSH 4216-4221, README 240-262: `TypeHandler<T>::to` as a user writes it, from some point on. `ret` returns an error and leaves a value in the variable;
`next` is `context.nextToken()` (JSH 3901-3905), after which the error and `context.token` are known; `store` is `context.error = ...`; `call` is `TypeHandler<M>::to`
for a variable that holds `old`; `each` is a loop. -/
inductive OProg : Type → Type 1
  | ret {T : Type} (e : Err) (v : T) : OProg T
  | next {T : Type} (k : Err → Tok → OProg T) : OProg T
  | store {T : Type} (e : Err) (k : OProg T) : OProg T
  | call {T M : Type} (t : OType M) (old : M) (k : Err → M → Tok → OProg T) : OProg T
  | each {T S : Type} (s : S) (body : S → Tok → OProg (Bool × S)) (k : Err → S → Tok → OProg T) : OProg T
end

/-- JSH 3833-3862 `IsOptionalType`. -/
def OType.isOptional : OType T → Bool
  | .lib t => t.isOptional
  | .own b _ _ _ => b
  | .optional _ | .optionalChecked _ | .stdOptional _ | .uniquePtr _ | .silentVector _ | .silentUniquePtr _ => true
  | _ => false

mutual
/-- JSH 5626-10311 (see each handler): The specialisation of `TypeHandler` for each type. -/
def OType.handler : {T : Type} → OType T → Handler T
  | _, .lib t => t.handler
  | _, .own _ init f from_ => { init, to := fun n old c => (f old c.token.tok).run n c, from_ }
  | _, .nullable t => nullableH t.handler
  | _, .nullableChecked t => nullableCheckedH t.handler
  | _, .optional t => optionalH t.handler
  | _, .optionalChecked t => optionalCheckedH t.handler
  | _, .stdOptional t => stdOptionalH t.handler
  | _, .sharedPtr t => ptrH t.handler
  | _, .uniquePtr t => ptrH t.handler
  | _, .silentVector t => silentVecH t.handler
  | _, .silentUniquePtr t => silentPtrH t.handler
  | _, .vector t => vecH t.handler
  | _, .oneOrMany t => oneOrManyH t.handler
  | _, .array N t => arrH N t.handler
  | _, .arrayVariable count t => avcH count t.handler
  | _, .tuple ts => tupleH ts.handler
  | _, .set _ ins t => setH ins t.handler
  | _, .map ins t => mapH ins t.handler
  | _, .struct init s => structH init s.meta
/-- JSH 9483-9522 `TupleTypeHandler`. -/
def OTypes.handler : {Ts : Type} → OTypes Ts → TupleH Ts
  | _, .nil => TupleH.nil
  | _, .cons t ts => TupleH.cons t.handler ts.handler
/-- JSH 4118-4152: `js_static_meta_data_info` and `js_static_meta_super_info` of a struct. -/
def OStruct.meta : {T : Type} → OStruct T → Meta T
  | _, .mk ms ss => .mk ms.members ss.supers
/-- JSH 4203-4208 `makeMemberInfo` for each member. -/
def OMembers.members : {T : Type} → OMembers T → List (Member T)
  | _, .nil => []
  | _, .cons names t get set ms => Member.of names t.isOptional t.handler get set :: ms.members
/-- JSH 4210-4214 `makeSuperInfo` for each super class. -/
def OSupers.supers : {T : Type} → OSupers T → List (Bytes × Meta T)
  | _, .nil => []
  | _, .cons name get set s ss => (name, s.meta.up get set) :: ss.supers
/-- JSH 4216-4221: What a user's `TypeHandler<T>::to` does to a context. -/
def OProg.run : {T : Type} → OProg T → Nat → Ctx → Option (Err × T × Ctx)
  | _, .ret e v => fun _ c => some (e, v, c)
  | _, .next k => fun n c => (k c.next.error c.next.token.tok).run n c.next
  | _, .store e k => fun n c => k.run n { c with error := e }
  | _, .call t old k => fun n c => (t.handler.to n old c).bind fun r => (k r.1 r.2.1 r.2.2.token.tok).run n r.2.2
  | _, .each s body k => fun n c =>
    (eachTo (fun s n c => (body s c.token.tok).run n c) n n s c).bind fun r => (k r.1 r.2.1 r.2.2.token.tok).run n r.2.2
end

/-- examples/01_simple_struct.cpp 33-81 `TypeHandler<ModuleList>`, with any number for `ReservedSize` and any type for `VecMember`: at most `N` elements are read into an array, and their
number is stored. -/
def moduleListTo (N : Nat) (t : OType M) (old : List M × Nat) (tok : Tok) : OProg (List M × Nat) :=
  if tok.valueType ≠ .arrayStart then .ret .expectedArrayStart old
  else .next fun e tok =>
    if N = 0 then moduleListEnd e old tok
    else if e ≠ .noError then .ret e old
    else .each (0, old) (fun s tok =>
        if tok.valueType = .arrayEnd then .ret .noError (false, s.1, s.2.1, s.1)
        else .call t (s.2.1.getD s.1 t.handler.init) fun e v _ => .store e
          (if e ≠ .noError then .ret e (false, s.1, s.2.1.set s.1 v, s.2.2)
          else if s.1 + 1 = N then .next fun e tok =>
            if tok.valueType ≠ .arrayEnd then .ret .expectedArrayEnd (false, s.1 + 1, s.2.1.set s.1 v, s.2.2)
            else .ret e (false, s.1 + 1, s.2.1.set s.1 v, s.2.2)
          else .ret .noError (true, s.1 + 1, s.2.1.set s.1 v, s.2.2)))
      fun e s tok => if e ≠ .noError then .ret e s.2 else moduleListEnd e s.2 tok
where
  /-- examples/01_simple_struct.cpp 60-62. -/
  moduleListEnd (e : Err) (v : List M × Nat) (tok : Tok) : OProg (List M × Nat) :=
    if tok.valueType ≠ .arrayEnd then .ret .expectedArrayEnd v else .ret e v

/-- examples/01_simple_struct.cpp 22-81 `ModuleList` and its handler. -/
def moduleList (N : Nat) (t : OType M) : OType (List M × Nat) :=
  .own false (List.replicate N t.handler.init, 0) (moduleListTo N t) fun v k s => putArray (putElems t.handler (v.1.take v.2)) k s

/-- examples/08_custom_types.cpp 3-30, examples/09_nested_types.cpp 8-27: `Vec3<T>` and its handler, which calls that of `T[3]`. -/
def vec3 (t : OType M) : OType (List M) :=
  .own false (List.replicate 3 t.handler.init) (fun old _ => .call (.array 3 t) old fun e v _ => .ret e v) (arrH 3 t.handler).from_

/-- README 235-258: `TypeHandler<uint32_t>`, with the library's conversion in place of `strtoul` (which takes signs and blanks, and anything behind the digits, and
reads on behind the token). -/
def readmeUint : OType Int :=
  .own false 0 (fun _ tok => .ret (intTo ⟨32, false⟩ tok.value).1 (intTo ⟨32, false⟩ tok.value).2) (intH ⟨32, false⟩).from_

end JsonStruct
