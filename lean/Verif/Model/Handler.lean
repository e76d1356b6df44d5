import Verif.Model.Serializer
import Verif.Model.Escape
import Verif.Model.Number
import Verif.Model.Bool

/-
`ParseContext` and the type handlers (JSH 3864-3966, 4567-4683, 5788-5832, 6093-6111, 8649-9214, 9481-9767,
10099-10314). The struct handlers are in Model/Struct.lean.

A `TypeHandler<T>` is a pair of functions. `to` changes a `T` and a `ParseContext`; `from` writes to a serializer
and changes the token through which names are handed down. Handlers of compound types take the handlers of their
parts as parameters, as the C++ templates do.

Simplifications: user data and the error position kept for messages (`updateErrorContext`) are left out here;
token contents are captured by value (`Tok`), so the lifetime of the bytes a captured token points at is not
modelled.
-/

namespace JsonStruct

/-- JSH 3957-3965, the members of `ParseContext`; the defaults are those of the source. -/
structure Ctx where
  tz : Tz
  token : Token := {}
  error : Err := .noError
  missing : List Bytes := []
  unassigned : List Bytes := []
  allowMissing : Bool := true
  allowUnassigned : Bool := true
  track : Bool := true

/-- JSH 3901-3905 `ParseContext::nextToken`. -/
def Ctx.next (c : Ctx) : Ctx :=
  let r := c.tz.nextToken c.token
  { c with tz := r.2.1, token := r.2.2, error := r.1 }

/-- JSH 4216-4221:
`TypeHandler<T>`. `init` is the value of a new `T` (`T()`). `to n old c` is the returned error, the value and
the context; `none` if more than `n` iterations of some loop are needed. `from v token s` is the token and the
serializer afterwards; `none` if the behaviour is undefined. -/
structure Handler (T : Type) where
  init : T
  to : Nat → T → Ctx → Option (Err × T × Ctx)
  from_ : T → Tok → Ser → Option (Tok × Ser)

/-- JSH 3215-3337: `serializer.write(token)`, the result ignored. -/
def putTok (k : Tok) (s : Ser) : Option (Tok × Ser) := some (k, (s.write k).2)

/-! ### Scalars -/

/-- JSH 8915-8947 `TypeHandler<bool>`. -/
def boolH : Handler Bool where
  init := false
  to := fun _ old c => let r := boolTo old c.token.value.bytes; some (r.1, r.2, c)
  from_ := fun b k s => putTok { k with value := boolText b, valueType := .bool } s

/-- JSH 8648-8679 `TypeHandlerIntType<T>`; nothing is written if the conversion fails. -/
def intH (I : IntTy) : Handler Int where
  init := 0
  to := fun _ _ c => let r := intTo I c.token.value.bytes; some (r.1, r.2, c)
  from_ := fun v k s =>
    match intFrom I v with
    | none => some (k, s)
    | some txt => putTok { k with value := txt, valueType := .number } s

/-- JSH 6093-6111 `TypeHandler<std::string>`: the type of the token is not looked at. -/
def stringH (m : Simd) : Handler Bytes where
  init := []
  to := fun _ _ c => some (.noError, escapesIn c.token.value.bytes, c)
  from_ := fun v k s => putTok { k with value := escapesOut m v, valueType := .string } s

/-- JSH 5788-5832 `EnumHandler<T, F>`: `names` are `F::strings()`, `U` is the underlying type. Values are kept as
numbers, since `static_cast` from a number is not checked; naming a value outside of the list is undefined. -/
def enumH (names : List Bytes) (U : IntTy) : Handler Int where
  init := 0
  to := fun _ old c =>
    if c.token.valueType = .string then
      match names.findIdx? (· = c.token.value.bytes) with
      | some i => some (.noError, i, c)
      | none => some (.illegalDataValue, old, c)
    else if c.token.valueType = .number then
      let r := intTo U c.token.value.bytes
      if r.1 ≠ .noError then some (r.1, old, c) else some (.noError, r.2, c)
    else some (.illegalDataValue, old, c)
  from_ := fun v k s =>
    if 0 ≤ v then
      match names[v.toNat]? with
      | some n => putTok { k with value := n, valueType := .string } s
      | none => none
    else none

/-- JSH 5656-5677 `JS_ENUM_DECLARE_VALUE_PARSER`: an enumeration handled as its underlying type. -/
def enumValueH (U : IntTy) : Handler Int where
  init := 0
  to := fun _ old c =>
    let r := intTo U c.token.value.bytes
    some (r.1, if r.1 = .noError then r.2 else old, c)
  from_ := (intH U).from_

/-! ### Wrappers -/

/-- The token written for `null` (JSH 8782-8785, 8873-8876, 8906-8909). -/
def putNull (k : Tok) (s : Ser) : Option (Tok × Ser) := putTok { k with value := b!"null", valueType := .null } s

/-- JSH 8744-8760 `TypeHandler<Nullable<T>>`. -/
def nullableH (h : Handler T) : Handler T where
  init := h.init
  to := fun n old c => if c.token.valueType = .null then some (.noError, old, c) else h.to n old c
  from_ := h.from_

/-- JSH 8763-8792 `TypeHandler<NullableChecked<T>>`: the data and the flag `null`. -/
def nullableCheckedH (h : Handler T) : Handler (T × Bool) where
  init := (h.init, true)
  to := fun n old c =>
    if c.token.valueType = .null then some (.noError, (old.1, true), c)
    else (h.to n old.1 c).map fun r => (r.1, (r.2.1, false), r.2.2)
  from_ := fun v k s => if v.2 then putNull k s else h.from_ v.1 k s

/-- JSH 8795-8808 `TypeHandler<Optional<T>>`. -/
def optionalH (h : Handler T) : Handler T where
  init := h.init
  to := h.to
  from_ := h.from_

/-- JSH 8811-8826 `TypeHandler<OptionalChecked<T>>`: the data and the flag `assigned`. -/
def optionalCheckedH (h : Handler T) : Handler (T × Bool) where
  init := (h.init, false)
  to := fun n old c => (h.to n old.1 c).map fun r => (r.1, (r.2.1, true), r.2.2)
  from_ := fun v k s => if v.2 then h.from_ v.1 k s else some (k, s)

/-- JSH 8830-8845 `TypeHandler<std::optional<T>>`. -/
def stdOptionalH (h : Handler T) : Handler (Option T) where
  init := none
  to := fun n _ c => (h.to n h.init c).map fun r => (r.1, some r.2.1, r.2.2)
  from_ := fun v k s => match v with | some x => h.from_ x k s | none => some (k, s)

/-- JSH 8849-8879 `TypeHandler<std::shared_ptr<T>>` and 8882-8912 `TypeHandler<std::unique_ptr<T>>`. -/
def ptrH (h : Handler T) : Handler (Option T) where
  init := none
  to := fun n old c =>
    if c.token.valueType ≠ .null then
      (h.to n (old.getD h.init) c).map fun r => (r.1, some r.2.1, r.2.2)
    else some (.noError, none, c)
  from_ := fun v k s => match v with | some x => h.from_ x k s | none => putNull k s

/-- JSH 9107-9121 `TypeHandler<SilentString>`: an empty string is not written. -/
def silentStringH (m : Simd) : Handler Bytes where
  init := []
  to := (stringH m).to
  from_ := fun v k s => if v.length ≠ 0 then (stringH m).from_ v k s else some (k, s)

/-- JSH 9143-9159 `TypeHandler<SilentUniquePtr<T>>`. -/
def silentPtrH (h : Handler T) : Handler (Option T) where
  init := none
  to := (ptrH h).to
  from_ := fun v k s => match v with | some _ => (ptrH h).from_ v k s | none => some (k, s)

/-! ### Arrays -/

/-- Writing an array: `[`, the elements, `]` (JSH 9034-9052, 9085-9103, 9544-9558, 9623-9637, 9703-9717,
10136-10150, 10182-10200, 10271-10285). -/
def putArray (elems : Tok → Ser → Option (Tok × Ser)) (k : Tok) (s : Ser) : Option (Tok × Ser) := do
  let (k, s) ← putTok { k with value := b!"[", valueType := .arrayStart } s
  let (k, s) ← elems { k with name := [] } s
  putTok { k with name := [], value := b!"]", valueType := .arrayEnd } s

/-- JSH 9042-9045 (and the other containers): The elements one after the other. -/
def putElems (h : Handler T) : List T → Tok → Ser → Option (Tok × Ser)
  | [], k, s => some (k, s)
  | v :: vs, k, s => do
    let (k, s) ← h.from_ v k s
    putElems h vs k s

/-- JSH 9020-9031, the loop of the vector handler (and 9069-9082); the vector so far is `acc`. -/
def vecLoop (h : Handler T) (fuel : Nat) : Nat → List T → Ctx → Option (Err × List T × Ctx)
  | 0, _, _ => none
  | n + 1, acc, c =>
    if c.token.valueType = .arrayEnd then some (.noError, acc, c)
    else do
      let (e, x, c) ← h.to fuel h.init c
      let acc := acc ++ [x]
      if e ≠ .noError then some (e, acc, c)
      else
        let c := c.next
        if c.error ≠ .noError then some (c.error, acc, c) else vecLoop h fuel n acc c

/-- JSH 9006-9053 `TypeHandler<std::vector<T>>`, and 9056-9104 for `bool`. -/
def vecH (h : Handler T) : Handler (List T) where
  init := []
  to := fun n old c =>
    if c.token.valueType ≠ .arrayStart then some (.expectedArrayStart, old, c)
    else
      let c := c.next
      if c.error ≠ .noError then some (c.error, old, c) else vecLoop h n n [] c
  from_ := fun v => putArray (putElems h v)

/-- JSH 9124-9140 `TypeHandler<SilentVector<T>>`. -/
def silentVecH (h : Handler T) : Handler (List T) where
  init := []
  to := (vecH h).to
  from_ := fun v k s => if v.length ≠ 0 then (vecH h).from_ v k s else some (k, s)

/-- JSH 9640-9676 `TypeHandler<OneOrMany<T>>`. -/
def oneOrManyH (h : Handler T) : Handler (List T) where
  init := []
  to := fun n old c =>
    if c.token.valueType = .arrayStart then
      ((vecH h).to n old c).map fun r => (r.1, r.2.1, { r.2.2 with error := r.1 })
    else
      (h.to n h.init c).map fun r => (r.1, old ++ [r.2.1], { r.2.2 with error := r.1 })
  from_ := fun v k s =>
    match v with
    | [] => some (k, s)
    | [x] => h.from_ x k s
    | v => (vecH h).from_ v k s

/-- JSH 9688-9697 (and 10256-10265), the loop of the array handlers: the elements still to be read are `old`. The
result is the error returned from inside the loop, if any. -/
def arrLoop (h : Handler T) (fuel : Nat) : List T → Ctx → Option (Option Err × List T × Ctx)
  | [], c => some (none, [], c)
  | x :: xs, c =>
    if c.error ≠ .noError then some (some c.error, x :: xs, c)
    else do
      let (e, x, c) ← h.to fuel x c
      let c := { c with error := e }
      if e ≠ .noError then some (some e, x :: xs, c)
      else
        let (r, xs, c) ← arrLoop h fuel xs c.next
        some (r, x :: xs, c)

/-- JSH 9678-9718 `TypeHandler<T[N]>` and 10246-10286 `TypeHandler<std::array<T, N>>`: the value is the list of the
`N` elements. -/
def arrH (N : Nat) (h : Handler T) : Handler (List T) where
  init := List.replicate N h.init
  to := fun n old c =>
    if c.token.valueType ≠ .arrayStart then some (.expectedArrayStart, old, c)
    else do
      let (r, xs, c) ← arrLoop h n old c.next
      match r with
      | some e => some (e, xs, c)
      | none =>
        if c.token.valueType ≠ .arrayEnd then some (.expectedArrayEnd, xs, c) else some (c.error, xs, c)
  from_ := fun v => putArray (putElems h v)

/-- JSH 10115-10129, the loop of `ArrayVariableContent`: as `arrLoop`; at the end of the array the number of
elements read, `i`, is stored. -/
def avcLoop (h : Handler T) (fuel : Nat) (size : Nat) : Nat → List T → Ctx → Option (Option Err × List T × Nat × Ctx)
  | _, [], c => some (none, [], size, c)
  | i, x :: xs, c =>
    if c.error ≠ .noError then some (some c.error, x :: xs, size, c)
    else if c.token.valueType = .arrayEnd then some (none, x :: xs, i, c)
    else do
      let (e, x, c) ← h.to fuel x c
      let c := { c with error := e }
      if e ≠ .noError then some (some e, x :: xs, size, c)
      else
        let (r, xs, size, c) ← avcLoop h fuel size (i + 1) xs c.next
        some (r, x :: xs, size, c)

/-- JSH 10099-10151 `TypeHandler<ArrayVariableContent<T, COUNT>>`: the array and `size`. Reading an element at
`COUNT` or beyond is undefined. -/
def avcH (count : Nat) (h : Handler T) : Handler (List T × Nat) where
  init := (List.replicate count h.init, 0)
  to := fun n old c =>
    if c.token.valueType ≠ .arrayStart then some (.expectedArrayStart, old, c)
    else do
      let (r, xs, size, c) ← avcLoop h n old.2 0 old.1 c.next
      match r with
      | some e => some (e, (xs, size), c)
      | none =>
        if c.token.valueType ≠ .arrayEnd then some (.expectedArrayEnd, (xs, size), c) else some (c.error, (xs, size), c)
  from_ := fun v k s => if v.2 ≤ v.1.length then putArray (putElems h (v.1.take v.2)) k s else none

/-- JSH 9483-9522: The elements of a tuple type: their handlers, one inside the other. -/
structure TupleH (Ts : Type) where
  init : Ts
  to : Nat → Ts → Ctx → Option (Err × Ts × Ctx)
  from_ : Ts → Tok → Ser → Option (Tok × Ser)

/-- JSH 9507-9522 `TupleTypeHandler<0, Ts...>` (and 9587-9602). -/
def TupleH.nil : TupleH Unit where
  init := ()
  to := fun _ _ c => some (.noError, (), c)
  from_ := fun _ k s => some (k, s)

/-- JSH 9483-9504 `TupleTypeHandler<INDEX, Ts...>` (and 9563-9584). -/
def TupleH.cons (h : Handler T) (t : TupleH Ts) : TupleH (T × Ts) where
  init := (h.init, t.init)
  to := fun n old c => do
    let (e, x, c) ← h.to n old.1 c
    if e ≠ .noError then some (e, (x, old.2), c)
    else
      let c := c.next
      if c.error ≠ .noError then some (c.error, (x, old.2), c)
      else (t.to n old.2 c).map fun r => (r.1, (x, r.2.1), r.2.2)
  from_ := fun v k s => do
    let (k, s) ← h.from_ v.1 k s
    t.from_ v.2 k s

/-- JSH 9526-9559 `TypeHandler<JS::Tuple<Ts...>>` and 9605-9638 `TypeHandler<std::tuple<Ts...>>`. -/
def tupleH (t : TupleH Ts) : Handler Ts where
  init := t.init
  to := fun n old c =>
    if c.token.valueType ≠ .arrayStart then some (.expectedArrayStart, old, c)
    else
      let c := c.next
      if c.error ≠ .noError then some (c.error, old, c)
      else do
        let (e, x, c) ← t.to n old c
        if e ≠ .noError then some (e, x, c)
        else if c.token.valueType ≠ .arrayEnd then some (.expectedArrayEnd, x, c)
        else some (.noError, x, c)
  from_ := fun v => putArray (t.from_ v)

/-! ### Sets and maps

A container is the list of its entries in the order of iteration; `ins` says where a new entry goes. -/

/-- JSH 10164-10179, the loop of `TypeHandlerSet`. -/
def setLoop [DecidableEq T] (ins : List T → T → List T) (h : Handler T) (fuel : Nat) :
    Nat → List T → Ctx → Option (Err × List T × Ctx)
  | 0, _, _ => none
  | n + 1, acc, c =>
    if c.token.valueType = .arrayEnd then some (.noError, acc, c)
    else do
      let (e, x, c) ← h.to fuel h.init c
      if e ≠ .noError then some (e, acc, c)
      else if x ∈ acc then some (.duplicateInSet, acc, c)
      else
        let acc := ins acc x
        let c := c.next
        if c.error ≠ .noError then some (c.error, acc, c) else setLoop ins h fuel n acc c

/-- JSH 10153-10201 `TypeHandlerSet<T, Set>`: `std::set` and `std::unordered_set`. -/
def setH [DecidableEq T] (ins : List T → T → List T) (h : Handler T) : Handler (List T) where
  init := []
  to := fun n old c =>
    if c.token.valueType ≠ .arrayStart then some (.expectedArrayStart, old, c)
    else
      let c := c.next
      if c.error ≠ .noError then some (c.error, old, c) else setLoop ins h n n [] c
  from_ := fun v => putArray (putElems h v)

/-- `to_type[key] = v` (JSH 9741). -/
def mapSet (ins : List (Bytes × V) → Bytes × V → List (Bytes × V)) (m : List (Bytes × V)) (key : Bytes) (v : V) : List (Bytes × V) :=
  if key ∈ m.map Prod.fst then m.map (fun e => if e.1 = key then (key, v) else e) else ins m (key, v)

/-- JSH 9733-9746, the loop of `TypeHandlerMap`: the error of `nextToken` is looked at only when the loop ends.
(`Value v;` is `init` here; for a scalar it is uninitialised in C++, and it is stored even if it was not read.) -/
def mapLoop (ins : List (Bytes × V) → Bytes × V → List (Bytes × V)) (h : Handler V) (fuel : Nat) :
    Nat → Err → List (Bytes × V) → Ctx → Option (Err × List (Bytes × V) × Ctx)
  | 0, _, _, _ => none
  | n + 1, e, acc, c =>
    if c.token.valueType = .objectEnd then some (e, acc, c)
    else do
      let key := escapesIn c.token.name.bytes
      let (e, v, c) ← h.to fuel h.init c
      let acc := mapSet ins acc key v
      if e ≠ .noError then some (e, acc, c)
      else
        let c := c.next
        mapLoop ins h fuel n c.error acc c

/-- Writing the entries of a map (JSH 9754-9759). -/
def putEntries (h : Handler V) : List (Bytes × V) → Tok → Ser → Option (Tok × Ser)
  | [], k, s => some (k, s)
  | e :: es, k, s => do
    let (k, s) ← h.from_ e.2 { k with name := e.1, nameType := .string } s
    putEntries h es k s

/-- JSH 9720-9767 `TypeHandlerMap<Key, Value, Map>`: `std::map` and `std::unordered_map` with string keys. -/
def mapH (ins : List (Bytes × V) → Bytes × V → List (Bytes × V)) (h : Handler V) : Handler (List (Bytes × V)) where
  init := []
  to := fun n old c =>
    if c.token.valueType ≠ .objectStart then some (.expectedObjectStart, old, c)
    else
      let c := c.next
      if c.error ≠ .noError then some (c.error, old, c) else mapLoop ins h n n .noError old c
  from_ := fun v k s => do
    let (k, s) ← putTok { k with value := b!"{", valueType := .objectStart } s
    let (k, s) ← putEntries h v k s
    putTok { k with name := [], nameType := .string, value := b!"}", valueType := .objectEnd } s

/-! ### Raw tokens -/

/-- JSH 9178-9188, the loop of the token vector handler; `level` brackets are open. -/
def tokensLoop : Nat → Nat → List Tok → Ctx → Option (Err × List Tok × Ctx)
  | 0, _, _, _ => none
  | n + 1, level, acc, c =>
    if level = 0 then some (.noError, acc, c)
    else
      let c := c.next
      let acc := acc ++ [c.token.tok]
      let ty := c.token.valueType
      let level :=
        if ty = .arrayStart ∨ ty = .objectStart then level + 1
        else if ty = .arrayEnd ∨ ty = .objectEnd then level - 1
        else level
      if c.error ≠ .noError then some (c.error, acc, c) else tokensLoop n level acc c

/-- The tokens written one after the other (JSH 9191-9198); the token parameter is the last of them. -/
def putToks : List Tok → Tok → Ser → Option (Tok × Ser)
  | [], k, s => some (k, s)
  | t :: ts, _, s => do
    let (k, s) ← putTok t s
    putToks ts k s

/-- JSH 9162-9199 `TypeHandler<std::vector<Token>>` and 9202-9214 `TypeHandler<JsonTokens>`. A scalar is appended to
what the vector held before. -/
def tokensH : Handler (List Tok) where
  init := []
  to := fun n old c =>
    if c.token.valueType ≠ .arrayStart ∧ c.token.valueType ≠ .objectStart then some (c.error, old ++ [c.token.tok], c)
    else tokensLoop n 1 [c.token.tok] c
  from_ := fun v k s => putToks v k s

/-! ### Whole documents -/

/-- JSH 4607-4619 `ParseContext::parseTo`. -/
def parseTo (h : Handler T) (fuel : Nat) (old : T) (c : Ctx) : Option (Err × T × Ctx) :=
  let c := c.next
  if c.error ≠ .noError then some (c.error, old, c)
  else (h.to fuel old c).map fun r => (r.1, r.2.1, { r.2.2 with error := r.1 })

/-- JSH 4644-4650 `SerializerContext::serialize` and 4662-4683 `serializeStruct`, up to the flush of the output
string: the serializer after writing a value to a new token. -/
def serializeWith (h : Handler T) (v : T) (s : Ser) : Option Ser := (h.from_ v {} s).map Prod.snd

/-- JSH 4662-4683 `serializeStruct`: the string returned. -/
def serializeStruct (h : Handler T) (v : T) (o : SerOpts) : Option Bytes :=
  (serializeWith h v (Ser.onString o (startString []).length)).map fun s => s.flush (startString [])

/-- JSH 4586-4601, the loop of `skipArrayOrObject`: `depth` counts the open brackets of the kind skipped; errors end
it. (The counter is an `int`; it is unbounded here.) -/
def skipLoop (start fin : Ty) : Nat → Nat → Ctx → Option Ctx
  | 0, _, _ => none
  | n + 1, depth, c =>
    if depth = 0 then some c
    else
      let c := c.next
      if c.error ≠ .noError then some c
      else
        let depth :=
          if c.token.valueType = start then depth + 1
          else if c.token.valueType = fin then depth - 1
          else depth
        skipLoop start fin n depth c

/-- JSH 4567-4604 `skipArrayOrObject`; the result is ignored by its callers. -/
def skipArrayOrObject (n : Nat) (c : Ctx) : Option Ctx :=
  if c.token.valueType = .objectStart then skipLoop .objectStart .objectEnd n 1 c
  else if c.token.valueType = .arrayStart then skipLoop .arrayStart .arrayEnd n 1 c
  else some c

end JsonStruct
