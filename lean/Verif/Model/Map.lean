import Verif.Model.Handler

/-
`JsonMeta` and `metaForTokens` (JSH 3744-3811), `JS::Map` (JSH 9784-10059) and its handler (10061-10097).

Tokens are captured by value, so `json_data`, which keeps the texts of values set later alive, is left out. Counters are
`uint32_t` or `int` in C++ and unbounded here. Assertions are not modelled.
-/

namespace JsonStruct

/-- JSH 3744-3764 `struct JsonMeta`. -/
structure JMeta where
  position : Nat
  size : Nat := 1
  skip : Nat := 1
  children : Nat := 0
  complexChildren : Nat := 0
  isArray : Bool
  hasData : Bool := false
  deriving DecidableEq, Repr

/-- `for (size_t parent_index : parent) …(meta[parent_index])` (JSH 3773-3776, 3795-3798, 3804-3807). The back of the
vector `parent` is the head of the list here. -/
def forParents (f : JMeta → JMeta) (parent : List Nat) (m : List JMeta) : List JMeta := parent.foldr (fun p m => m.modify p f) m

/-- `if (parent.size()) …(meta[parent.back()])` (JSH 3786-3787, 3792-3793). -/
def forBack (f : JMeta → JMeta) (parent : List Nat) (m : List JMeta) : List JMeta :=
  match parent with
  | [] => m
  | p :: _ => m.modify p f

/-- JSH 3771-3808, the loop of `metaForTokens` from token `i` on. `none`: `pop_back` of an empty vector. -/
def metaLoop : Nat → List Tok → List JMeta → List Nat → Option (List JMeta)
  | _, [], m, _ => some m
  | i, k :: ks, m, parent =>
    let m := forParents (fun x => { x with size := x.size + 1 }) parent m
    if k.valueType = .arrayEnd ∨ k.valueType = .objectEnd then
      match parent with
      | [] => none
      | _ :: parent => metaLoop (i + 1) ks m parent
    else
      let m := forBack (fun x => { x with children := x.children + 1 }) parent m
      if k.valueType = .arrayStart ∨ k.valueType = .objectStart then
        let m := forBack (fun x => { x with complexChildren := x.complexChildren + 1 }) parent m
        let m := forParents (fun x => { x with skip := x.skip + 1 }) parent m
        let m := m ++ [{ position := i, isArray := k.valueType = .arrayStart }]
        metaLoop (i + 1) ks m ((m.length - 1) :: parent)
      else
        metaLoop (i + 1) ks (forParents (fun x => { x with hasData := true }) parent m) parent

/-- JSH 3766-3811 `metaForTokens`. -/
def metaForTokens (ks : List Tok) : Option (List JMeta) := metaLoop 0 ks [] []

/-- JSH 9852-9854, the members of `Map` (without `json_data`). -/
structure JMap where
  tokens : List Tok := []
  metas : List JMeta := []
  deriving DecidableEq, Repr

/-- JSH 9786-9797 `Map::It`, without the reference to the map. -/
structure It where
  index : Nat
  nextMeta : Nat
  nextComplex : Nat
  deriving DecidableEq, Repr

/-- JSH 9825-9826, 9861-9862: the position of the meta entry, or the end of the tokens. -/
def JMap.complexAt (m : JMap) (i : Nat) : Nat :=
  match m.metas[i]? with
  | some x => x.position
  | none => m.tokens.length

/-- JSH 9856-9864 `begin`. -/
def JMap.begin (m : JMap) : It := ⟨1, 1, m.complexAt 1⟩

/-- JSH 9866-9873 `end`; iterators are compared by their index (JSH 9834-9841). -/
def JMap.endIndex (m : JMap) : Nat := m.tokens.length

/-- JSH 9819-9833 `operator++`; `none` if the meta entry does not exist. -/
def JMap.advance (m : JMap) (it : It) : Option It :=
  if it.index = it.nextComplex then
    match m.metas[it.nextMeta]? with
    | none => none
    | some x => some ⟨it.index + x.size, it.nextMeta + x.skip, m.complexAt (it.nextMeta + x.skip)⟩
  else some { it with index := it.index + 1 }

/-- JSH 9786-9873, a user's loop over the iterators:
`for (auto it = map.begin(); it != map.end(); ++it)`: the tokens seen. The first argument bounds the iterations.
`none` if the behaviour is undefined or the bound is reached. -/
def JMap.visit (m : JMap) : Nat → It → Option (List Tok)
  | 0, _ => none
  | n + 1, it =>
    if it.index = m.endIndex then some []
    else
      match m.tokens[it.index]? with
      | none => none
      | some k => do
        let it ← m.advance it
        (m.visit n it).map (k :: ·)

/-- `std::find_if(it, end(), …)` with the predicate of JSH 9878. -/
def JMap.findFrom (m : JMap) (name : Bytes) : Nat → It → Option It
  | 0, _ => none
  | n + 1, it =>
    if it.index = m.endIndex then some it
    else
      match m.tokens[it.index]? with
      | none => none
      | some k =>
        if k.name = name then some it
        else do
          let it ← m.advance it
          m.findFrom name n it

/-- JSH 9875-9879 `find`. Every step passes at least one token. -/
def JMap.find (m : JMap) (name : Bytes) : Option It := m.findFrom name (m.tokens.length + 1) m.begin

/-- JSH 9889-9896 `castToType(iterator, parseContext, to)`; the error and the value. The tokens are read from the
token vector. -/
def JMap.castAt (m : JMap) (h : Handler T) (fuel : Nat) (it : It) (c : Ctx) (old : T) : Option (Err × T × Ctx) :=
  h.to fuel old ({ c with tz := c.tz.resetTokens (m.tokens.map fun (k : Tok) => ⟨⟨.lit, k.name⟩, ⟨.lit, k.value⟩, k.nameType, k.valueType⟩) it.index }).next

/-- JSH 9898-9912 `castToType(name, parseContext, to)`. -/
def JMap.castTo (m : JMap) (h : Handler T) (fuel : Nat) (name : Bytes) (c : Ctx) (old : T) : Option (Err × T × Ctx) :=
  match m.tokens with
  | [] => some (.expectedObjectStart, old, { c with error := .expectedObjectStart })
  | k :: _ =>
    if k.valueType ≠ .objectStart then some (.expectedObjectStart, old, { c with error := .expectedObjectStart })
    else do
      let it ← m.find name
      if it.index ≠ m.endIndex then m.castAt h fuel it c old
      else some (.keyNotFound, old, { c with error := .keyNotFound })

/-- JSH 9954-9966: an empty map becomes `{}`. -/
def JMap.ensure (m : JMap) : Option JMap :=
  if m.tokens = [] then do
    let tokens : List Tok := [{ value := b!"{", valueType := .objectStart }, { value := b!"}", valueType := .objectEnd }]
    let metas ← metaForTokens tokens
    some { tokens, metas }
  else some m

/-- JSH 9969-9995: the member at `it` is removed. -/
def JMap.removeAt (m : JMap) (it : It) : Option JMap := do
  let metas := m.metas.modify 0 fun x => { x with children := x.children - 1 }
  if it.index = it.nextComplex then
    let the ← metas[it.nextMeta]?
    let metas := metas.modify 0 fun x =>
      { x with complexChildren := x.complexChildren - 1, size := x.size - the.size, skip := x.skip - the.skip }
    let tokens := m.tokens.take it.index ++ m.tokens.drop (it.index + the.size)
    let metas := metas.take it.nextMeta ++
      (metas.drop (it.nextMeta + the.skip)).map fun x => { x with position := x.position - the.size }
    some { tokens, metas }
  else
    some { tokens := m.tokens.eraseIdx it.index, metas := metas.modify 0 fun x => { x with size := x.size - 1 } }

/-- JSH 10010-10031: the object `{name: value}` as it is serialized, and its tokens. -/
def memberTokens (h : Handler T) (name : Bytes) (v : T) (fuel : Nat) : Option (List Tok) := do
  let s := Ser.onString (SerOpts.new false) (startString []).length
  let (_, s) ← putTok { value := b!"{", valueType := .objectStart } s
  let (k, s) ← h.from_ v { name := name, nameType := .string, value := b!"{", valueType := .objectStart } s
  let (_, s) ← putTok { k with name := [], valueType := .objectEnd, value := b!"}" } s
  let r ← parseTo tokensH fuel [] { tz := (Tz.new {}).addData (s.flush (startString [])) }
  some r.2.1

/-- JSH 10031-10055: the tokens of the new member are put in front of the closing bracket. `none` if there is no
bracket, or no meta entry. -/
def JMap.append (m : JMap) (new : List Tok) : Option JMap := do
  let newMeta ← metaForTokens new
  let first ← newMeta[0]?
  let size := m.tokens.length
  if size = 0 ∨ m.metas = [] ∨ new.length < 2 then none
  else
    let tokens := m.tokens.take (size - 1) ++ (new.drop 1).dropLast ++ m.tokens.drop (size - 1)
    let metas := m.metas.modify 0 fun x => { x with children := x.children + 1 }
    if first.complexChildren ≠ 0 then
      let one ← newMeta[1]?
      let metas := metas.modify 0 fun x =>
        { x with complexChildren := x.complexChildren + 1, size := x.size + one.size, skip := x.skip + one.skip }
      let metas := metas ++ (newMeta.drop 1).map fun x => { x with position := x.position + size - 1 - 1 }
      some { tokens, metas }
    else some { tokens, metas := metas.modify 0 fun x => { x with size := x.size + 1 } }

/-- JSH 9950-10058 `setValue(name, parseContext, value)`. -/
def JMap.setValue (m : JMap) (h : Handler T) (fuel : Nat) (name : Bytes) (v : T) : Option JMap := do
  let m ← m.ensure
  let it ← m.find name
  let m ← if it.index ≠ m.endIndex then m.removeAt it else some m
  let new ← memberTokens h name v fuel
  m.append new

/-- JSH 10069-10072: the metadata is made if there was no error. Undefined if `metaForTokens` is. -/
def jmapRead (old : JMap) (r : Err × List Tok × Ctx) : Err × JMap × Ctx :=
  if r.1 = .noError then
    match metaForTokens r.2.1 with
    | some metas => (.noError, { tokens := r.2.1, metas }, r.2.2)
    | none => (.ub, { old with tokens := r.2.1 }, r.2.2)
  else (r.1, { old with tokens := r.2.1 }, r.2.2)

/-- JSH 10061-10097 `TypeHandler<Map>`. -/
def jmapH : Handler JMap where
  init := {}
  to := fun n old c => (tokensH.to n old.tokens c).map (jmapRead old)
  from_ := fun v k s =>
    match v.tokens with
    | [] => do
      let (k, s) ← putTok { k with value := b!"{", valueType := .objectStart } s
      putTok { k with name := [], value := b!"}", valueType := .objectEnd } s
    | first :: ks => do
      let (k', s) ← putTok { first with name := k.name } s
      let (_, s) ← putToks ks k' s
      some (k, s)

end JsonStruct
