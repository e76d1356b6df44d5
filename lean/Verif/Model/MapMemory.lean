import Verif.Model.Map

/-
`JS::Map`, with `json_data`: the strings that hold the text of members that were set (JSH 9854). The tokens of such a member
refer to the characters of its string, and must not outlive it.
-/

namespace JsonStruct

/-- JSH 9852-9854, the members of `Map`. Strings are numbered in the order in which they are made; `owners` tells for every token
which of them its name and value lie in, if any (the others lie in the text that was parsed, or are literals). `data` is
`json_data`: the strings that are alive. Simplified: `int` and `uint32_t` are unbounded. The characters of a string stay where they
are when the `std::string` is moved, since the buffer of the serializer (4096 bytes, JSH 4625-4630) lies on the heap. -/
structure OwnedMap where
  map : JMap := {}
  owners : List (Option Nat) := []
  data : List (Nat × Nat) := []
  made : Nat := 0
  deriving DecidableEq, Repr

/-- JSH 9998-10009: of the entries for this index the last is erased, and the entries behind it move. -/
def releaseData (index removed : Nat) (data : List (Nat × Nat)) : List (Nat × Nat) :=
  ((data.reverse.eraseP fun e => e.1 == index).reverse).map fun e => if index < e.1 then (e.1 - removed, e.2) else e

/-- JSH 9974-9991: how many tokens `setValue` erases. -/
def JMap.erased (m : JMap) (it : It) : Option Nat :=
  if it.index = it.nextComplex then (m.metas[it.nextMeta]?).map (·.size) else some 1

/-- JSH 9950-10058 `setValue(name, parseContext, value)`, with `json_data`. -/
def OwnedMap.setValue (o : OwnedMap) (h : Handler T) (fuel : Nat) (name : Bytes) (v : T) : Option OwnedMap := do
  let m ← o.map.ensure
  let owners := if o.map.tokens = [] then [none, none] else o.owners
  let it ← m.find name
  let (m, owners, data) ←
    if it.index ≠ m.endIndex then do
      let removed ← m.erased it
      let m' ← m.removeAt it
      some (m', owners.take it.index ++ owners.drop (it.index + removed), releaseData it.index removed o.data)
    else some (m, owners, o.data)
  let new ← memberTokens h name v fuel
  let size := m.tokens.length
  let m' ← m.append new
  some {
    map := m'
    owners := owners.take (size - 1) ++ List.replicate (new.length - 2) (some o.made) ++ owners.drop (size - 1)
    data := data ++ [(size - 1, o.made)]
    made := o.made + 1 }

/-- JSH 9929-9947 `setValue(parseContext, value)`. Simplified: the parse context is new. -/
def OwnedMap.assign (o : OwnedMap) (h : Handler T) (fuel : Nat) (v : T) : Option OwnedMap := do
  let obj ← serializeStruct h v (SerOpts.new true)
  let r ← parseTo tokensH fuel [] { tz := (Tz.new {}).addData obj }
  let metas ← metaForTokens r.2.1
  some { map := { tokens := r.2.1, metas }, owners := List.replicate r.2.1.length (some o.made), data := [(0, o.made)], made := o.made + 1 }

/-- JSH 10064-10075 `TypeHandler<Map>::to`: `json_data` stays as it is. -/
def OwnedMap.read (o : OwnedMap) (fuel : Nat) (c : Ctx) : Option (Err × OwnedMap × Ctx) :=
  (jmapH.to fuel o.map c).map fun r =>
    (r.1, { o with
      map := r.2.1
      owners := if c.token.valueType ≠ .arrayStart ∧ c.token.valueType ≠ .objectStart then o.owners ++ [none]
                else List.replicate r.2.1.tokens.length none }, r.2.2)

/-- JSH 4607-4619 `ParseContext::parseTo` with a map. -/
def OwnedMap.parse (o : OwnedMap) (fuel : Nat) (c : Ctx) : Option (Err × OwnedMap × Ctx) :=
  let c := c.next
  if c.error ≠ .noError then some (c.error, o, c)
  else (o.read fuel c).map fun r => (r.1, r.2.1, { r.2.2 with error := r.1 })

end JsonStruct
