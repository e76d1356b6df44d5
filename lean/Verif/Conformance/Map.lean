import Verif.Conformance.Basic
import Verif.Model.MapMemory
import Verif.Model.MapWhole

/-
The project's own tests of `JS::Map` and `metaForTokens`, in the model: `tests/json-struct-polymorphic-map.cpp`,
`meta-for-tokens.cpp` and `json-meta-test.cpp`.
-/

namespace JsonStruct.Conformance.Map

structure ComplexFields_t where
  «Hello» : Int := 0
  «World» : Int := 0
  deriving DecidableEq

def ComplexFields_t.meta : Meta ComplexFields_t := .mk
  [Member.of [b!"Hello"] false (intH ⟨32, true⟩) (·.«Hello») (fun v x => { x with «Hello» := v }),
   Member.of [b!"World"] false (intH ⟨32, true⟩) (·.«World») (fun v x => { x with «World» := v })]
  []
def ComplexFields_t.hd : Handler ComplexFields_t := structH {} ComplexFields_t.meta

structure SubObject_t where
  «SimpleMember» : Bool := false
  «MoreValues» : List (Bytes) := []
  deriving DecidableEq

def SubObject_t.meta : Meta SubObject_t := .mk
  [Member.of [b!"SimpleMember"] false (boolH) (·.«SimpleMember») (fun v x => { x with «SimpleMember» := v }),
   Member.of [b!"MoreValues"] false (vecH (stringH .sse2)) (·.«MoreValues») (fun v x => { x with «MoreValues» := v })]
  []
def SubObject_t.hd : Handler SubObject_t := structH {} SubObject_t.meta

structure ComplexFields2_t where
  «SimpleMember» : Bool := false
  «ArrayOfValues» : List (Int) := []
  «SubObject» : SubObject_t := {}
  deriving DecidableEq

def ComplexFields2_t.meta : Meta ComplexFields2_t := .mk
  [Member.of [b!"SimpleMember"] false (boolH) (·.«SimpleMember») (fun v x => { x with «SimpleMember» := v }),
   Member.of [b!"ArrayOfValues"] false (vecH (intH ⟨32, true⟩)) (·.«ArrayOfValues») (fun v x => { x with «ArrayOfValues» := v }),
   Member.of [b!"SubObject"] false (SubObject_t.hd) (·.«SubObject») (fun v x => { x with «SubObject» := v })]
  []
def ComplexFields2_t.hd : Handler ComplexFields2_t := structH {} ComplexFields2_t.meta

structure Root_t where
  «Field1» : Int := 0
  «Field2» : Bool := false
  «Field3» : Bytes := []
  «Field4» : Int := 0
  «ComplexFields» : ComplexFields_t := {}
  «ComplexFields2» : ComplexFields2_t := { SimpleMember := true }
  deriving DecidableEq

def Root_t.meta : Meta Root_t := .mk
  [Member.of [b!"Field1"] false (intH ⟨32, true⟩) (·.«Field1») (fun v x => { x with «Field1» := v }),
   Member.of [b!"Field2"] false (boolH) (·.«Field2») (fun v x => { x with «Field2» := v }),
   Member.of [b!"Field3"] false (stringH .sse2) (·.«Field3») (fun v x => { x with «Field3» := v }),
   Member.of [b!"Field4"] false (intH ⟨32, true⟩) (·.«Field4») (fun v x => { x with «Field4» := v }),
   Member.of [b!"ComplexFields"] false (ComplexFields_t.hd) (·.«ComplexFields») (fun v x => { x with «ComplexFields» := v }),
   Member.of [b!"ComplexFields2"] false (ComplexFields2_t.hd) (·.«ComplexFields2») (fun v x => { x with «ComplexFields2» := v })]
  []
def Root_t.hd : Handler Root_t := structH {} Root_t.meta

structure NewComplexField where
  «Foo» : Bytes := []
  «Bar» : Bytes := []
  deriving DecidableEq

def NewComplexField.meta : Meta NewComplexField := .mk
  [Member.of [b!"Foo"] false (stringH .sse2) (·.«Foo») (fun v x => { x with «Foo» := v }),
   Member.of [b!"Bar"] false (stringH .sse2) (·.«Bar») (fun v x => { x with «Bar» := v })]
  []
def NewComplexField.hd : Handler NewComplexField := structH {} NewComplexField.meta

structure HelloWorld where
  «Hello» : Bytes := []
  «World» : Bytes := []
  deriving DecidableEq

def HelloWorld.meta : Meta HelloWorld := .mk
  [Member.of [b!"Hello"] false (stringH .sse2) (·.«Hello») (fun v x => { x with «Hello» := v }),
   Member.of [b!"World"] false (stringH .sse2) (·.«World») (fun v x => { x with «World» := v })]
  []
def HelloWorld.hd : Handler HelloWorld := structH {} HelloWorld.meta

/-- `ParseContext pc(json, sizeof(json), map)`. -/
def polymorphic : Option (JMap × Ctx) :=
  (parseTo jmapH 10000 {} (Ctx.onText { simd := .sse2 } {} (b!"\n{\n  \"Field1\": 4,\n  \"Field2\": true,\n  \"ComplexFields\": { \"Hello\": 4, \"World\": 2 },\n  \"Field3\": \"432\",\n  \"ComplexFields2\": { \"SimpleMember\": true, \"ArrayOfValues\": [4, 3, 5, 7], \"SubObject\": { \"SimpleMember\": false, \"MoreValues\": [ \"Hello\", \"World\"] } },\n  \"Field4\": 567\n}\n" ++ [0x00]))).bind
    fun r => if r.1 = .noError then some (r.2.1, r.2.2) else none

/-- `castToType(name, pc, value)`: the error and the value. -/
def cast (mc : Option (JMap × Ctx)) (h : Handler T) (name : Bytes) (old : T := h.init) : Option (Err × T) :=
  mc.bind fun (m, c) => (m.castTo h 10000 name c old).map fun r => (r.1, r.2.1)

/-- `setValue(name, pc, value)`. -/
def set (mc : Option (JMap × Ctx)) (h : Handler T) (name : Bytes) (v : T) : Option (JMap × Ctx) :=
  mc.bind fun (m, c) => (m.setValue h 10000 name v).map fun m => (m, c)

/-- `verify_map_meta` of the test, without what it says about `json_data` (see Model/MapMemory): the metadata are those
of the tokens. -/
def verify (mc : Option (JMap × Ctx)) : Bool :=
  match mc with
  | none => false
  | some (m, _) => metaForTokens m.tokens = some m.metas

-- polymorphic_map_basic: numbers, strings and structs are read
example : cast polymorphic (intH ⟨32, true⟩) b!"Field1" = some (.noError, 4) := by decide +kernel

example : cast polymorphic boolH b!"Field2" = some (.noError, true) := by decide +kernel

example : cast polymorphic (stringH .sse2) b!"Field3" = some (.noError, b!"432") := by decide +kernel

example : cast polymorphic ComplexFields_t.hd b!"ComplexFields" = some (.noError, { Hello := 4, World := 2 }) := by decide +kernel

example : cast polymorphic ComplexFields2_t.hd b!"ComplexFields2" = some (.noError, { SimpleMember := true, ArrayOfValues := [4, 3, 5, 7], SubObject := { SimpleMember := false, MoreValues := [b!"Hello", b!"World"] } }) := by decide +kernel

example : cast polymorphic (intH ⟨32, true⟩) b!"Field4" = some (.noError, 567) := by decide +kernel

-- the map as a whole
example : (polymorphic.bind fun (m, c) => (m.castAll Root_t.hd 10000 c {}).map fun r => (r.1, r.2.1)) = some (.noError, { Field1 := 4, Field2 := true, Field3 := b!"432", Field4 := 567, ComplexFields := { Hello := 4, World := 2 }, ComplexFields2 := { SimpleMember := true, ArrayOfValues := [4, 3, 5, 7], SubObject := { SimpleMember := false, MoreValues := [b!"Hello", b!"World"] } } }) := by decide +kernel

-- the type of a token found
example : (polymorphic.bind fun (m, _) => (m.find b!"Field2").bind fun it => (m.tokens[it.index]?).map Tok.valueType) = some .bool := by decide +kernel

def step1 := set polymorphic (intH ⟨64, false⟩) b!"HelloWorld" 4567
def step2 := set step1 (stringH .sse2) b!"Field4" b!"hello world"
def step3 := set step2 boolH b!"ComplexFields" true
def step4 := set step3 NewComplexField.hd b!"ComplexFields" { Foo := b!"Map is awsome", Bar := b!"NewComplexField" }
def step5 := set step4 (intH ⟨32, true⟩) b!"Some" 5678
def step6 := set step5 ComplexFields2_t.hd b!"MoreValues" { SimpleMember := true, ArrayOfValues := [4, 3, 5, 7], SubObject := { SimpleMember := false, MoreValues := [b!"Hello", b!"World"] } }
def step7 := set step6 boolH b!"ComplexFields2" false

-- a new member
example : cast step1 (intH ⟨32, true⟩) b!"HelloWorld" = some (.noError, 4567) ∧ verify step1 := by decide +kernel

-- a member replaced
example : cast step2 (stringH .sse2) b!"Field4" = some (.noError, b!"hello world") ∧ verify step2 := by decide +kernel

-- an object replaced by a value
example : cast step3 boolH b!"ComplexFields" = some (.noError, true) ∧ verify step3 := by decide +kernel

-- a value replaced by an object
example : cast step4 NewComplexField.hd b!"ComplexFields" = some (.noError, { Foo := b!"Map is awsome", Bar := b!"NewComplexField" }) ∧ verify step4 := by decide +kernel

example : cast step6 NewComplexField.hd b!"ComplexFields" = some (.noError, { Foo := b!"Map is awsome", Bar := b!"NewComplexField" }) ∧ verify step6 := by decide +kernel

example : cast step7 NewComplexField.hd b!"ComplexFields" = some (.noError, { Foo := b!"Map is awsome", Bar := b!"NewComplexField" }) ∧ verify step7 := by decide +kernel

/-- A map and a parse context without data. -/
def empty : Option (JMap × Ctx) := some ({}, { tz := Tz.new { simd := .sse2 } })

-- clean_map
example : ((set (set empty (stringH .sse2) b!"Hello" b!"world") (stringH .sse2) b!"World" b!"hello").bind fun (m, c) => (m.castAll HelloWorld.hd 10000 c {}).map fun r => (r.1, r.2.1)) = some (.noError, { Hello := b!"world", World := b!"hello" }) := by decide +kernel

/-- `map.setValue(pc, helloworld)`. -/
def assigned : Option (JMap × Ctx) :=
  (OwnedMap.assign {} HelloWorld.hd 10000 { Hello := b!"Foo", World := b!"Bar" }).map fun m => (m.map, { tz := Tz.new { simd := .sse2 } })

-- to_clean_map
example : cast assigned (stringH .sse2) b!"Hello" = some (.noError, b!"Foo") ∧ cast assigned (stringH .sse2) b!"World" = some (.noError, b!"Bar") := by decide +kernel

structure Inner where
  «innerKey1» : Bytes := []
  «innerKey2» : Int := 0
  deriving DecidableEq

def Inner.meta : Meta Inner := .mk
  [Member.of [b!"innerKey1"] false (stringH .sse2) (·.«innerKey1») (fun v x => { x with «innerKey1» := v }),
   Member.of [b!"innerKey2"] false (intH ⟨32, true⟩) (·.«innerKey2») (fun v x => { x with «innerKey2» := v })]
  []
def Inner.hd : Handler Inner := structH {} Inner.meta

structure ParsedJsonMap where
  «regularKey» : Bytes := []
  «mapKey» : Inner := {}
  deriving DecidableEq

def ParsedJsonMap.meta : Meta ParsedJsonMap := .mk
  [Member.of [b!"regularKey"] false (stringH .sse2) (·.«regularKey») (fun v x => { x with «regularKey» := v }),
   Member.of [b!"mapKey"] false (Inner.hd) (·.«mapKey») (fun v x => { x with «mapKey» := v })]
  []
def ParsedJsonMap.hd : Handler ParsedJsonMap := structH {} ParsedJsonMap.meta

def nested : Option JMap := (set (set empty (stringH .sse2) b!"innerKey1" b!"value1") (intH ⟨32, true⟩) b!"innerKey2" 42).map Prod.fst
def outer : Option JMap := nested.bind fun n =>
  (set (set empty (stringH .sse2) b!"regularKey" b!"simpleValue") jmapH b!"mapKey" n).map Prod.fst

-- nested_map
example : ((outer.bind (writes jmapH)).bind (reads ParsedJsonMap.hd)).map (fun r => (r.1, r.2.1)) = some (.noError, { regularKey := b!"simpleValue", mapKey := { innerKey1 := b!"value1", innerKey2 := 42 } }) := by decide +kernel

/-- The metadata of a text (`parseTo(tokens)`, `metaForTokens`). -/
def metas (text : Bytes) : Option (List Tok × List JMeta) :=
  (reads tokensH text).bind fun r => if r.1 = .noError then (metaForTokens r.2.1).map fun m => (r.2.1, m) else none

def sample : Option (List Tok × List JMeta) := metas b!"\n[\n  {\n    \"member_one\": \"hello world\",\n    \"member_two\": [ 5, 6, 7, 8, 9],\n    \"member_three\": {\n      \"member_three_sub_one\": 5,\n      \"member_three_sub_two\": null,\n      \"member_three_sub_three\": [ \"hello\", \"world\", \"bye\"]\n    },\n    \"member_four\": true\n  },\n  {\n    \"first_member\": false,\n    \"second_member\": \"sky is blue\",\n    \"third_member\": \"grass is green\",\n    \"fourth_member\": [10, 20, 30, 40, 50]\n  },\n  {\n    \"last_obj\": true\n  }\n]\n"

-- meta-for-tokens.cpp: testMetaForTokens
example : (sample.bind fun (_, m) => m[3]?.map JMeta.isArray) = some false := by decide +kernel

example : (sample.bind fun (t, m) => m[3]?.bind fun x => t[x.position]?.map Tok.name) = some b!"member_three" := by decide +kernel

example : (sample.bind fun (t, m) => m[3]?.bind fun x => t[x.position + x.size]?.map Tok.name) = some b!"member_four" := by decide +kernel

example : (sample.bind fun (t, m) => m[6]?.bind fun x => t[x.position]?.map Tok.name) = some b!"fourth_member" := by decide +kernel

example : (sample.bind fun (_, m) => m[1]?.bind fun x => m[1 + x.skip]?.map fun y => 1 + x.skip + y.skip) = some 7 := by decide +kernel

-- json-meta-test.cpp: find_first_child_with_data
example : ((metas b!"[ [], [],  [\n[],\n[],\n{\n  \"this has a member\": true\n},\n[]\n], [], []]").bind fun x => findFirstChildWithData x.2 0) = some (some 2) := by decide +kernel

-- find_first_child_with_data_last
example : ((metas b!"[ [], [], [],  [\n[],\n[],\n{\n  \"this has a member\": true\n},\n[]\n]]").bind fun x => findFirstChildWithData x.2 0) = some (some 3) := by decide +kernel

end JsonStruct.Conformance.Map
