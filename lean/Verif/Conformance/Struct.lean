import Verif.Conformance.Basic
import Verif.Model.Raw
import Verif.Model.Time

/-
The project's own tests of reading and writing structs, in the model: `tests/json-struct-test.cpp`, `json-struct-verify.cpp`,
`json-struct-aliases-test.cpp`, `json-struct-nested.cpp`, `json-struct-escape.cpp`, `json-struct-unicode-escape.cpp`,
`json-struct-utf8.cpp`, `json-struct-float.cpp`, `zero-value-test.cpp`, `json-nullable-test.cpp`, `json-optional.cpp`,
`json-struct-array-varlength.cpp`, `json-struct-serialize-tuple.cpp`, `json-unordered-map.cpp`, `json-struct-stdint.cpp`,
`json-enum-test.cpp`, `json-timepoint.cpp`, `json-struct-serialize-test.cpp`, `json-struct-optimization-fixes.cpp`,
`json-string-with-nullterminator-test.cpp` and `json-struct-error-string.cpp`. A member that a test leaves
without a value starts as zero here. The tests look at some of the members; the examples state all of them.
-/

namespace JsonStruct.Conformance.Struct

structure SubStruct where
  «SubString» : Bytes := []
  «SubNumber» : Int := 0
  «Array» : List (Nat) := []
  «optional_float» : Nat × Bool := (0, false)
  «optional_with_value» : Nat := 4616752568008179712
  deriving DecidableEq

def SubStruct.meta : Meta SubStruct := .mk
  [Member.of [b!"SubString"] false (stringH .sse2) (·.«SubString») (fun v x => { x with «SubString» := v }),
   Member.of [b!"SubNumber"] false (intH ⟨32, true⟩) (·.«SubNumber») (fun v x => { x with «SubNumber» := v }),
   Member.of [b!"Array"] false (vecH (doubleH)) (·.«Array») (fun v x => { x with «Array» := v }),
   Member.of [b!"optional_float"] true (optionalCheckedH (floatH)) (·.«optional_float») (fun v x => { x with «optional_float» := v }),
   Member.of [b!"optional_with_value"] true (optionalH (doubleH)) (·.«optional_with_value») (fun v x => { x with «optional_with_value» := v })]
  []
def SubStruct.hd : Handler SubStruct := structH {} SubStruct.meta

structure SubStruct2 where
  «Field1» : Nat := 0
  «Field2» : Bool := false
  deriving DecidableEq

def SubStruct2.meta : Meta SubStruct2 := .mk
  [Member.of [b!"Field1"] false (floatH) (·.«Field1») (fun v x => { x with «Field1» := v }),
   Member.of [b!"Field2", b!"hello", b!"Foobar"] false (boolH) (·.«Field2») (fun v x => { x with «Field2» := v })]
  []
def SubStruct2.hd : Handler SubStruct2 := structH {} SubStruct2.meta

structure SubStruct3 where
  superSubStruct2 : SubStruct2 := {}
  «Field3» : Bytes := []
  «Field4» : Int := 0
  «Field5» : Bytes := []
  deriving DecidableEq

def SubStruct3.meta : Meta SubStruct3 := .mk
  [Member.of [b!"Field3"] false (stringH .sse2) (·.«Field3») (fun v x => { x with «Field3» := v }),
   Member.of [b!"Field4"] false (intH ⟨32, true⟩) (·.«Field4») (fun v x => { x with «Field4» := v }),
   Member.of [b!"Field5"] true (optionalH (stringH .sse2)) (·.«Field5») (fun v x => { x with «Field5» := v })]
  [(b!"SubStruct2", SubStruct2.meta.up (·.superSubStruct2) (fun v x => { x with superSubStruct2 := v }))]
def SubStruct3.hd : Handler SubStruct3 := structH {} SubStruct3.meta

structure JsonData1 where
  «StringNode» : Bytes := []
  «NumberNode» : Nat := 0
  «BooleanTrue» : Bool := false
  «BooleanFalse» : Bool := false
  «OptionalInt» : Int := 0
  «TestStruct» : SubStruct := {}
  «OptionalButWithData» : List (Nat) := []
  «unassigned_value» : Nat := 1107296256
  «subStruct2» : Option (SubStruct2) := none
  «Field3» : Int := 243
  «NodeWithLiteral» : Bytes := b!"SOME STRING LITERAL!!!"
  deriving DecidableEq

def JsonData1.meta : Meta JsonData1 := .mk
  [Member.of [b!"StringNode"] false (stringH .sse2) (·.«StringNode») (fun v x => { x with «StringNode» := v }),
   Member.of [b!"NumberNode"] false (doubleH) (·.«NumberNode») (fun v x => { x with «NumberNode» := v }),
   Member.of [b!"BooleanTrue"] false (boolH) (·.«BooleanTrue») (fun v x => { x with «BooleanTrue» := v }),
   Member.of [b!"BooleanFalse"] false (boolH) (·.«BooleanFalse») (fun v x => { x with «BooleanFalse» := v }),
   Member.of [b!"OptionalInt"] true (optionalH (intH ⟨32, true⟩)) (·.«OptionalInt») (fun v x => { x with «OptionalInt» := v }),
   Member.of [b!"TestStruct"] false (SubStruct.hd) (·.«TestStruct») (fun v x => { x with «TestStruct» := v }),
   Member.of [b!"OptionalButWithData"] true (optionalH (vecH (doubleH))) (·.«OptionalButWithData») (fun v x => { x with «OptionalButWithData» := v }),
   Member.of [b!"unassigned_value"] false (floatH) (·.«unassigned_value») (fun v x => { x with «unassigned_value» := v }),
   Member.of [b!"subStruct2"] true (ptrH (SubStruct2.hd)) (·.«subStruct2») (fun v x => { x with «subStruct2» := v }),
   Member.of [b!"Field3"] false (intH ⟨32, true⟩) (·.«Field3») (fun v x => { x with «Field3» := v }),
   Member.of [b!"NodeWithLiteral"] false (stringH .sse2) (·.«NodeWithLiteral») (fun v x => { x with «NodeWithLiteral» := v })]
  []
def JsonData1.hd : Handler JsonData1 := structH {} JsonData1.meta

-- check_json_tree_nodes_json_struct
example : reads (JsonData1.hd) b!"{\n\"StringNode\": \"Some test data\",\n\"NumberNode\": 4676.4,\n\"BooleanTrue\": true,\n\"BooleanFalse\": false,\n\"TestStruct\": {\n\"SubString\": \"Some other string\",\n\"SubNumber\": 500,\n\"Array\": [\n5,\n6,\n3,\n6\n],\n\"optional_float\": 300,\n\"this_property_does_not_exist\": true\n},\n\"OptionalButWithData\": [ 17.5 ],\n\"subStruct2\": {\n\"Field1\": 4,\n\"Field2\": true\n},\n\"Skipped_sub_object\": {\n\"Field3\": 465\n}\n}\n" =
    some (.noError, { StringNode := b!"Some test data", NumberNode := 4661863770877224550, BooleanTrue := true, TestStruct := { SubString := b!"Some other string", SubNumber := 500, Array := [4617315517961601024, 4618441417868443648, 4613937818241073152, 4618441417868443648], optional_float := (1133903872, true) }, OptionalButWithData := [4625619029774565376], subStruct2 := some { Field1 := 1082130432, Field2 := true } }, [b!"this_property_does_not_exist", b!"Skipped_sub_object"], [b!"NodeWithLiteral", b!"Field3", b!"unassigned_value"]) := by decide +kernel

structure SubObject where
  «more_data» : Bytes := []
  «a_float» : Nat := 0
  «boolean_member» : Bool := false
  deriving DecidableEq

def SubObject.meta : Meta SubObject := .mk
  [Member.of [b!"more_data"] false (stringH .sse2) (·.«more_data») (fun v x => { x with «more_data» := v }),
   Member.of [b!"a_float"] false (floatH) (·.«a_float») (fun v x => { x with «a_float» := v }),
   Member.of [b!"boolean_member"] false (boolH) (·.«boolean_member») (fun v x => { x with «boolean_member» := v })]
  []
def SubObject.hd : Handler SubObject := structH {} SubObject.meta

structure OuterStruct where
  «some_int» : Int := 0
  «sub_object» : SubObject := {}
  deriving DecidableEq

def OuterStruct.meta : Meta OuterStruct := .mk
  [Member.of [b!"some_int"] false (intH ⟨32, true⟩) (·.«some_int») (fun v x => { x with «some_int» := v }),
   Member.of [b!"sub_object"] false (SubObject.hd) (·.«sub_object») (fun v x => { x with «sub_object» := v })]
  []
def OuterStruct.hd : Handler OuterStruct := structH {} OuterStruct.meta

-- check_json_tree_template
example : reads (OuterStruct.hd) b!"{\n\"some_int\": 4,\n\"sub_object\": {\n\"more_data\": \"some text\",\n\"a_float\": 1.2,\n\"boolean_member\": false\n}\n}\n" =
    some (.noError, { some_int := 4, sub_object := { more_data := b!"some text", a_float := 1067030938 } }, [], []) := by decide +kernel

-- check_json_tree_subclass
example : reads (SubStruct3.hd) b!"{\n\"Field1\": 4,\n\"Field2\": true,\n\"Field3\": \"432\"\n}\n" =
    some (.noError, { Field3 := b!"432", superSubStruct2 := { Field1 := 1082130432, Field2 := true } }, [], [b!"Field4"]) := by decide +kernel

structure SuperSuperClass where
  «SuperSuper» : Int := 0
  deriving DecidableEq

def SuperSuperClass.meta : Meta SuperSuperClass := .mk
  [Member.of [b!"SuperSuper"] false (intH ⟨32, true⟩) (·.«SuperSuper») (fun v x => { x with «SuperSuper» := v })]
  []
def SuperSuperClass.hd : Handler SuperSuperClass := structH {} SuperSuperClass.meta

structure SuperClass where
  superSuperSuperClass : SuperSuperClass := {}
  «Super» : Bytes := []
  deriving DecidableEq

def SuperClass.meta : Meta SuperClass := .mk
  [Member.of [b!"Super"] false (stringH .sse2) (·.«Super») (fun v x => { x with «Super» := v })]
  [(b!"SuperSuperClass", SuperSuperClass.meta.up (·.superSuperSuperClass) (fun v x => { x with superSuperSuperClass := v }))]
def SuperClass.hd : Handler SuperClass := structH {} SuperClass.meta

structure RegularClass where
  superSuperClass : SuperClass := {}
  «Regular» : Int := 0
  deriving DecidableEq

def RegularClass.meta : Meta RegularClass := .mk
  [Member.of [b!"Regular"] false (intH ⟨32, true⟩) (·.«Regular») (fun v x => { x with «Regular» := v })]
  [(b!"SuperClass", SuperClass.meta.up (·.superSuperClass) (fun v x => { x with superSuperClass := v }))]
def RegularClass.hd : Handler RegularClass := structH {} RegularClass.meta

-- check_json_tree_deep_tree
example : reads (RegularClass.hd) b!"{\n\"SuperSuper\": 5,\n\"Regular\": 42,\n\"Super\": \"This is in the Superclass\"\n}\n" =
    some (.noError, { Regular := 42, superSuperClass := { Super := b!"This is in the Superclass", superSuperSuperClass := { SuperSuper := 5 } } }, [], []) := by decide +kernel

structure MissingObjectDef where
  «first» : Bool := false
  «second» : Bytes := []
  «fourth» : Int := 0
  deriving DecidableEq

def MissingObjectDef.meta : Meta MissingObjectDef := .mk
  [Member.of [b!"first"] false (boolH) (·.«first») (fun v x => { x with «first» := v }),
   Member.of [b!"second"] false (stringH .sse2) (·.«second») (fun v x => { x with «second» := v }),
   Member.of [b!"fourth"] false (intH ⟨32, true⟩) (·.«fourth») (fun v x => { x with «fourth» := v })]
  []
def MissingObjectDef.hd : Handler MissingObjectDef := structH {} MissingObjectDef.meta

-- check_json_missing_object
example : reads (MissingObjectDef.hd) b!"{\n  \"first\": true,\n  \"second\": \"hello world\",\n    \"third\": {},\n    \"fourth\": 33\n}" =
    some (.noError, { first := true, second := b!"hello world", fourth := 33 }, [b!"third"], []) := by decide +kernel

structure ErrorInSubChild where
  «ffirst» : Int := 0
  deriving DecidableEq

def ErrorInSubChild.meta : Meta ErrorInSubChild := .mk
  [Member.of [b!"ffirst"] false (intH ⟨32, true⟩) (·.«ffirst») (fun v x => { x with «ffirst» := v })]
  []
def ErrorInSubChild.hd : Handler ErrorInSubChild := structH {} ErrorInSubChild.meta

structure ErrorInSub where
  «first» : ErrorInSubChild := {}
  «second» : Bytes := []
  «third» : Int := 0
  deriving DecidableEq

def ErrorInSub.meta : Meta ErrorInSub := .mk
  [Member.of [b!"first"] false (ErrorInSubChild.hd) (·.«first») (fun v x => { x with «first» := v }),
   Member.of [b!"second"] false (stringH .sse2) (·.«second») (fun v x => { x with «second» := v }),
   Member.of [b!"third"] false (intH ⟨32, true⟩) (·.«third») (fun v x => { x with «third» := v })]
  []
def ErrorInSub.hd : Handler ErrorInSub := structH {} ErrorInSub.meta

-- check_json_error_in_sub
example : reads (ErrorInSub.hd) b!"{\n  \"first\": {\n    \"ffirst\": 4,\n    \"fsecond\": {},\n    \"not_assigned\": 555\n  },\n  \"second\": \"hello world\",\n  \"third\": 33\n}" =
    some (.noError, { first := { ffirst := 4 }, second := b!"hello world", third := 33 }, [b!"fsecond", b!"not_assigned"], []) := by decide +kernel

structure JsonObjectTester where
  «field» : Bytes := []
  «obj» : Bytes := []
  «number» : Int := 0
  deriving DecidableEq

def JsonObjectTester.meta : Meta JsonObjectTester := .mk
  [Member.of [b!"field"] false (stringH .sse2) (·.«field») (fun v x => { x with «field» := v }),
   Member.of [b!"obj"] false (rawH .object 7) (·.«obj») (fun v x => { x with «obj» := v }),
   Member.of [b!"number"] false (intH ⟨32, true⟩) (·.«number») (fun v x => { x with «number» := v })]
  []
def JsonObjectTester.hd : Handler JsonObjectTester := structH {} JsonObjectTester.meta

-- check_json_object (JsonObjectTester)
example : reads (JsonObjectTester.hd) b!"{\n  \"field\": \"hello\",\n  \"obj\": {\n    \"some_sub_filed\": 2,\n    \"some_sub_array\": [ \"a\", \"b\", \"c\"],\n    \"some_sub_object\": { \"field\": \"not hello\" }\n  },\n  \"number\": 43\n}" =
    some (.noError, { field := b!"hello", obj := b!"{\n    \"some_sub_filed\": 2,\n    \"some_sub_array\": [ \"a\", \"b\", \"c\"],\n    \"some_sub_object\": { \"field\": \"not hello\" }\n  }", number := 43 }, [], []) := by decide +kernel

-- … and back
example : writes JsonObjectTester.hd { field := b!"hello", obj := b!"{\n    \"some_sub_filed\": 2,\n    \"some_sub_array\": [ \"a\", \"b\", \"c\"],\n    \"some_sub_object\": { \"field\": \"not hello\" }\n  }", number := 43 } = some b!"{\n  \"field\": \"hello\",\n  \"obj\": {\n    \"some_sub_filed\": 2,\n    \"some_sub_array\": [ \"a\", \"b\", \"c\"],\n    \"some_sub_object\": { \"field\": \"not hello\" }\n  },\n  \"number\": 43\n}" := by decide +kernel

structure JsonObjectOrArrayObjectTester where
  «field» : Bytes := []
  «obj» : Bytes := []
  «number» : Int := 0
  deriving DecidableEq

def JsonObjectOrArrayObjectTester.meta : Meta JsonObjectOrArrayObjectTester := .mk
  [Member.of [b!"field"] false (stringH .sse2) (·.«field») (fun v x => { x with «field» := v }),
   Member.of [b!"obj"] false (rawH .any 7) (·.«obj») (fun v x => { x with «obj» := v }),
   Member.of [b!"number"] false (intH ⟨32, true⟩) (·.«number») (fun v x => { x with «number» := v })]
  []
def JsonObjectOrArrayObjectTester.hd : Handler JsonObjectOrArrayObjectTester := structH {} JsonObjectOrArrayObjectTester.meta

-- check_json_object (JsonObjectOrArrayObjectTester)
example : reads (JsonObjectOrArrayObjectTester.hd) b!"{\n  \"field\": \"hello\",\n  \"obj\": {\n    \"some_sub_filed\": 2,\n    \"some_sub_array\": [ \"a\", \"b\", \"c\"],\n    \"some_sub_object\": { \"field\": \"not hello\" }\n  },\n  \"number\": 43\n}" =
    some (.noError, { field := b!"hello", obj := b!"{\n    \"some_sub_filed\": 2,\n    \"some_sub_array\": [ \"a\", \"b\", \"c\"],\n    \"some_sub_object\": { \"field\": \"not hello\" }\n  }", number := 43 }, [], []) := by decide +kernel

-- … and back
example : writes JsonObjectOrArrayObjectTester.hd { field := b!"hello", obj := b!"{\n    \"some_sub_filed\": 2,\n    \"some_sub_array\": [ \"a\", \"b\", \"c\"],\n    \"some_sub_object\": { \"field\": \"not hello\" }\n  }", number := 43 } = some b!"{\n  \"field\": \"hello\",\n  \"obj\": {\n    \"some_sub_filed\": 2,\n    \"some_sub_array\": [ \"a\", \"b\", \"c\"],\n    \"some_sub_object\": { \"field\": \"not hello\" }\n  },\n  \"number\": 43\n}" := by decide +kernel

structure JsonObjectRefTester where
  «field» : Bytes := []
  «obj» : Bytes := []
  «number» : Int := 0
  deriving DecidableEq

def JsonObjectRefTester.meta : Meta JsonObjectRefTester := .mk
  [Member.of [b!"field"] false (stringH .sse2) (·.«field») (fun v x => { x with «field» := v }),
   Member.of [b!"obj"] false (rawRefH .object) (·.«obj») (fun v x => { x with «obj» := v }),
   Member.of [b!"number"] false (intH ⟨32, true⟩) (·.«number») (fun v x => { x with «number» := v })]
  []
def JsonObjectRefTester.hd : Handler JsonObjectRefTester := structH {} JsonObjectRefTester.meta

-- check_json_object (JsonObjectRefTester)
example : reads (JsonObjectRefTester.hd) b!"{\n  \"field\": \"hello\",\n  \"obj\": {\n    \"some_sub_filed\": 2,\n    \"some_sub_array\": [ \"a\", \"b\", \"c\"],\n    \"some_sub_object\": { \"field\": \"not hello\" }\n  },\n  \"number\": 43\n}" =
    some (.noError, { field := b!"hello", obj := b!"{\n    \"some_sub_filed\": 2,\n    \"some_sub_array\": [ \"a\", \"b\", \"c\"],\n    \"some_sub_object\": { \"field\": \"not hello\" }\n  }", number := 43 }, [], []) := by decide +kernel

-- … and back
example : writes JsonObjectRefTester.hd { field := b!"hello", obj := b!"{\n    \"some_sub_filed\": 2,\n    \"some_sub_array\": [ \"a\", \"b\", \"c\"],\n    \"some_sub_object\": { \"field\": \"not hello\" }\n  }", number := 43 } = some b!"{\n  \"field\": \"hello\",\n  \"obj\": {\n    \"some_sub_filed\": 2,\n    \"some_sub_array\": [ \"a\", \"b\", \"c\"],\n    \"some_sub_object\": { \"field\": \"not hello\" }\n  },\n  \"number\": 43\n}" := by decide +kernel

structure JsonObjectOrArrayObjectRefTester where
  «field» : Bytes := []
  «obj» : Bytes := []
  «number» : Int := 0
  deriving DecidableEq

def JsonObjectOrArrayObjectRefTester.meta : Meta JsonObjectOrArrayObjectRefTester := .mk
  [Member.of [b!"field"] false (stringH .sse2) (·.«field») (fun v x => { x with «field» := v }),
   Member.of [b!"obj"] false (rawRefH .any) (·.«obj») (fun v x => { x with «obj» := v }),
   Member.of [b!"number"] false (intH ⟨32, true⟩) (·.«number») (fun v x => { x with «number» := v })]
  []
def JsonObjectOrArrayObjectRefTester.hd : Handler JsonObjectOrArrayObjectRefTester := structH {} JsonObjectOrArrayObjectRefTester.meta

-- check_json_object (JsonObjectOrArrayObjectRefTester)
example : reads (JsonObjectOrArrayObjectRefTester.hd) b!"{\n  \"field\": \"hello\",\n  \"obj\": {\n    \"some_sub_filed\": 2,\n    \"some_sub_array\": [ \"a\", \"b\", \"c\"],\n    \"some_sub_object\": { \"field\": \"not hello\" }\n  },\n  \"number\": 43\n}" =
    some (.noError, { field := b!"hello", obj := b!"{\n    \"some_sub_filed\": 2,\n    \"some_sub_array\": [ \"a\", \"b\", \"c\"],\n    \"some_sub_object\": { \"field\": \"not hello\" }\n  }", number := 43 }, [], []) := by decide +kernel

-- … and back
example : writes JsonObjectOrArrayObjectRefTester.hd { field := b!"hello", obj := b!"{\n    \"some_sub_filed\": 2,\n    \"some_sub_array\": [ \"a\", \"b\", \"c\"],\n    \"some_sub_object\": { \"field\": \"not hello\" }\n  }", number := 43 } = some b!"{\n  \"field\": \"hello\",\n  \"obj\": {\n    \"some_sub_filed\": 2,\n    \"some_sub_array\": [ \"a\", \"b\", \"c\"],\n    \"some_sub_object\": { \"field\": \"not hello\" }\n  },\n  \"number\": 43\n}" := by decide +kernel

structure JsonArrayTester where
  «string» : Bytes := []
  «array» : Bytes := []
  «number» : Int := 0
  deriving DecidableEq

def JsonArrayTester.meta : Meta JsonArrayTester := .mk
  [Member.of [b!"string"] false (stringH .sse2) (·.«string») (fun v x => { x with «string» := v }),
   Member.of [b!"array"] false (rawH .array 7) (·.«array») (fun v x => { x with «array» := v }),
   Member.of [b!"number"] false (intH ⟨32, true⟩) (·.«number») (fun v x => { x with «number» := v })]
  []
def JsonArrayTester.hd : Handler JsonArrayTester := structH {} JsonArrayTester.meta

-- check_json_array (JsonArrayTester)
example : reads (JsonArrayTester.hd) b!"{\n  \"string\": \"foo\",\n  \"array\": [\n    [\"a\",\"b\",\"c\"],\n    {\n      \"sub object\": 44.50\n    },\n    12345\n  ],\n  \"number\": 43\n}" =
    some (.noError, { string := b!"foo", array := b!"[\n    [\"a\",\"b\",\"c\"],\n    {\n      \"sub object\": 44.50\n    },\n    12345\n  ]", number := 43 }, [], []) := by decide +kernel

-- … and back
example : writes JsonArrayTester.hd { string := b!"foo", array := b!"[\n    [\"a\",\"b\",\"c\"],\n    {\n      \"sub object\": 44.50\n    },\n    12345\n  ]", number := 43 } = some b!"{\n  \"string\": \"foo\",\n  \"array\": [\n    [\"a\",\"b\",\"c\"],\n    {\n      \"sub object\": 44.50\n    },\n    12345\n  ],\n  \"number\": 43\n}" := by decide +kernel

structure JsonObjectOrArrayArrayTester where
  «string» : Bytes := []
  «array» : Bytes := []
  «number» : Int := 0
  deriving DecidableEq

def JsonObjectOrArrayArrayTester.meta : Meta JsonObjectOrArrayArrayTester := .mk
  [Member.of [b!"string"] false (stringH .sse2) (·.«string») (fun v x => { x with «string» := v }),
   Member.of [b!"array"] false (rawH .any 7) (·.«array») (fun v x => { x with «array» := v }),
   Member.of [b!"number"] false (intH ⟨32, true⟩) (·.«number») (fun v x => { x with «number» := v })]
  []
def JsonObjectOrArrayArrayTester.hd : Handler JsonObjectOrArrayArrayTester := structH {} JsonObjectOrArrayArrayTester.meta

-- check_json_array (JsonObjectOrArrayArrayTester)
example : reads (JsonObjectOrArrayArrayTester.hd) b!"{\n  \"string\": \"foo\",\n  \"array\": [\n    [\"a\",\"b\",\"c\"],\n    {\n      \"sub object\": 44.50\n    },\n    12345\n  ],\n  \"number\": 43\n}" =
    some (.noError, { string := b!"foo", array := b!"[\n    [\"a\",\"b\",\"c\"],\n    {\n      \"sub object\": 44.50\n    },\n    12345\n  ]", number := 43 }, [], []) := by decide +kernel

-- … and back
example : writes JsonObjectOrArrayArrayTester.hd { string := b!"foo", array := b!"[\n    [\"a\",\"b\",\"c\"],\n    {\n      \"sub object\": 44.50\n    },\n    12345\n  ]", number := 43 } = some b!"{\n  \"string\": \"foo\",\n  \"array\": [\n    [\"a\",\"b\",\"c\"],\n    {\n      \"sub object\": 44.50\n    },\n    12345\n  ],\n  \"number\": 43\n}" := by decide +kernel

structure JsonArrayRefTester where
  «string» : Bytes := []
  «array» : Bytes := []
  «number» : Int := 0
  deriving DecidableEq

def JsonArrayRefTester.meta : Meta JsonArrayRefTester := .mk
  [Member.of [b!"string"] false (stringH .sse2) (·.«string») (fun v x => { x with «string» := v }),
   Member.of [b!"array"] false (rawRefH .array) (·.«array») (fun v x => { x with «array» := v }),
   Member.of [b!"number"] false (intH ⟨32, true⟩) (·.«number») (fun v x => { x with «number» := v })]
  []
def JsonArrayRefTester.hd : Handler JsonArrayRefTester := structH {} JsonArrayRefTester.meta

-- check_json_array (JsonArrayRefTester)
example : reads (JsonArrayRefTester.hd) b!"{\n  \"string\": \"foo\",\n  \"array\": [\n    [\"a\",\"b\",\"c\"],\n    {\n      \"sub object\": 44.50\n    },\n    12345\n  ],\n  \"number\": 43\n}" =
    some (.noError, { string := b!"foo", array := b!"[\n    [\"a\",\"b\",\"c\"],\n    {\n      \"sub object\": 44.50\n    },\n    12345\n  ]", number := 43 }, [], []) := by decide +kernel

-- … and back
example : writes JsonArrayRefTester.hd { string := b!"foo", array := b!"[\n    [\"a\",\"b\",\"c\"],\n    {\n      \"sub object\": 44.50\n    },\n    12345\n  ]", number := 43 } = some b!"{\n  \"string\": \"foo\",\n  \"array\": [\n    [\"a\",\"b\",\"c\"],\n    {\n      \"sub object\": 44.50\n    },\n    12345\n  ],\n  \"number\": 43\n}" := by decide +kernel

structure JsonObjectOrArrayArrayRefTester where
  «string» : Bytes := []
  «array» : Bytes := []
  «number» : Int := 0
  deriving DecidableEq

def JsonObjectOrArrayArrayRefTester.meta : Meta JsonObjectOrArrayArrayRefTester := .mk
  [Member.of [b!"string"] false (stringH .sse2) (·.«string») (fun v x => { x with «string» := v }),
   Member.of [b!"array"] false (rawRefH .any) (·.«array») (fun v x => { x with «array» := v }),
   Member.of [b!"number"] false (intH ⟨32, true⟩) (·.«number») (fun v x => { x with «number» := v })]
  []
def JsonObjectOrArrayArrayRefTester.hd : Handler JsonObjectOrArrayArrayRefTester := structH {} JsonObjectOrArrayArrayRefTester.meta

-- check_json_array (JsonObjectOrArrayArrayRefTester)
example : reads (JsonObjectOrArrayArrayRefTester.hd) b!"{\n  \"string\": \"foo\",\n  \"array\": [\n    [\"a\",\"b\",\"c\"],\n    {\n      \"sub object\": 44.50\n    },\n    12345\n  ],\n  \"number\": 43\n}" =
    some (.noError, { string := b!"foo", array := b!"[\n    [\"a\",\"b\",\"c\"],\n    {\n      \"sub object\": 44.50\n    },\n    12345\n  ]", number := 43 }, [], []) := by decide +kernel

-- … and back
example : writes JsonObjectOrArrayArrayRefTester.hd { string := b!"foo", array := b!"[\n    [\"a\",\"b\",\"c\"],\n    {\n      \"sub object\": 44.50\n    },\n    12345\n  ]", number := 43 } = some b!"{\n  \"string\": \"foo\",\n  \"array\": [\n    [\"a\",\"b\",\"c\"],\n    {\n      \"sub object\": 44.50\n    },\n    12345\n  ],\n  \"number\": 43\n}" := by decide +kernel

structure TypeHandlerTypes where
  «doubleN» : Nat := 0
  «floatN» : Nat := 0
  «intN» : Int := 0
  «uintN» : Int := 0
  «int64N» : Int := 0
  «uint64N» : Int := 0
  «int16N» : Int := 0
  «uint16N» : Int := 0
  «uint8N» : Int := 0
  «int8N» : Int := 0
  «charN» : Int := 0
  «scharN» : Int := 0
  «ucharN» : Int := 0
  «boolN» : Bool := false
  deriving DecidableEq

def TypeHandlerTypes.meta : Meta TypeHandlerTypes := .mk
  [Member.of [b!"doubleN"] false (doubleH) (·.«doubleN») (fun v x => { x with «doubleN» := v }),
   Member.of [b!"floatN"] false (floatH) (·.«floatN») (fun v x => { x with «floatN» := v }),
   Member.of [b!"intN"] false (intH ⟨32, true⟩) (·.«intN») (fun v x => { x with «intN» := v }),
   Member.of [b!"uintN"] false (intH ⟨32, false⟩) (·.«uintN») (fun v x => { x with «uintN» := v }),
   Member.of [b!"int64N"] false (intH ⟨64, true⟩) (·.«int64N») (fun v x => { x with «int64N» := v }),
   Member.of [b!"uint64N"] false (intH ⟨64, false⟩) (·.«uint64N») (fun v x => { x with «uint64N» := v }),
   Member.of [b!"int16N"] false (intH ⟨16, true⟩) (·.«int16N») (fun v x => { x with «int16N» := v }),
   Member.of [b!"uint16N"] false (intH ⟨16, false⟩) (·.«uint16N») (fun v x => { x with «uint16N» := v }),
   Member.of [b!"uint8N"] false (intH ⟨8, false⟩) (·.«uint8N») (fun v x => { x with «uint8N» := v }),
   Member.of [b!"int8N"] false (intH ⟨8, true⟩) (·.«int8N») (fun v x => { x with «int8N» := v }),
   Member.of [b!"charN"] false (intH ⟨8, true⟩) (·.«charN») (fun v x => { x with «charN» := v }),
   Member.of [b!"scharN"] false (intH ⟨8, true⟩) (·.«scharN») (fun v x => { x with «scharN» := v }),
   Member.of [b!"ucharN"] false (intH ⟨8, false⟩) (·.«ucharN») (fun v x => { x with «ucharN» := v }),
   Member.of [b!"boolN"] false (boolH) (·.«boolN») (fun v x => { x with «boolN» := v })]
  []
def TypeHandlerTypes.hd : Handler TypeHandlerTypes := structH {} TypeHandlerTypes.meta

-- check_json_type_handler_types
example : reads (TypeHandlerTypes.hd) b!"{\n  \"doubleN\": 44.50,\n  \"floatN\": 33.40,\n  \"intN\": -345,\n  \"uintN\": 567,\n  \"int64N\": -1234,\n  \"uint64N\": 987,\n  \"int16N\": -23,\n  \"uint16N\": 45,\n  \"uint8N\": 255,\n  \"int8N\": -127,\n  \"charN\": 123,\n  \"scharN\": -123,\n  \"ucharN\": 234,\n  \"boolN\": true\n}" =
    some (.noError, { doubleN := 4631459635541311488, floatN := 1107663258, intN := -345, uintN := 567, int64N := -1234, uint64N := 987, int16N := -23, uint16N := 45, uint8N := 255, int8N := -127, charN := 123, scharN := -123, ucharN := 234, boolN := true }, [], []) := by decide +kernel

structure TypeHandlerIntTypes where
  «intN» : Int := 0
  «uintN» : Int := 0
  «int64N» : Int := 0
  «uint64N» : Int := 0
  «int16N» : Int := 0
  «uint16N» : Int := 0
  «uint8N» : Int := 0
  «int8N» : Int := 0
  «charN» : Int := 0
  «scharN» : Int := 0
  «ucharN» : Int := 0
  «boolN» : Bool := false
  deriving DecidableEq

def TypeHandlerIntTypes.meta : Meta TypeHandlerIntTypes := .mk
  [Member.of [b!"intN"] false (intH ⟨32, true⟩) (·.«intN») (fun v x => { x with «intN» := v }),
   Member.of [b!"uintN"] false (intH ⟨32, false⟩) (·.«uintN») (fun v x => { x with «uintN» := v }),
   Member.of [b!"int64N"] false (intH ⟨64, true⟩) (·.«int64N») (fun v x => { x with «int64N» := v }),
   Member.of [b!"uint64N"] false (intH ⟨64, false⟩) (·.«uint64N») (fun v x => { x with «uint64N» := v }),
   Member.of [b!"int16N"] false (intH ⟨16, true⟩) (·.«int16N») (fun v x => { x with «int16N» := v }),
   Member.of [b!"uint16N"] false (intH ⟨16, false⟩) (·.«uint16N») (fun v x => { x with «uint16N» := v }),
   Member.of [b!"uint8N"] false (intH ⟨8, false⟩) (·.«uint8N») (fun v x => { x with «uint8N» := v }),
   Member.of [b!"int8N"] false (intH ⟨8, true⟩) (·.«int8N») (fun v x => { x with «int8N» := v }),
   Member.of [b!"charN"] false (intH ⟨8, true⟩) (·.«charN») (fun v x => { x with «charN» := v }),
   Member.of [b!"scharN"] false (intH ⟨8, true⟩) (·.«scharN») (fun v x => { x with «scharN» := v }),
   Member.of [b!"ucharN"] false (intH ⟨8, false⟩) (·.«ucharN») (fun v x => { x with «ucharN» := v }),
   Member.of [b!"boolN"] false (boolH) (·.«boolN») (fun v x => { x with «boolN» := v })]
  []
def TypeHandlerIntTypes.hd : Handler TypeHandlerIntTypes := structH {} TypeHandlerIntTypes.meta

-- check_json_type_handler_integer_types
example : reads (TypeHandlerIntTypes.hd) b!"{\n  \"intN\": -345,\n  \"uintN\": 567,\n  \"int64N\": -1234,\n  \"uint64N\": 987,\n  \"int16N\": -23,\n  \"uint16N\": 45,\n  \"uint8N\": 255,\n  \"int8N\": -127,\n  \"charN\": 123,\n  \"scharN\": -123,\n  \"ucharN\": 234,\n  \"boolN\": true\n}" =
    some (.noError, { intN := -345, uintN := 567, int64N := -1234, uint64N := 987, int16N := -23, uint16N := 45, uint8N := 255, int8N := -127, charN := 123, scharN := -123, ucharN := 234, boolN := true }, [], []) := by decide +kernel

-- … and back
example : writes TypeHandlerIntTypes.hd { intN := -345, uintN := 567, int64N := -1234, uint64N := 987, int16N := -23, uint16N := 45, uint8N := 255, int8N := -127, charN := 123, scharN := -123, ucharN := 234, boolN := true } = some b!"{\n  \"intN\": -345,\n  \"uintN\": 567,\n  \"int64N\": -1234,\n  \"uint64N\": 987,\n  \"int16N\": -23,\n  \"uint16N\": 45,\n  \"uint8N\": 255,\n  \"int8N\": -127,\n  \"charN\": 123,\n  \"scharN\": -123,\n  \"ucharN\": 234,\n  \"boolN\": true\n}" := by decide +kernel

structure ArrayTest where
  «data» : List (Nat) := [0, 0, 0]
  deriving DecidableEq

def ArrayTest.meta : Meta ArrayTest := .mk
  [Member.of [b!"data"] false (arrH 3 (doubleH)) (·.«data») (fun v x => { x with «data» := v })]
  []
def ArrayTest.hd : Handler ArrayTest := structH {} ArrayTest.meta

-- check_json_array_test
example : reads (ArrayTest.hd) b!"{\n  \"data\": [4, 5, 6]\n}" =
    some (.noError, { data := [4616189618054758400, 4617315517961601024, 4618441417868443648] }, [], []) := by decide +kernel

structure SkipTestBase where
  «name» : Bytes := []
  «id» : Int := 0
  deriving DecidableEq

def SkipTestBase.meta : Meta SkipTestBase := .mk
  [Member.of [b!"name"] false (stringH .sse2) (·.«name») (fun v x => { x with «name» := v }),
   Member.of [b!"id"] false (intH ⟨32, true⟩) (·.«id») (fun v x => { x with «id» := v })]
  []
def SkipTestBase.hd : Handler SkipTestBase := structH {} SkipTestBase.meta

structure SkipTestInternalContainer where
  «items» : List (Nat) := []
  deriving DecidableEq

def SkipTestInternalContainer.meta : Meta SkipTestInternalContainer := .mk
  [Member.of [b!"items"] false (vecH (floatH)) (·.«items») (fun v x => { x with «items» := v })]
  []
def SkipTestInternalContainer.hd : Handler SkipTestInternalContainer := structH {} SkipTestInternalContainer.meta

structure SkipTestNameContainer where
  «name» : Bytes := []
  «id» : Int := 0
  «container» : SkipTestInternalContainer := {}
  deriving DecidableEq

def SkipTestNameContainer.meta : Meta SkipTestNameContainer := .mk
  [Member.of [b!"name"] false (stringH .sse2) (·.«name») (fun v x => { x with «name» := v }),
   Member.of [b!"id"] false (intH ⟨32, true⟩) (·.«id») (fun v x => { x with «id» := v }),
   Member.of [b!"container"] false (SkipTestInternalContainer.hd) (·.«container») (fun v x => { x with «container» := v })]
  []
def SkipTestNameContainer.hd : Handler SkipTestNameContainer := structH {} SkipTestNameContainer.meta

structure SkipTestSubClass where
  superSkipTestBase : SkipTestBase := {}
  «value» : Nat := 0
  «skip_test_list_01» : List (SkipTestNameContainer) := []
  «skip_test_list_02» : List (SkipTestNameContainer) := []
  deriving DecidableEq

def SkipTestSubClass.meta : Meta SkipTestSubClass := .mk
  [Member.of [b!"value"] false (floatH) (·.«value») (fun v x => { x with «value» := v }),
   Member.of [b!"skip_test_list_01"] false (vecH (SkipTestNameContainer.hd)) (·.«skip_test_list_01») (fun v x => { x with «skip_test_list_01» := v }),
   Member.of [b!"skip_test_list_02"] false (vecH (SkipTestNameContainer.hd)) (·.«skip_test_list_02») (fun v x => { x with «skip_test_list_02» := v })]
  [(b!"SkipTestBase", SkipTestBase.meta.up (·.superSkipTestBase) (fun v x => { x with superSkipTestBase := v }))]
def SkipTestSubClass.hd : Handler SkipTestSubClass := structH {} SkipTestSubClass.meta

-- check_json_skip_test
example : reads (SkipTestBase.hd) b!"\n{\n  \"skip_test_list_01\": [\n    {\n      \"id\": 1,\n      \"container\": {\n        \"items\": []\n      },\n      \"skip_me\": [],\n      \"name\": \"list01\"\n    },\n    {\n      \"name\": \"list02\",\n      \"skip_me\": [],\n      \"container\": {\n        \"items\": [1.1, 2.2, 3.3]\n      },\n      \"id\": 2\n    },\n    {\n      \"skip_me\": [],\n      \"name\": \"list03\",\n      \"id\": 3,\n      \"container\": {\n        \"items\": [0, 1, 2]\n      }\n    }\n  ],\n  \"skip_test_list_02\": [\n    {\n      \"name\": \"list01\",\n      \"id\": 1,\n      \"container\": {\n        \"items\": []\n      },\n      \"skip_me\": []\n    },\n    {\n      \"name\": \"list02\",\n      \"skip_me\": [],\n      \"container\": {\n        \"items\": []\n      },\n      \"id\": 2\n    },\n    {\n      \"container\": {\n        \"items\": []\n      },\n      \"skip_me\": [],\n      \"name\": \"list03\",\n      \"id\": 3\n    }\n  ],\n  \"value\": 3.14,\n  \"name\": \"base_name\",\n  \"id\": 444\n}\n" =
    some (.noError, { name := b!"base_name", id := 444 }, [b!"skip_test_list_01", b!"skip_test_list_02", b!"value"], []) := by decide +kernel

-- check_json_skip_test (the derived class)
example : reads (SkipTestSubClass.hd) b!"\n{\n  \"skip_test_list_01\": [\n    {\n      \"id\": 1,\n      \"container\": {\n        \"items\": []\n      },\n      \"skip_me\": [],\n      \"name\": \"list01\"\n    },\n    {\n      \"name\": \"list02\",\n      \"skip_me\": [],\n      \"container\": {\n        \"items\": [1.1, 2.2, 3.3]\n      },\n      \"id\": 2\n    },\n    {\n      \"skip_me\": [],\n      \"name\": \"list03\",\n      \"id\": 3,\n      \"container\": {\n        \"items\": [0, 1, 2]\n      }\n    }\n  ],\n  \"skip_test_list_02\": [\n    {\n      \"name\": \"list01\",\n      \"id\": 1,\n      \"container\": {\n        \"items\": []\n      },\n      \"skip_me\": []\n    },\n    {\n      \"name\": \"list02\",\n      \"skip_me\": [],\n      \"container\": {\n        \"items\": []\n      },\n      \"id\": 2\n    },\n    {\n      \"container\": {\n        \"items\": []\n      },\n      \"skip_me\": [],\n      \"name\": \"list03\",\n      \"id\": 3\n    }\n  ],\n  \"value\": 3.14,\n  \"name\": \"base_name\",\n  \"id\": 444\n}\n" =
    some (.noError, { superSkipTestBase := { name := b!"base_name", id := 444 }, value := 1078523331, skip_test_list_01 := [{ name := b!"list01", id := 1 }, { name := b!"list02", id := 2, container := { items := [1066192077, 1074580685, 1079194419] } }, { name := b!"list03", id := 3, container := { items := [0, 1065353216, 1073741824] } }], skip_test_list_02 := [{ name := b!"list01", id := 1 }, { name := b!"list02", id := 2 }, { name := b!"list03", id := 3 }] }, [b!"skip_me", b!"skip_me", b!"skip_me", b!"skip_me", b!"skip_me", b!"skip_me"], []) := by decide +kernel

structure MultiTopLevel where
  «a» : Int := 0
  deriving DecidableEq

def MultiTopLevel.meta : Meta MultiTopLevel := .mk
  [Member.of [b!"a"] false (intH ⟨32, true⟩) (·.«a») (fun v x => { x with «a» := v })]
  []
def MultiTopLevel.hd : Handler MultiTopLevel := structH {} MultiTopLevel.meta

-- check_multi_top_level_json
example : (do
      let r1 ← parseTo MultiTopLevel.hd 100 {} (Ctx.onText { ascii := true, simd := .sse2 } {} b!"{ a: 1}{a: 2}{a:3}")
      let r2 ← parseTo MultiTopLevel.hd 100 r1.2.1 r1.2.2
      let r3 ← parseTo MultiTopLevel.hd 100 r2.2.1 r2.2.2
      some [(r1.1, r1.2.1), (r2.1, r2.2.1), (r3.1, r3.2.1)]) =
    some [(Err.noError, ⟨1⟩), (.noError, ⟨2⟩), (.noError, ⟨3⟩)] := by decide +kernel

structure EscapedOuterStruct where
  «some_text» : Bytes := []
  «sub_object» : SubObject := {}
  deriving DecidableEq

def EscapedOuterStruct.meta : Meta EscapedOuterStruct := .mk
  [Member.of [b!"some_text"] false (stringH .sse2) (·.«some_text») (fun v x => { x with «some_text» := v }),
   Member.of [b!"sub_object"] false (SubObject.hd) (·.«sub_object») (fun v x => { x with «sub_object» := v })]
  []
def EscapedOuterStruct.hd : Handler EscapedOuterStruct := structH {} EscapedOuterStruct.meta

-- check_json_escaped
example : reads (EscapedOuterStruct.hd) b!"{\n  \"some_text\": \"more\\\"_te\\\\xt\",\n  \"sub_object\": {\n    \"more_data\": \"so\\\\me \\\"text\",\n    \"a_float\": 1.2,\n    \"boolean_member\": false\n  }\n}" =
    some (.noError, { some_text := b!"more\"_te\\xt", sub_object := { more_data := b!"so\\me \"text", a_float := 1067030938 } }, [], []) := by decide +kernel

structure OutsideMeta where
  «data» : Bytes := []
  «a» : Nat := 0
  deriving DecidableEq

def OutsideMeta.meta : Meta OutsideMeta := .mk
  [Member.of [b!"data"] false (stringH .sse2) (·.«data») (fun v x => { x with «data» := v }),
   Member.of [b!"a"] false (floatH) (·.«a») (fun v x => { x with «a» := v })]
  []
def OutsideMeta.hd : Handler OutsideMeta := structH {} OutsideMeta.meta

-- check_json_meta_outside
example : reads (OutsideMeta.hd) b!"{\n  \"data\": \"this is some text\",\n  \"a\": 44.5\n}" =
    some (.noError, { data := b!"this is some text", a := 1110573056 }, [], []) := by decide +kernel

structure FloatingPointAtTheEnd where
  «enabled» : Bool := false
  «value» : Nat := 0
  deriving DecidableEq

def FloatingPointAtTheEnd.meta : Meta FloatingPointAtTheEnd := .mk
  [Member.of [b!"enabled"] false (boolH) (·.«enabled») (fun v x => { x with «enabled» := v }),
   Member.of [b!"value"] false (floatH) (·.«value») (fun v x => { x with «value» := v })]
  []
def FloatingPointAtTheEnd.hd : Handler FloatingPointAtTheEnd := structH {} FloatingPointAtTheEnd.meta

-- check_short_floating_point
example : reads (FloatingPointAtTheEnd.hd) b!"{\n  \"enabled\": true,\n  \"value\": 0.5\n}" =
    some (.noError, { enabled := true, value := 1056964608 }, [], []) := by decide +kernel

-- check_invalid_floating_point
example : (reads FloatingPointAtTheEnd.hd b!"{\n  \"enabled\": true,\n  \"value\": 0.5.e..-.E.5\n}").map (·.1) = some .failedToParseFloat := by decide +kernel

structure MoreEscapedStruct where
  «some_text» : Bytes := []
  «some_other» : Bytes := []
  «pure_escape» : Bytes := []
  «strange_escape» : Bytes := []
  «pure_strange_escape» : Bytes := []
  «empty_string» : Bytes := []
  deriving DecidableEq

def MoreEscapedStruct.meta : Meta MoreEscapedStruct := .mk
  [Member.of [b!"some_text"] false (stringH .sse2) (·.«some_text») (fun v x => { x with «some_text» := v }),
   Member.of [b!"some_other"] false (stringH .sse2) (·.«some_other») (fun v x => { x with «some_other» := v }),
   Member.of [b!"pure_escape"] false (stringH .sse2) (·.«pure_escape») (fun v x => { x with «pure_escape» := v }),
   Member.of [b!"strange_escape"] false (stringH .sse2) (·.«strange_escape») (fun v x => { x with «strange_escape» := v }),
   Member.of [b!"pure_strange_escape"] false (stringH .sse2) (·.«pure_strange_escape») (fun v x => { x with «pure_strange_escape» := v }),
   Member.of [b!"empty_string"] false (stringH .sse2) (·.«empty_string») (fun v x => { x with «empty_string» := v })]
  []
def MoreEscapedStruct.hd : Handler MoreEscapedStruct := structH {} MoreEscapedStruct.meta

-- check_json_escaped_end
example : reads (MoreEscapedStruct.hd) b!"{\n  \"some_text\": \"more\\n\",\n  \"some_other\": \"tests\\\"\",\n  \"pure_escape\": \"\\n\",\n  \"strange_escape\": \"foo\\s\",\n  \"pure_strange_escape\": \"\\k\",\n  \"empty_string\": \"\"\n  }\n}" =
    some (.noError, { some_text := b!"more\n", some_other := b!"tests\"", pure_escape := b!"\n", strange_escape := b!"foo\\s", pure_strange_escape := b!"\\k", empty_string := [] }, [], []) := by decide +kernel

namespace Verify

structure ContainsStringNode where
  «StringNode» : Bytes := []
  deriving DecidableEq

def ContainsStringNode.meta : Meta ContainsStringNode := .mk
  [Member.of [b!"StringNode"] false (stringH .sse2) (·.«StringNode») (fun v x => { x with «StringNode» := v })]
  []
def ContainsStringNode.hd : Handler ContainsStringNode := structH {} ContainsStringNode.meta

structure SubStructVerify where
  superContainsStringNode : ContainsStringNode := {}
  «NumberNode» : Int := 0
  deriving DecidableEq

def SubStructVerify.meta : Meta SubStructVerify := .mk
  [Member.of [b!"NumberNode"] false (intH ⟨32, true⟩) (·.«NumberNode») (fun v x => { x with «NumberNode» := v })]
  [(b!"ContainsStringNode", ContainsStringNode.meta.up (·.superContainsStringNode) (fun v x => { x with superContainsStringNode := v }))]
def SubStructVerify.hd : Handler SubStructVerify := structH {} SubStructVerify.meta

-- json-struct-verify.cpp: testSimpleOneMember
example : reads (SubStructVerify.hd) b!"{\n\"StringNode\": \"Some test data\",\n\"NumberNode\": 4676\n}\n" =
    some (.noError, { superContainsStringNode := { StringNode := b!"Some test data" }, NumberNode := 4676 }, [], []) := by decide +kernel

-- testSimpleVerifyMissingMemberInStruct
example : reads (ContainsStringNode.hd) b!"{\n\"ThisWillBeUnassigned\": \"Some data\",\n\"StringNode\": \"Some test data\"\n}\n" =
    some (.noError, { StringNode := b!"Some test data" }, [b!"ThisWillBeUnassigned"], []) := by decide +kernel

structure RequiredMemberStruct where
  «Field1» : Int := 0
  «Field2» : Int := 0
  «Field3» : Int := 0
  deriving DecidableEq

def RequiredMemberStruct.meta : Meta RequiredMemberStruct := .mk
  [Member.of [b!"Field1"] false (intH ⟨32, true⟩) (·.«Field1») (fun v x => { x with «Field1» := v }),
   Member.of [b!"Field2"] false (intH ⟨32, true⟩) (·.«Field2») (fun v x => { x with «Field2» := v }),
   Member.of [b!"Field3"] false (intH ⟨32, true⟩) (·.«Field3») (fun v x => { x with «Field3» := v })]
  []
def RequiredMemberStruct.hd : Handler RequiredMemberStruct := structH {} RequiredMemberStruct.meta

-- testSimpleVerifyMissingRequiredMemberInStruct
example : reads (RequiredMemberStruct.hd) b!"{\n\"Field1\": 1\n,\"Field3\": 3\n}\n" =
    some (.noError, { Field1 := 1, Field3 := 3 }, [], [b!"Field2"]) := by decide +kernel

structure SuperClass where
  «StringNode» : Bytes := []
  «NumberNode» : Int := 0
  deriving DecidableEq

def SuperClass.meta : Meta SuperClass := .mk
  [Member.of [b!"StringNode"] false (stringH .sse2) (·.«StringNode») (fun v x => { x with «StringNode» := v }),
   Member.of [b!"NumberNode"] false (intH ⟨32, true⟩) (·.«NumberNode») (fun v x => { x with «NumberNode» := v })]
  []
def SuperClass.hd : Handler SuperClass := structH {} SuperClass.meta

structure SubClass where
  superSuperClass : SuperClass := {}
  «SubNode» : Bytes := []
  «SubNode2» : Int := 0
  deriving DecidableEq

def SubClass.meta : Meta SubClass := .mk
  [Member.of [b!"SubNode"] false (stringH .sse2) (·.«SubNode») (fun v x => { x with «SubNode» := v }),
   Member.of [b!"SubNode2"] false (intH ⟨32, true⟩) (·.«SubNode2») (fun v x => { x with «SubNode2» := v })]
  [(b!"SuperClass", SuperClass.meta.up (·.superSuperClass) (fun v x => { x with superSuperClass := v }))]
def SubClass.hd : Handler SubClass := structH {} SubClass.meta

-- testClassHirarchyVerifyMissingMemberInStruct
example : reads (SubClass.hd) b!"{\n\"StringNode\": \"Some test data\",\n\"NumberNode\": 342,\n\"SubNode\": \"This should be in subclass\"\n}\n" =
    some (.noError, { superSuperClass := { StringNode := b!"Some test data", NumberNode := 342 }, SubNode := b!"This should be in subclass" }, [], [b!"SubNode2"]) := by decide +kernel

structure SuperSuperClass where
  «SuperSuper» : Int := 0
  deriving DecidableEq

def SuperSuperClass.meta : Meta SuperSuperClass := .mk
  [Member.of [b!"SuperSuper"] false (intH ⟨32, true⟩) (·.«SuperSuper») (fun v x => { x with «SuperSuper» := v })]
  []
def SuperSuperClass.hd : Handler SuperSuperClass := structH {} SuperSuperClass.meta

structure SuperClass2 where
  superSuperSuperClass : SuperSuperClass := {}
  «Super» : Bytes := []
  deriving DecidableEq

def SuperClass2.meta : Meta SuperClass2 := .mk
  [Member.of [b!"Super"] false (stringH .sse2) (·.«Super») (fun v x => { x with «Super» := v })]
  [(b!"SuperSuperClass", SuperSuperClass.meta.up (·.superSuperSuperClass) (fun v x => { x with superSuperSuperClass := v }))]
def SuperClass2.hd : Handler SuperClass2 := structH {} SuperClass2.meta

structure RegularClass where
  superSuperClass2 : SuperClass2 := {}
  «Regular» : Int := 0
  deriving DecidableEq

def RegularClass.meta : Meta RegularClass := .mk
  [Member.of [b!"Regular"] false (intH ⟨32, true⟩) (·.«Regular») (fun v x => { x with «Regular» := v })]
  [(b!"SuperClass2", SuperClass2.meta.up (·.superSuperClass2) (fun v x => { x with superSuperClass2 := v }))]
def RegularClass.hd : Handler RegularClass := structH {} RegularClass.meta

-- testClassHIrarchyVerifyMissingDataForStruct
example : reads (RegularClass.hd) b!"{\n\"SuperSuper\": 5,\n\"Regular\": 42\n}\n" =
    some (.noError, { Regular := 42, superSuperClass2 := { superSuperSuperClass := { SuperSuper := 5 } } }, [], [b!"SuperClass2::Super"]) := by decide +kernel

-- testClassHirarchyVerifyMissingMemberInStruct2
example : reads (RegularClass.hd) b!"{\n\"SuperSuper\": 5,\n\"Super\": \"This is super\",\n\"SuperSuperSuper\": 42,\n\"Regular\": 42\n}\n" =
    some (.noError, { Regular := 42, superSuperClass2 := { Super := b!"This is super", superSuperSuperClass := { SuperSuper := 5 } } }, [b!"SuperSuperSuper"], []) := by decide +kernel

structure A where
  «a» : Int := 0
  deriving DecidableEq

def A.meta : Meta A := .mk
  [Member.of [b!"a"] false (intH ⟨32, true⟩) (·.«a») (fun v x => { x with «a» := v })]
  []
def A.hd : Handler A := structH {} A.meta

structure B where
  superA : A := {}
  «b» : Nat := 0
  deriving DecidableEq

def B.meta : Meta B := .mk
  [Member.of [b!"b"] false (floatH) (·.«b») (fun v x => { x with «b» := v })]
  [(b!"A", A.meta.up (·.superA) (fun v x => { x with superA := v }))]
def B.hd : Handler B := structH {} B.meta

structure D where
  «d» : Int := 0
  deriving DecidableEq

def D.meta : Meta D := .mk
  [Member.of [b!"d"] false (intH ⟨32, true⟩) (·.«d») (fun v x => { x with «d» := v })]
  []
def D.hd : Handler D := structH {} D.meta

structure E where
  superD : D := {}
  «e» : Nat := 0
  deriving DecidableEq

def E.meta : Meta E := .mk
  [Member.of [b!"e"] false (doubleH) (·.«e») (fun v x => { x with «e» := v })]
  [(b!"D", D.meta.up (·.superD) (fun v x => { x with superD := v }))]
def E.hd : Handler E := structH {} E.meta

structure F where
  superE : E := {}
  «f» : Int := 0
  deriving DecidableEq

def F.meta : Meta F := .mk
  [Member.of [b!"f"] false (intH ⟨32, true⟩) (·.«f») (fun v x => { x with «f» := v })]
  [(b!"E", E.meta.up (·.superE) (fun v x => { x with superE := v }))]
def F.hd : Handler F := structH {} F.meta

structure G where
  «g» : Bytes := []
  deriving DecidableEq

def G.meta : Meta G := .mk
  [Member.of [b!"g"] false (stringH .sse2) (·.«g») (fun v x => { x with «g» := v })]
  []
def G.hd : Handler G := structH {} G.meta

structure Subclass where
  superB : B := {}
  superF : F := {}
  superG : G := {}
  «h» : Int := 0
  deriving DecidableEq

def Subclass.meta : Meta Subclass := .mk
  [Member.of [b!"h"] false (intH ⟨32, true⟩) (·.«h») (fun v x => { x with «h» := v })]
  [(b!"G", G.meta.up (·.superG) (fun v x => { x with superG := v })), (b!"F", F.meta.up (·.superF) (fun v x => { x with superF := v })), (b!"B", B.meta.up (·.superB) (fun v x => { x with superB := v }))]
def Subclass.hd : Handler Subclass := structH {} Subclass.meta

-- testClassHirarchyVerifyMissingDataForStructDeep
example : reads (Subclass.hd) b!"{\n\"a\": 4,\n\"b\": 5.5,\n\"d\": 127,\n\"f\": 345,\n\"g\": \"a\",\n\"h\": 987\n}\n" =
    some (.noError, { h := 987, superB := { b := 1085276160, superA := { a := 4 } }, superF := { f := 345, superE := { superD := { d := 127 } } }, superG := { g := b!"a" } }, [], [b!"E::e"]) := by decide +kernel

-- json-struct-serialize-test.cpp: test_serialize_deep
example : writes (Subclass.hd) { h := 7, superB := { b := 1083179008, superA := { a := 4 } }, superF := { f := 6, superE := { e := 4617878467915022336, superD := { d := 5 } } }, superG := { g := b!"OutputString" } } = some b!"{\n  \"h\": 7,\n  \"g\": \"OutputString\",\n  \"f\": 6,\n  \"e\": 5.5,\n  \"d\": 5,\n  \"b\": 4.5,\n  \"a\": 4\n}" := by decide +kernel

-- serialize_test_compact
example : writes (Subclass.hd) { h := 7, superB := { b := 1083179008, superA := { a := 4 } }, superF := { f := 6, superE := { e := 4617878467915022336, superD := { d := 5 } } }, superG := { g := b!"OutputString" } } false = some b!"{\"h\":7,\"g\":\"OutputString\",\"f\":6,\"e\":5.5,\"d\":5,\"b\":4.5,\"a\":4}" := by decide +kernel

structure Simple where
  «A» : Bytes := []
  «b» : Bool := false
  «some_longer_name» : Int := 0
  deriving DecidableEq

def Simple.meta : Meta Simple := .mk
  [Member.of [b!"A"] false (stringH .sse2) (·.«A») (fun v x => { x with «A» := v }),
   Member.of [b!"b"] false (boolH) (·.«b») (fun v x => { x with «b» := v }),
   Member.of [b!"some_longer_name"] false (intH ⟨32, true⟩) (·.«some_longer_name») (fun v x => { x with «some_longer_name» := v })]
  []
def Simple.hd : Handler Simple := structH {} Simple.meta

-- test_serialize_simple
example : writes Simple.hd { A := b!"TestString", some_longer_name := 456 } = some b!"{\n  \"A\": \"TestString\",\n  \"b\": false,\n  \"some_longer_name\": 456\n}" := by decide +kernel

structure WithEscapedData where
  «data» : Bytes := []
  deriving DecidableEq

def WithEscapedData.meta : Meta WithEscapedData := .mk
  [Member.of [b!"data"] false (stringH .sse2) (·.«data») (fun v x => { x with «data» := v })]
  []
def WithEscapedData.hd : Handler WithEscapedData := structH {} WithEscapedData.meta

-- serialze_test_escaped_data
example : writes WithEscapedData.hd { data := b!"escaped \n \" \t string" } = some b!"{\n  \"data\": \"escaped \\n \\\" \\t string\"\n}" := by decide +kernel

structure EmptyString where
  «key1» : Bytes := []
  «key2» : Bytes := []
  «key3» : Bytes := []
  deriving DecidableEq

def EmptyString.meta : Meta EmptyString := .mk
  [Member.of [b!"key1"] false (stringH .sse2) (·.«key1») (fun v x => { x with «key1» := v }),
   Member.of [b!"key2"] false (stringH .sse2) (·.«key2») (fun v x => { x with «key2» := v }),
   Member.of [b!"key3"] false (stringH .sse2) (·.«key3») (fun v x => { x with «key3» := v })]
  []
def EmptyString.hd : Handler EmptyString := structH {} EmptyString.meta

-- test_serialize_empty_string
example : reads (EmptyString.hd) b!"{\n  \"key1\": \"value1\",\n  \"key2\": \"\",\n  \"key3\": \"value3\"\n}" =
    some (.noError, { key1 := b!"value1", key3 := b!"value3" }, [], []) := by decide +kernel

-- … and back
example : writes EmptyString.hd { key1 := b!"value1", key3 := b!"value3" } = some b!"{\n  \"key1\": \"value1\",\n  \"key2\": \"\",\n  \"key3\": \"value3\"\n}" := by decide +kernel

-- … and as tokens
example : ((reads tokensH b!"{\n  \"key1\": \"value1\",\n  \"key2\": \"\",\n  \"key3\": \"value3\"\n}").bind fun r => writes tokensH r.2.1) = some b!"{\n  \"key1\": \"value1\",\n  \"key2\": \"\",\n  \"key3\": \"value3\"\n}" := by decide +kernel

end Verify

namespace Aliases

structure FirstAlias where
  «ThePrimary» : Int := 0
  «SomeOtherValue» : Int := 0
  deriving DecidableEq

def FirstAlias.meta : Meta FirstAlias := .mk
  [Member.of [b!"ThePrimary", b!"TheAlias"] false (intH ⟨32, true⟩) (·.«ThePrimary») (fun v x => { x with «ThePrimary» := v }),
   Member.of [b!"SomeOtherValue"] false (intH ⟨32, true⟩) (·.«SomeOtherValue») (fun v x => { x with «SomeOtherValue» := v })]
  []
def FirstAlias.hd : Handler FirstAlias := structH {} FirstAlias.meta

-- json-struct-aliases-test.cpp: struct_aliases_checkPlain
example : reads (FirstAlias.hd) b!"\n{\n  \"TheAlias\": 55,\n  \"SomeOtherValue\": 44\n}\n" =
    some (.noError, { ThePrimary := 55, SomeOtherValue := 44 }, [], []) := by decide +kernel

structure ShadowAlias where
  «TheAlias» : Int := 0
  «SomeOtherValue» : Int := 0
  deriving DecidableEq

def ShadowAlias.meta : Meta ShadowAlias := .mk
  [Member.of [b!"TheAlias", b!"SomeOtherValue"] false (intH ⟨32, true⟩) (·.«TheAlias») (fun v x => { x with «TheAlias» := v }),
   Member.of [b!"SomeOtherValue"] false (intH ⟨32, true⟩) (·.«SomeOtherValue») (fun v x => { x with «SomeOtherValue» := v })]
  []
def ShadowAlias.hd : Handler ShadowAlias := structH {} ShadowAlias.meta

-- struct_aliases_checkPlainShadow
example : reads (ShadowAlias.hd) b!"\n{\n  \"TheAlias\": 55,\n  \"SomeOtherValue\": 44\n}\n" =
    some (.noError, { TheAlias := 55, SomeOtherValue := 44 }, [], []) := by decide +kernel

structure TheSuper where
  «TheAlias» : Int := 0
  deriving DecidableEq

def TheSuper.meta : Meta TheSuper := .mk
  [Member.of [b!"TheAlias"] false (intH ⟨32, true⟩) (·.«TheAlias») (fun v x => { x with «TheAlias» := v })]
  []
def TheSuper.hd : Handler TheSuper := structH {} TheSuper.meta

structure TheSub where
  superTheSuper : TheSuper := {}
  «SomeOtherValue» : Int := 0
  deriving DecidableEq

def TheSub.meta : Meta TheSub := .mk
  [Member.of [b!"SomeOtherValue", b!"TheAlias"] false (intH ⟨32, true⟩) (·.«SomeOtherValue») (fun v x => { x with «SomeOtherValue» := v })]
  [(b!"TheSuper", TheSuper.meta.up (·.superTheSuper) (fun v x => { x with superTheSuper := v }))]
def TheSub.hd : Handler TheSub := structH {} TheSub.meta

-- struct_aliases_checkSuperShadow
example : reads (TheSub.hd) b!"\n{\n  \"TheAlias\": 55,\n  \"SomeOtherValue\": 44\n}\n" =
    some (.noError, { superTheSuper := { TheAlias := 55 }, SomeOtherValue := 44 }, [], []) := by decide +kernel

-- struct_aliases_checkSuperShadow
example : reads (TheSub.hd) b!"\n{\n  \"SomeOtherValue\": 44,\n  \"TheAlias\": 55\n}\n" =
    some (.noError, { superTheSuper := { TheAlias := 55 }, SomeOtherValue := 44 }, [], []) := by decide +kernel

structure Second where
  «one» : Bytes := []
  «two_primary» : Bytes := []
  «three» : Bytes := []
  deriving DecidableEq

def Second.meta : Meta Second := .mk
  [Member.of [b!"one"] false (stringH .sse2) (·.«one») (fun v x => { x with «one» := v }),
   Member.of [b!"two_primary", b!"two"] false (stringH .sse2) (·.«two_primary») (fun v x => { x with «two_primary» := v }),
   Member.of [b!"three"] false (stringH .sse2) (·.«three») (fun v x => { x with «three» := v })]
  []
def Second.hd : Handler Second := structH {} Second.meta

structure First where
  «first» : Bytes := []
  «second» : Second := {}
  «third» : Bytes := []
  deriving DecidableEq

def First.meta : Meta First := .mk
  [Member.of [b!"first"] false (stringH .sse2) (·.«first») (fun v x => { x with «first» := v }),
   Member.of [b!"second"] false (Second.hd) (·.«second») (fun v x => { x with «second» := v }),
   Member.of [b!"third"] false (stringH .sse2) (·.«third») (fun v x => { x with «third» := v })]
  []
def First.hd : Handler First := structH {} First.meta

-- struct_aliases_checkRecursiveShadow
example : reads (First.hd) b!"\n{\n  \"first\": \"first\",\n  \"second\": {\n    \"one\": \"one\",\n    \"two\": \"two\",\n    \"three\": \"three\"\n  },\n  \"third\": \"third\"\n}\n" =
    some (.noError, { first := b!"first", second := { one := b!"one", two_primary := b!"two", three := b!"three" }, third := b!"third" }, [], []) := by decide +kernel

end Aliases

namespace Nested

structure Inner where
  «some_value» : Bytes := []
  deriving DecidableEq

def Inner.meta : Meta Inner := .mk
  [Member.of [b!"some_value"] false (stringH .sse2) (·.«some_value») (fun v x => { x with «some_value» := v })]
  []
def Inner.hd : Handler Inner := structH {} Inner.meta

structure NestedObject where
  «nested_1» : Inner := {}
  «nested_2» : Inner := {}
  deriving DecidableEq

def NestedObject.meta : Meta NestedObject := .mk
  [Member.of [b!"nested_1"] false (Inner.hd) (·.«nested_1») (fun v x => { x with «nested_1» := v }),
   Member.of [b!"nested_2"] false (Inner.hd) (·.«nested_2») (fun v x => { x with «nested_2» := v })]
  []
def NestedObject.hd : Handler NestedObject := structH {} NestedObject.meta

structure Object1 where
  «value» : Int := 0
  «nested_object» : NestedObject := {}
  deriving DecidableEq

def Object1.meta : Meta Object1 := .mk
  [Member.of [b!"value"] false (intH ⟨32, true⟩) (·.«value») (fun v x => { x with «value» := v }),
   Member.of [b!"nested_object"] false (NestedObject.hd) (·.«nested_object») (fun v x => { x with «nested_object» := v })]
  []
def Object1.hd : Handler Object1 := structH {} Object1.meta

structure Object1_OmittedVal where
  «value» : Int := 0
  deriving DecidableEq

def Object1_OmittedVal.meta : Meta Object1_OmittedVal := .mk
  [Member.of [b!"value"] false (intH ⟨32, true⟩) (·.«value») (fun v x => { x with «value» := v })]
  []
def Object1_OmittedVal.hd : Handler Object1_OmittedVal := structH {} Object1_OmittedVal.meta

structure Object2 where
  «value» : Int := 0
  deriving DecidableEq

def Object2.meta : Meta Object2 := .mk
  [Member.of [b!"value"] false (intH ⟨32, true⟩) (·.«value») (fun v x => { x with «value» := v })]
  []
def Object2.hd : Handler Object2 := structH {} Object2.meta

structure Container where
  «object1» : Object1 := {}
  «object2» : Object2 := {}
  deriving DecidableEq

def Container.meta : Meta Container := .mk
  [Member.of [b!"object1"] false (Object1.hd) (·.«object1») (fun v x => { x with «object1» := v }),
   Member.of [b!"object2"] false (Object2.hd) (·.«object2») (fun v x => { x with «object2» := v })]
  []
def Container.hd : Handler Container := structH {} Container.meta

structure Container_OmittedVal where
  «object1» : Object1_OmittedVal := {}
  «object2» : Object2 := {}
  deriving DecidableEq

def Container_OmittedVal.meta : Meta Container_OmittedVal := .mk
  [Member.of [b!"object1"] false (Object1_OmittedVal.hd) (·.«object1») (fun v x => { x with «object1» := v }),
   Member.of [b!"object2"] false (Object2.hd) (·.«object2») (fun v x => { x with «object2» := v })]
  []
def Container_OmittedVal.hd : Handler Container_OmittedVal := structH {} Container_OmittedVal.meta

-- json-struct-nested.cpp: nested_optional
example : reads (Container.hd) b!"\n{\n  \"object1\":\n  {\n    \"value\": 1,\n    \"nested_object\":\n    {\n      \"nested_1\":\n      {\n        \"some_value\": \"foo\"\n      }\n    }\n  },\n  \"object2\":\n  {\n    \"value\": 2\n  }\n}" =
    some (.noError, { object1 := { value := 1, nested_object := { nested_1 := ⟨b!"foo"⟩ } }, object2 := ⟨2⟩ }, [], [b!"nested_2"]) := by decide +kernel

-- nested_optional
example : reads (Container.hd) b!"\n{\n  \"object1\":\n  {\n    \"value\": 1,\n    \"nested_object\":\n    {\n      \"nested_1\":\n      {\n        \"some_value\": \"foo\"\n      },\n      \"nested_2\":\n      {\n        \"some_value\": \"bar\"\n      }\n    }\n  },\n  \"object2\":\n  {\n    \"value\": 2\n  }\n}" =
    some (.noError, { object1 := { value := 1, nested_object := { nested_1 := ⟨b!"foo"⟩, nested_2 := ⟨b!"bar"⟩ } }, object2 := ⟨2⟩ }, [], []) := by decide +kernel

-- nested_optional
example : reads (Container_OmittedVal.hd) b!"\n{\n  \"object1\":\n  {\n    \"value\": 1,\n    \"nested_object\":\n    {\n      \"nested_1\":\n      {\n        \"some_value\": \"foo\"\n      }\n    }\n  },\n  \"object2\":\n  {\n    \"value\": 2\n  }\n}" =
    some (.noError, { object1 := ⟨1⟩, object2 := ⟨2⟩ }, [b!"nested_object"], []) := by decide +kernel

-- nested_optional
example : reads (Container_OmittedVal.hd) b!"\n{\n  \"object1\":\n  {\n    \"value\": 1,\n    \"nested_object\":\n    {\n      \"nested_1\":\n      {\n        \"some_value\": \"foo\"\n      },\n      \"nested_2\":\n      {\n        \"some_value\": \"bar\"\n      }\n    }\n  },\n  \"object2\":\n  {\n    \"value\": 2\n  }\n}" =
    some (.noError, { object1 := ⟨1⟩, object2 := ⟨2⟩ }, [b!"nested_object"], []) := by decide +kernel

end Nested

namespace Small

structure OneTwo where
  «One» : Bytes := []
  «Two» : Bytes := []
  deriving DecidableEq

def OneTwo.meta : Meta OneTwo := .mk
  [Member.of [b!"One"] false (stringH .sse2) (·.«One») (fun v x => { x with «One» := v }),
   Member.of [b!"Two"] false (stringH .sse2) (·.«Two») (fun v x => { x with «Two» := v })]
  []
def OneTwo.hd : Handler OneTwo := structH {} OneTwo.meta

-- json-struct-escape.cpp: test_forward_slash
example : reads (OneTwo.hd) b!"{\n  \"One\": \"foo / bar\",\n  \"Two\": \"foo \\/ bar\"\n}" =
    some (.noError, ⟨b!"foo / bar", b!"foo / bar"⟩, [], []) := by decide +kernel

-- … and back
example : ((writes OneTwo.hd ⟨b!"foo / bar", b!"foo / bar"⟩).bind (reads OneTwo.hd)) = some (.noError, ⟨b!"foo / bar", b!"foo / bar"⟩, [], []) := by decide +kernel

structure UStruct where
  «euro» : Bytes := []
  «cjk» : Bytes := []
  «oslash» : Bytes := []
  «grin» : Bytes := []
  «ascii» : Bytes := []
  deriving DecidableEq

def UStruct.meta : Meta UStruct := .mk
  [Member.of [b!"euro"] false (stringH .sse2) (·.«euro») (fun v x => { x with «euro» := v }),
   Member.of [b!"cjk"] false (stringH .sse2) (·.«cjk») (fun v x => { x with «cjk» := v }),
   Member.of [b!"oslash"] false (stringH .sse2) (·.«oslash») (fun v x => { x with «oslash» := v }),
   Member.of [b!"grin"] false (stringH .sse2) (·.«grin») (fun v x => { x with «grin» := v }),
   Member.of [b!"ascii"] false (stringH .sse2) (·.«ascii») (fun v x => { x with «ascii» := v })]
  []
def UStruct.hd : Handler UStruct := structH {} UStruct.meta

-- json-struct-unicode-escape.cpp: unicode_escape_decoding
example : reads (UStruct.hd) b!"{\n  \"euro\": \"\\u20AC\",\n  \"cjk\": \"\\u4e2d\",\n  \"oslash\": \"\\u00f8\",\n  \"grin\": \"\\uD83D\\uDE00\",\n  \"ascii\": \"\\u0041\"\n}" =
    some (.noError, { euro := [0xE2, 0x82, 0xAC], cjk := [0xE4, 0xB8, 0xAD], oslash := [0xC3, 0xB8], grin := [0xF0, 0x9F, 0x98, 0x80], ascii := b!"A" }, [], []) := by decide +kernel

-- unicode_escape_roundtrip
example : ((writes UStruct.hd { euro := [0xE2, 0x82, 0xAC], cjk := [0xE4, 0xB8, 0xAD], oslash := [0xC3, 0xB8], grin := [0xF0, 0x9F, 0x98, 0x80], ascii := b!"A" }).bind (reads UStruct.hd)) = some (.noError, { euro := [0xE2, 0x82, 0xAC], cjk := [0xE4, 0xB8, 0xAD], oslash := [0xC3, 0xB8], grin := [0xF0, 0x9F, 0x98, 0x80], ascii := b!"A" }, [], []) := by decide +kernel

structure Utf8 where
  «One» : Bytes := []
  «Two» : Bytes := []
  «Three» : Bytes := []
  «Four» : Bytes := []
  «Five» : Bytes := []
  deriving DecidableEq

def Utf8.meta : Meta Utf8 := .mk
  [Member.of [b!"One"] false (stringH .sse2) (·.«One») (fun v x => { x with «One» := v }),
   Member.of [b!"Two"] false (stringH .sse2) (·.«Two») (fun v x => { x with «Two» := v }),
   Member.of [b!"Three"] false (stringH .sse2) (·.«Three») (fun v x => { x with «Three» := v }),
   Member.of [b!"Four"] false (stringH .sse2) (·.«Four») (fun v x => { x with «Four» := v }),
   Member.of [b!"Five"] false (stringH .sse2) (·.«Five») (fun v x => { x with «Five» := v })]
  []
def Utf8.hd : Handler Utf8 := structH {} Utf8.meta

-- json-struct-utf8.cpp: test_simple_utf8
example : reads (Utf8.hd) b!"{\n  \"One\": \"j\\u00f8rgen\",\n  \"Two\": \"j\\u00f8rgen\\u00f8\",\n  \"Three\": \"j\\u00f8rgen\\u012\",\n  \"Four\": \"j\\u00f8rgen\\u01\",\n  \"Five\": \"j\\u00f8rgen\\u0\"\n}" =
    some (.noError, { One := (b!"j" ++ [0xc3, 0xb8] ++ b!"rgen"), Two := (b!"j" ++ [0xc3, 0xb8] ++ b!"rgen" ++ [0xc3, 0xb8]), Three := (b!"j" ++ [0xc3, 0xb8] ++ b!"rgen\\u012"), Four := (b!"j" ++ [0xc3, 0xb8] ++ b!"rgen\\u01"), Five := (b!"j" ++ [0xc3, 0xb8] ++ b!"rgen\\u0") }, [], []) := by decide +kernel

structure Json1 where
  «num1» : Nat := 0
  «num2» : Nat := 0
  deriving DecidableEq

def Json1.meta : Meta Json1 := .mk
  [Member.of [b!"num1"] false (floatH) (·.«num1») (fun v x => { x with «num1» := v }),
   Member.of [b!"num2"] false (doubleH) (·.«num2») (fun v x => { x with «num2» := v })]
  []
def Json1.hd : Handler Json1 := structH {} Json1.meta

-- json-struct-float.cpp: json_struct_float
example : reads (Json1.hd) b!"\n{\n\"num1\": 32587.403333333333333333,\n\"num2\": 32587.403333333333333333\n}\n" =
    some (.noError, ⟨1191089871, 4674686771176840451⟩, [], []) := by decide +kernel

structure ZeroValueStruct where
  «f_pos_zero» : Nat := 0
  «f_neg_zero» : Nat := 0
  «d_pos_zero» : Nat := 0
  «d_neg_zero» : Nat := 0
  deriving DecidableEq

def ZeroValueStruct.meta : Meta ZeroValueStruct := .mk
  [Member.of [b!"f_pos_zero"] false (floatH) (·.«f_pos_zero») (fun v x => { x with «f_pos_zero» := v }),
   Member.of [b!"f_neg_zero"] false (floatH) (·.«f_neg_zero») (fun v x => { x with «f_neg_zero» := v }),
   Member.of [b!"d_pos_zero"] false (doubleH) (·.«d_pos_zero») (fun v x => { x with «d_pos_zero» := v }),
   Member.of [b!"d_neg_zero"] false (doubleH) (·.«d_neg_zero») (fun v x => { x with «d_neg_zero» := v })]
  []
def ZeroValueStruct.hd : Handler ZeroValueStruct := structH {} ZeroValueStruct.meta

-- zero-value-test.cpp: test_zero_value
example : reads (ZeroValueStruct.hd) b!"\n{\n  \"f_pos_zero\":  0,\n  \"f_neg_zero\": -0,\n  \"d_pos_zero\":  0,\n  \"d_neg_zero\": -0\n}\n" =
    some (.noError, ⟨0, 0x80000000, 0, 0x8000000000000000⟩, [], []) := by decide +kernel

-- zero-value-test.cpp: test_zero_value
example : reads (ZeroValueStruct.hd) b!"\n{\n  \"f_pos_zero\":  0.0,\n  \"f_neg_zero\": -0.0,\n  \"d_pos_zero\":  0.0,\n  \"d_neg_zero\": -0.0\n}\n" =
    some (.noError, ⟨0, 0x80000000, 0, 0x8000000000000000⟩, [], []) := by decide +kernel

-- zero-value-test.cpp: test_zero_value
example : reads (ZeroValueStruct.hd) b!"\n{\n  \"f_pos_zero\":  0e0,\n  \"f_neg_zero\": -0e0,\n  \"d_pos_zero\":  0e0,\n  \"d_neg_zero\": -0e0\n}\n" =
    some (.noError, ⟨0, 0x80000000, 0, 0x8000000000000000⟩, [], []) := by decide +kernel

structure SmallStructWithoutNullable where
  «a» : Int := 0
  «b» : Nat := 1074580685
  deriving DecidableEq

def SmallStructWithoutNullable.meta : Meta SmallStructWithoutNullable := .mk
  [Member.of [b!"a"] false (intH ⟨32, true⟩) (·.«a») (fun v x => { x with «a» := v }),
   Member.of [b!"b"] false (floatH) (·.«b») (fun v x => { x with «b» := v })]
  []
def SmallStructWithoutNullable.hd : Handler SmallStructWithoutNullable := structH {} SmallStructWithoutNullable.meta

structure SmallStruct where
  «a» : Int := 0
  «b» : Nat := 1074580685
  deriving DecidableEq

def SmallStruct.meta : Meta SmallStruct := .mk
  [Member.of [b!"a"] false (intH ⟨32, true⟩) (·.«a») (fun v x => { x with «a» := v }),
   Member.of [b!"b"] false (nullableH (floatH)) (·.«b») (fun v x => { x with «b» := v })]
  []
def SmallStruct.hd : Handler SmallStruct := structH {} SmallStruct.meta

structure SmallStructNullableChecked where
  «a» : Int := 0
  «b» : Nat × Bool := (1074580685, false)
  deriving DecidableEq

def SmallStructNullableChecked.meta : Meta SmallStructNullableChecked := .mk
  [Member.of [b!"a"] false (intH ⟨32, true⟩) (·.«a») (fun v x => { x with «a» := v }),
   Member.of [b!"b"] false (nullableCheckedH (floatH)) (·.«b») (fun v x => { x with «b» := v })]
  []
def SmallStructNullableChecked.hd : Handler SmallStructNullableChecked := structH {} SmallStructNullableChecked.meta

-- json-nullable-test.cpp: test_nullable
example : ((reads SmallStructWithoutNullable.hd b!"\n{\n  \"a\": 1,\n  \"b\": null\n}\n").map fun r => decide (r.1 ≠ .noError)) = some true := by decide +kernel

-- test_nullable
example : reads (SmallStruct.hd) b!"\n{\n  \"a\": 1,\n  \"b\": null\n}\n" =
    some (.noError, { a := 1 }, [], []) := by decide +kernel

-- test_nullable
example : reads (SmallStructNullableChecked.hd) b!"\n{\n  \"a\": 1,\n  \"b\": null\n}\n" =
    some (.noError, { a := 1, b := (1074580685, true) }, [], []) := by decide +kernel

structure SmallStructWithoutOptional where
  «a» : Int := 0
  «b» : Nat := 1074580685
  «c» : Bytes := []
  «d» : Bytes := []
  deriving DecidableEq

def SmallStructWithoutOptional.meta : Meta SmallStructWithoutOptional := .mk
  [Member.of [b!"a"] false (intH ⟨32, true⟩) (·.«a») (fun v x => { x with «a» := v }),
   Member.of [b!"b"] false (floatH) (·.«b») (fun v x => { x with «b» := v }),
   Member.of [b!"c"] false (stringH .sse2) (·.«c») (fun v x => { x with «c» := v }),
   Member.of [b!"d"] false (stringH .sse2) (·.«d») (fun v x => { x with «d» := v })]
  []
def SmallStructWithoutOptional.hd : Handler SmallStructWithoutOptional := structH {} SmallStructWithoutOptional.meta

structure SmallStructStd where
  «a» : Int := 0
  «b» : Option (Nat) := some 1074580685
  «c» : Option (Bytes) := none
  «d» : Option (Bytes) := none
  deriving DecidableEq

def SmallStructStd.meta : Meta SmallStructStd := .mk
  [Member.of [b!"a"] false (intH ⟨32, true⟩) (·.«a») (fun v x => { x with «a» := v }),
   Member.of [b!"b"] true (stdOptionalH (floatH)) (·.«b») (fun v x => { x with «b» := v }),
   Member.of [b!"c"] true (stdOptionalH (stringH .sse2)) (·.«c») (fun v x => { x with «c» := v }),
   Member.of [b!"d"] true (stdOptionalH (stringH .sse2)) (·.«d») (fun v x => { x with «d» := v })]
  []
def SmallStructStd.hd : Handler SmallStructStd := structH {} SmallStructStd.meta

-- json-optional.cpp: test_optional
example : ((reads SmallStructWithoutOptional.hd b!"\n{\n  \"a\": 1,\n  \"b\": 2.2,\n  \"c\": \"hello world\"\n}\n" (p := { allowUnassigned := false })).map fun r => decide (r.1 ≠ .noError)) = some true := by decide +kernel

-- test_optional
example : reads (SmallStructStd.hd) b!"\n{\n  \"a\": 1,\n  \"b\": 2.2,\n  \"c\": \"hello world\"\n}\n" (p := { allowUnassigned := false }) =
    some (.noError, { a := 1, b := some 1074580685, c := some b!"hello world" }, [], []) := by decide +kernel

structure JsonObject1 where
  «vec» : List (Int) × Nat := ([0, 0, 0, 0, 0, 0, 0, 0, 0, 0], 0)
  deriving DecidableEq

def JsonObject1.meta : Meta JsonObject1 := .mk
  [Member.of [b!"vec"] false (avcH 10 (intH ⟨32, true⟩)) (·.«vec») (fun v x => { x with «vec» := v })]
  []
def JsonObject1.hd : Handler JsonObject1 := structH {} JsonObject1.meta

structure JsonObject2 where
  «vec» : List (Int) × Nat := ([0, 0], 0)
  deriving DecidableEq

def JsonObject2.meta : Meta JsonObject2 := .mk
  [Member.of [b!"vec"] false (avcH 2 (intH ⟨32, true⟩)) (·.«vec») (fun v x => { x with «vec» := v })]
  []
def JsonObject2.hd : Handler JsonObject2 := structH {} JsonObject2.meta

-- json-struct-array-varlength.cpp: array_variable_content
example : reads (JsonObject1.hd) b!"\n{\n  \"vec\": [\n    1,2,3,4\n  ]\n}\n" =
    some (.noError, ⟨[1, 2, 3, 4, 0, 0, 0, 0, 0, 0], 4⟩, [], []) := by decide +kernel

-- array_variable_content_fail
example : ((reads JsonObject2.hd b!"\n{\n  \"vec\": [\n    1,2,3,4\n  ]\n}\n").map fun r => decide (r.1 ≠ .noError)) = some true := by decide +kernel

structure Foo where
  «data» : Int × Bytes × Nat × Unit := (0, [], 0, ())
  deriving DecidableEq

def Foo.meta : Meta Foo := .mk
  [Member.of [b!"data"] false (tupleH (.cons (intH ⟨32, true⟩) (.cons (stringH .sse2) (.cons floatH .nil)))) (·.«data») (fun v x => { x with «data» := v })]
  []
def Foo.hd : Handler Foo := structH {} Foo.meta

-- json-struct-serialize-tuple.cpp: serialize_tuple
example : reads (Foo.hd) b!"\n{\n  \"data\": [\n    9876,\n    \"Tuples are cool\",\n    3.1415\n  ]\n}\n" =
    some (.noError, ⟨(9876, b!"Tuples are cool", 1078529622, ())⟩, [], []) := by decide +kernel

structure TestBool where
  «member» : Bool × Unit := (false, ())
  deriving DecidableEq

def TestBool.meta : Meta TestBool := .mk
  [Member.of [b!"member"] false (tupleH (.cons boolH .nil)) (·.«member») (fun v x => { x with «member» := v })]
  []
def TestBool.hd : Handler TestBool := structH {} TestBool.meta

-- bool_tuple
example : reads (TestBool.hd) b!"{ \"member\": [true] }" =
    some (.noError, ⟨(true, ())⟩, [], []) := by decide +kernel

-- bool_tuple
example : writes TestBool.hd ⟨(true, ())⟩ = some b!"{\n  \"member\": [\n    true\n  ]\n}" := by decide +kernel

structure JsonData where
  «unordered_map» : List (Bytes × List (Nat)) := []
  «map» : List (Bytes × Bytes) := []
  «unordered_set» : List (Int) := []
  «set» : List (Nat) := []
  deriving DecidableEq

def JsonData.meta : Meta JsonData := .mk
  [Member.of [b!"unordered_map"] false (mapH (fun l e => l.filter (fun x => x.1 ≠ e.1) ++ [e]) (vecH (doubleH))) (·.«unordered_map») (fun v x => { x with «unordered_map» := v }),
   Member.of [b!"map"] false (mapH (fun l e => l.filter (fun x => x.1 ≠ e.1) ++ [e]) (stringH .sse2)) (·.«map») (fun v x => { x with «map» := v }),
   Member.of [b!"unordered_set"] false (setH (fun l e => if e ∈ l then l else l ++ [e]) (intH ⟨32, true⟩)) (·.«unordered_set») (fun v x => { x with «unordered_set» := v }),
   Member.of [b!"set"] false (setH (fun l e => if e ∈ l then l else l ++ [e]) (floatH)) (·.«set») (fun v x => { x with «set» := v })]
  []
def JsonData.hd : Handler JsonData := structH {} JsonData.meta

-- json-unordered-map.cpp: unordered_map_complex_value
example : reads (JsonData.hd) b!"{\n  \"unordered_map\": {\n    \"foo\": [ 1.0 ],\n    \"bar\": [ 2.0 ]\n  },\n  \"map\": {\n    \"hello\": \"world\",\n    \"sail\": \"boat\"\n  },\n  \"unordered_set\": [9, 8, 7, 6],\n  \"set\": [1.5, 1.6, 1.7, 1.8]\n}" =
    some (.noError, { unordered_map := [(b!"foo", [4607182418800017408]), (b!"bar", [4611686018427387904])], map := [(b!"hello", b!"world"), (b!"sail", b!"boat")], unordered_set := [9, 8, 7, 6], set := [1069547520, 1070386381, 1071225242, 1072064102] }, [], []) := by decide +kernel

-- … and back
example : ((writes JsonData.hd { unordered_map := [(b!"foo", [4607182418800017408]), (b!"bar", [4611686018427387904])], map := [(b!"hello", b!"world"), (b!"sail", b!"boat")], unordered_set := [9, 8, 7, 6], set := [1069547520, 1070386381, 1071225242, 1072064102] }).bind (reads JsonData.hd)) = some (.noError, { unordered_map := [(b!"foo", [4607182418800017408]), (b!"bar", [4611686018427387904])], map := [(b!"hello", b!"world"), (b!"sail", b!"boat")], unordered_set := [9, 8, 7, 6], set := [1069547520, 1070386381, 1071225242, 1072064102] }, [], []) := by decide +kernel

structure StdInt where
  «int8» : Int := 0
  «uint8» : Int := 0
  «int16» : Int := 0
  «uint16» : Int := 0
  «int32» : Int := 0
  «uint32» : Int := 0
  «int64» : Int := 0
  «uint64» : Int := 0
  deriving DecidableEq

def StdInt.meta : Meta StdInt := .mk
  [Member.of [b!"int8"] false (intH ⟨8, true⟩) (·.«int8») (fun v x => { x with «int8» := v }),
   Member.of [b!"uint8"] false (intH ⟨8, false⟩) (·.«uint8») (fun v x => { x with «uint8» := v }),
   Member.of [b!"int16"] false (intH ⟨16, true⟩) (·.«int16») (fun v x => { x with «int16» := v }),
   Member.of [b!"uint16"] false (intH ⟨16, false⟩) (·.«uint16») (fun v x => { x with «uint16» := v }),
   Member.of [b!"int32"] false (intH ⟨32, true⟩) (·.«int32») (fun v x => { x with «int32» := v }),
   Member.of [b!"uint32"] false (intH ⟨32, false⟩) (·.«uint32») (fun v x => { x with «uint32» := v }),
   Member.of [b!"int64"] false (intH ⟨64, true⟩) (·.«int64») (fun v x => { x with «int64» := v }),
   Member.of [b!"uint64"] false (intH ⟨64, false⟩) (·.«uint64») (fun v x => { x with «uint64» := v })]
  []
def StdInt.hd : Handler StdInt := structH {} StdInt.meta

-- json-struct-stdint.cpp: js_std_int
example : reads (StdInt.hd) (b!"{\n  \"int8\": 4,\n  \"uint8\": 5,\n  \"int16\": \"6\",\n  \"uint16\": \"7\",\n  \"int32\": \"8\",\n  \"uint32\": \"9\",\n  \"int64\": \"10\",\n  \"uint64\": \"11\"\n}" ++ [0x00]) (p := { allowMissing := false, allowUnassigned := false }) =
    some (.noError, ⟨4, 5, 6, 7, 8, 9, 10, 11⟩, [], []) := by decide +kernel

-- large_number_roundtrip
example : ((writes StdInt.hd { uint64 := 2 ^ 64 - 1 }).bind (reads StdInt.hd)) = some (.noError, { uint64 := 2 ^ 64 - 1 }, [], []) := by decide +kernel

structure VeryLargeInt where
  «data» : Int := 0
  deriving DecidableEq

def VeryLargeInt.meta : Meta VeryLargeInt := .mk
  [Member.of [b!"data"] false (intH ⟨128, true⟩) (·.«data») (fun v x => { x with «data» := v })]
  []
def VeryLargeInt.hd : Handler VeryLargeInt := structH {} VeryLargeInt.meta

-- test_128_int
example : ((writes VeryLargeInt.hd ⟨2 ^ 127 - 1⟩).bind (reads VeryLargeInt.hd)) = some (.noError, ⟨2 ^ 127 - 1⟩, [], []) := by decide +kernel

structure TestEnumParser where
  «colors» : Int := 0
  deriving DecidableEq

def TestEnumParser.meta : Meta TestEnumParser := .mk
  [Member.of [b!"colors"] false (enumH [b!"Red", b!"Green", b!"Blue", b!"Yellow4", b!"Purple"] ⟨32, true⟩) (·.«colors») (fun v x => { x with «colors» := v })]
  []
def TestEnumParser.hd : Handler TestEnumParser := structH {} TestEnumParser.meta

-- json-enum-test.cpp: check_enum_parser
example : reads (TestEnumParser.hd) b!"{\n  \"colors\": \"Green\"\n}" =
    some (.noError, ⟨1⟩, [], []) := by decide +kernel

-- … and back
example : writes TestEnumParser.hd ⟨1⟩ = some b!"{\n  \"colors\": \"Green\"\n}" := by decide +kernel

-- check_enum_number_parser
example : reads (TestEnumParser.hd) b!"{\n  \"colors\": 2\n}" =
    some (.noError, ⟨2⟩, [], []) := by decide +kernel

structure CarContainer where
  «car» : Int := 0
  deriving DecidableEq

def CarContainer.meta : Meta CarContainer := .mk
  [Member.of [b!"car"] false (enumH [b!"Fiat", b!"VW", b!"BMW", b!"Peugeot", b!"Mazda"] ⟨32, true⟩) (·.«car») (fun v x => { x with «car» := v })]
  []
def CarContainer.hd : Handler CarContainer := structH {} CarContainer.meta

-- check_enum_parser_namespace
example : reads (CarContainer.hd) b!"{\n  \"car\": \"BMW\"\n}" =
    some (.noError, ⟨2⟩, [], []) := by decide +kernel

-- … and back
example : writes CarContainer.hd ⟨2⟩ = some b!"{\n  \"car\": \"BMW\"\n}" := by decide +kernel

structure TimeData where
  «tp_0_s» : Int := 0
  «tp_0_ms» : Int := 0
  «tp_0_us» : Int := 0
  «tp_0_ns» : Int := 0
  «tp_1_s» : Int := 0
  «tp_2_ms» : Int := 0
  «tp_3_us» : Int := 0
  «tp_4_ns» : Int := 0
  deriving DecidableEq

def TimeData.meta : Meta TimeData := .mk
  [Member.of [b!"tp_0_s"] false (timeH microClock) (·.«tp_0_s») (fun v x => { x with «tp_0_s» := v }),
   Member.of [b!"tp_0_ms"] false (timeH microClock) (·.«tp_0_ms») (fun v x => { x with «tp_0_ms» := v }),
   Member.of [b!"tp_0_us"] false (timeH microClock) (·.«tp_0_us») (fun v x => { x with «tp_0_us» := v }),
   Member.of [b!"tp_0_ns"] false (timeH hiresClock) (·.«tp_0_ns») (fun v x => { x with «tp_0_ns» := v }),
   Member.of [b!"tp_1_s"] false (timeH microClock) (·.«tp_1_s») (fun v x => { x with «tp_1_s» := v }),
   Member.of [b!"tp_2_ms"] false (timeH microClock) (·.«tp_2_ms») (fun v x => { x with «tp_2_ms» := v }),
   Member.of [b!"tp_3_us"] false (timeH microClock) (·.«tp_3_us») (fun v x => { x with «tp_3_us» := v }),
   Member.of [b!"tp_4_ns"] false (timeH hiresClock) (·.«tp_4_ns») (fun v x => { x with «tp_4_ns» := v })]
  []
def TimeData.hd : Handler TimeData := structH {} TimeData.meta

-- json-timepoint.cpp: time_point (the system clock counting microseconds)
example : reads (TimeData.hd) b!"{\"tp_0_s\" : 1625409496,\"tp_0_ms\": 1625409496000,\"tp_0_us\": 1625409496000000,\"tp_0_ns\": 1625409496000000000,\"tp_1_s\" : 1625409497,\"tp_2_ms\": 1625409497002,\"tp_3_us\": 1625409497002003,\"tp_4_ns\": 1625409497002003004}" =
    some (.noError, ⟨1625409496000000, 1625409496000000, 1625409496000000, 1625409496000000000, 1625409497000000, 1625409497002000, 1625409497002003, 1625409497002003004⟩, [], []) := by decide +kernel

-- … and back
example : ((writes TimeData.hd ⟨1625409496000000, 1625409496000000, 1625409496000000, 1625409496000000000, 1625409497000000, 1625409497002000, 1625409497002003, 1625409497002003004⟩).bind (reads TimeData.hd)) = some (.noError, ⟨1625409496000000, 1625409496000000, 1625409496000000, 1625409496000000000, 1625409497000000, 1625409497002000, 1625409497002003, 1625409497002003004⟩, [], []) := by decide +kernel

structure TimeData2 where
  «tp_0_s» : Int := 0
  «tp_0_ms» : Int := 0
  «tp_0_us» : Int := 0
  «tp_0_ns» : Int := 0
  «tp_1_s» : Int := 0
  «tp_2_ms» : Int := 0
  «tp_3_us» : Int := 0
  «tp_4_ns» : Int := 0
  deriving DecidableEq

def TimeData2.meta : Meta TimeData2 := .mk
  [Member.of [b!"tp_0_s"] false (intH ⟨64, false⟩) (·.«tp_0_s») (fun v x => { x with «tp_0_s» := v }),
   Member.of [b!"tp_0_ms"] false (intH ⟨64, false⟩) (·.«tp_0_ms») (fun v x => { x with «tp_0_ms» := v }),
   Member.of [b!"tp_0_us"] false (intH ⟨64, false⟩) (·.«tp_0_us») (fun v x => { x with «tp_0_us» := v }),
   Member.of [b!"tp_0_ns"] false (intH ⟨64, false⟩) (·.«tp_0_ns») (fun v x => { x with «tp_0_ns» := v }),
   Member.of [b!"tp_1_s"] false (intH ⟨64, false⟩) (·.«tp_1_s») (fun v x => { x with «tp_1_s» := v }),
   Member.of [b!"tp_2_ms"] false (intH ⟨64, false⟩) (·.«tp_2_ms») (fun v x => { x with «tp_2_ms» := v }),
   Member.of [b!"tp_3_us"] false (intH ⟨64, false⟩) (·.«tp_3_us») (fun v x => { x with «tp_3_us» := v }),
   Member.of [b!"tp_4_ns"] false (intH ⟨64, false⟩) (·.«tp_4_ns») (fun v x => { x with «tp_4_ns» := v })]
  []
def TimeData2.hd : Handler TimeData2 := structH {} TimeData2.meta

-- … without the trailing zeros
example : ((writes TimeData.hd ⟨1625409496000000, 1625409496000000, 1625409496000000, 1625409496000000000, 1625409497000000, 1625409497002000, 1625409497002003, 1625409497002003004⟩).bind (reads TimeData2.hd)) = some (.noError, ⟨1625409496, 1625409496, 1625409496, 1625409496, 1625409497, 1625409497002, 1625409497002003, 1625409497002003004⟩, [], []) := by decide +kernel

structure TimeDataNs where
  «tp_0_s» : Int := 0
  «tp_0_ms» : Int := 0
  «tp_0_us» : Int := 0
  «tp_0_ns» : Int := 0
  «tp_1_s» : Int := 0
  «tp_2_ms» : Int := 0
  «tp_3_us» : Int := 0
  «tp_4_ns» : Int := 0
  deriving DecidableEq

def TimeDataNs.meta : Meta TimeDataNs := .mk
  [Member.of [b!"tp_0_s"] false (timeH ⟨1000, false⟩) (·.«tp_0_s») (fun v x => { x with «tp_0_s» := v }),
   Member.of [b!"tp_0_ms"] false (timeH ⟨1000, false⟩) (·.«tp_0_ms») (fun v x => { x with «tp_0_ms» := v }),
   Member.of [b!"tp_0_us"] false (timeH ⟨1000, false⟩) (·.«tp_0_us») (fun v x => { x with «tp_0_us» := v }),
   Member.of [b!"tp_0_ns"] false (timeH hiresClock) (·.«tp_0_ns») (fun v x => { x with «tp_0_ns» := v }),
   Member.of [b!"tp_1_s"] false (timeH ⟨1000, false⟩) (·.«tp_1_s») (fun v x => { x with «tp_1_s» := v }),
   Member.of [b!"tp_2_ms"] false (timeH ⟨1000, false⟩) (·.«tp_2_ms») (fun v x => { x with «tp_2_ms» := v }),
   Member.of [b!"tp_3_us"] false (timeH ⟨1000, false⟩) (·.«tp_3_us») (fun v x => { x with «tp_3_us» := v }),
   Member.of [b!"tp_4_ns"] false (timeH hiresClock) (·.«tp_4_ns») (fun v x => { x with «tp_4_ns» := v })]
  []
def TimeDataNs.hd : Handler TimeDataNs := structH {} TimeDataNs.meta

-- time_point (the system clock counting nanoseconds)
example : reads (TimeDataNs.hd) b!"{\"tp_0_s\" : 1625409496,\"tp_0_ms\": 1625409496000,\"tp_0_us\": 1625409496000000,\"tp_0_ns\": 1625409496000000000,\"tp_1_s\" : 1625409497,\"tp_2_ms\": 1625409497002,\"tp_3_us\": 1625409497002003,\"tp_4_ns\": 1625409497002003004}" =
    some (.noError, ⟨1625409496000000000, 1625409496000000000, 1625409496000000000, 1625409496000000000, 1625409497000000000, 1625409497002000000, 1625409497002003000, 1625409497002003004⟩, [], []) := by decide +kernel

-- … and back
example : ((writes TimeDataNs.hd ⟨1625409496000000000, 1625409496000000000, 1625409496000000000, 1625409496000000000, 1625409497000000000, 1625409497002000000, 1625409497002003000, 1625409497002003004⟩).bind (reads TimeDataNs.hd)) = some (.noError, ⟨1625409496000000000, 1625409496000000000, 1625409496000000000, 1625409496000000000, 1625409497000000000, 1625409497002000000, 1625409497002003000, 1625409497002003004⟩, [], []) := by decide +kernel

-- … without the trailing zeros
example : ((writes TimeDataNs.hd ⟨1625409496000000000, 1625409496000000000, 1625409496000000000, 1625409496000000000, 1625409497000000000, 1625409497002000000, 1625409497002003000, 1625409497002003004⟩).bind (reads TimeData2.hd)) = some (.noError, ⟨1625409496, 1625409496, 1625409496, 1625409496, 1625409497, 1625409497002, 1625409497002003, 1625409497002003004⟩, [], []) := by decide +kernel

structure IntBox where
  «x» : Int := 0
  deriving DecidableEq

def IntBox.meta : Meta IntBox := .mk
  [Member.of [b!"x"] false (intH ⟨32, true⟩) (·.«x») (fun v x => { x with «x» := v })]
  []
def IntBox.hd : Handler IntBox := structH {} IntBox.meta

-- json-struct-optimization-fixes.cpp: integer_requires_full_token_consumption
example : reads (IntBox.hd) b!"{\"x\": 100}" =
    some (.noError, ⟨100⟩, [], []) := by decide +kernel

-- json-struct-optimization-fixes.cpp: integer_requires_full_token_consumption
example : reads (IntBox.hd) b!"{\"x\": 1e2}" =
    some (.noError, ⟨100⟩, [], []) := by decide +kernel

-- integer_requires_full_token_consumption
example : ((reads IntBox.hd b!"{\"x\": 1e2e3}").map fun r => decide (r.1 ≠ .noError)) = some true := by decide +kernel

-- integer_requires_full_token_consumption
example : ((reads IntBox.hd b!"{\"x\": 12-3}").map fun r => decide (r.1 ≠ .noError)) = some true := by decide +kernel

structure DoubleBox where
  «d» : Nat := 0
  deriving DecidableEq

def DoubleBox.meta : Meta DoubleBox := .mk
  [Member.of [b!"d"] false (doubleH) (·.«d») (fun v x => { x with «d» := v })]
  []
def DoubleBox.hd : Handler DoubleBox := structH {} DoubleBox.meta

structure FloatBox where
  «f» : Nat := 0
  deriving DecidableEq

def FloatBox.meta : Meta FloatBox := .mk
  [Member.of [b!"f"] false (floatH) (·.«f») (fun v x => { x with «f» := v })]
  []
def FloatBox.hd : Handler FloatBox := structH {} FloatBox.meta

-- nonfinite_serializes_as_valid_json
example : writes DoubleBox.hd ⟨0x7ff8000000000000⟩ = some b!"{\n  \"d\": null\n}" := by decide +kernel

-- nonfinite_serializes_as_valid_json
example : writes DoubleBox.hd ⟨0x7ff0000000000000⟩ = some b!"{\n  \"d\": null\n}" := by decide +kernel

-- nonfinite_serializes_as_valid_json
example : writes FloatBox.hd ⟨0xff800000⟩ = some b!"{\n  \"f\": null\n}" := by decide +kernel

-- newline_delimiter_simd_gate
example : ((tokenizeBufs { newLines := true, simd := .scalar } [b!"[\n  \"aaaaaaaaaaaaaaaa\"\n  \"bbbbbbbbbbbbbbbb\"\n  \"cccccccccccccccc\"\n  \"dddddddddddddddd\"\n]"]).1.filter (·.valueType = .string)).length = 4 := by decide +kernel

-- streaming_escape_parity_across_buffer_boundary
example : tokenizeBufs { simd := .scalar } [b!"[\"aaaaaaaa\\", b!"\"bbbbbbbbbbbbbbbbbbbbbbbbbbbbbbbbbbbbbbbb", b!"\"]"] =
    ([⟨[], .ascii, b!"[", .arrayStart⟩, ⟨[], .ascii, b!"aaaaaaaa\\\"bbbbbbbbbbbbbbbbbbbbbbbbbbbbbbbbbbbbbbbb", .string⟩, ⟨[], .ascii, b!"]", .arrayEnd⟩], .needMoreData) := by decide +kernel

-- newline_delimiter_simd_gate
example : ((tokenizeBufs { newLines := true, simd := .sse2 } [b!"[\n  \"aaaaaaaaaaaaaaaa\"\n  \"bbbbbbbbbbbbbbbb\"\n  \"cccccccccccccccc\"\n  \"dddddddddddddddd\"\n]"]).1.filter (·.valueType = .string)).length = 4 := by decide +kernel

-- streaming_escape_parity_across_buffer_boundary
example : tokenizeBufs { simd := .sse2 } [b!"[\"aaaaaaaa\\", b!"\"bbbbbbbbbbbbbbbbbbbbbbbbbbbbbbbbbbbbbbbb", b!"\"]"] =
    ([⟨[], .ascii, b!"[", .arrayStart⟩, ⟨[], .ascii, b!"aaaaaaaa\\\"bbbbbbbbbbbbbbbbbbbbbbbbbbbbbbbbbbbbbbbb", .string⟩, ⟨[], .ascii, b!"]", .arrayEnd⟩], .needMoreData) := by decide +kernel

-- newline_delimiter_simd_gate
example : ((tokenizeBufs { newLines := true, simd := .sse42 } [b!"[\n  \"aaaaaaaaaaaaaaaa\"\n  \"bbbbbbbbbbbbbbbb\"\n  \"cccccccccccccccc\"\n  \"dddddddddddddddd\"\n]"]).1.filter (·.valueType = .string)).length = 4 := by decide +kernel

-- streaming_escape_parity_across_buffer_boundary
example : tokenizeBufs { simd := .sse42 } [b!"[\"aaaaaaaa\\", b!"\"bbbbbbbbbbbbbbbbbbbbbbbbbbbbbbbbbbbbbbbb", b!"\"]"] =
    ([⟨[], .ascii, b!"[", .arrayStart⟩, ⟨[], .ascii, b!"aaaaaaaa\\\"bbbbbbbbbbbbbbbbbbbbbbbbbbbbbbbbbbbbbbbb", .string⟩, ⟨[], .ascii, b!"]", .arrayEnd⟩], .needMoreData) := by decide +kernel

-- newline_delimiter_simd_gate
example : ((tokenizeBufs { newLines := true, simd := .avx2 } [b!"[\n  \"aaaaaaaaaaaaaaaa\"\n  \"bbbbbbbbbbbbbbbb\"\n  \"cccccccccccccccc\"\n  \"dddddddddddddddd\"\n]"]).1.filter (·.valueType = .string)).length = 4 := by decide +kernel

-- streaming_escape_parity_across_buffer_boundary
example : tokenizeBufs { simd := .avx2 } [b!"[\"aaaaaaaa\\", b!"\"bbbbbbbbbbbbbbbbbbbbbbbbbbbbbbbbbbbbbbbb", b!"\"]"] =
    ([⟨[], .ascii, b!"[", .arrayStart⟩, ⟨[], .ascii, b!"aaaaaaaa\\\"bbbbbbbbbbbbbbbbbbbbbbbbbbbbbbbbbbbbbbbb", .string⟩, ⟨[], .ascii, b!"]", .arrayEnd⟩], .needMoreData) := by decide +kernel

-- newline_delimiter_simd_gate
example : ((tokenizeBufs { newLines := true, simd := .neon } [b!"[\n  \"aaaaaaaaaaaaaaaa\"\n  \"bbbbbbbbbbbbbbbb\"\n  \"cccccccccccccccc\"\n  \"dddddddddddddddd\"\n]"]).1.filter (·.valueType = .string)).length = 4 := by decide +kernel

-- streaming_escape_parity_across_buffer_boundary
example : tokenizeBufs { simd := .neon } [b!"[\"aaaaaaaa\\", b!"\"bbbbbbbbbbbbbbbbbbbbbbbbbbbbbbbbbbbbbbbb", b!"\"]"] =
    ([⟨[], .ascii, b!"[", .arrayStart⟩, ⟨[], .ascii, b!"aaaaaaaa\\\"bbbbbbbbbbbbbbbbbbbbbbbbbbbbbbbbbbbbbbbb", .string⟩, ⟨[], .ascii, b!"]", .arrayEnd⟩], .needMoreData) := by decide +kernel

structure NestChild where
  «a» : Int := 0
  deriving DecidableEq

def NestChild.meta : Meta NestChild := .mk
  [Member.of [b!"a"] false (intH ⟨32, true⟩) (·.«a») (fun v x => { x with «a» := v })]
  []
def NestChild.hd : Handler NestChild := structH {} NestChild.meta

structure NestParent where
  «collide» : Int := 0
  «child» : NestChild := {}
  deriving DecidableEq

def NestParent.meta : Meta NestParent := .mk
  [Member.of [b!"collide"] false (intH ⟨32, true⟩) (·.«collide») (fun v x => { x with «collide» := v }),
   Member.of [b!"child"] false (NestChild.hd) (·.«child») (fun v x => { x with «child» := v })]
  []
def NestParent.hd : Handler NestParent := structH {} NestParent.meta

-- nested_unknown_field_strict_stops_scanning
example : ((reads NestParent.hd b!"{\"child\":{\"a\":1,\"collide\":99},\"collide\":7}" (p := { allowMissing := false })).map fun r => (decide (r.1 ≠ .noError), decide (r.2.1.collide ≠ 99))) = some (true, true) := by decide +kernel

-- nested_unknown_field_allowed_by_default
example : reads (NestParent.hd) b!"{\"child\":{\"a\":1,\"extra\":99},\"collide\":7}" =
    some (.noError, ⟨7, ⟨1⟩⟩, [b!"extra"], []) := by decide +kernel

structure MultiInt where
  «a» : Int := 0
  «b» : Int := 0
  «c» : Int := 0
  deriving DecidableEq

def MultiInt.meta : Meta MultiInt := .mk
  [Member.of [b!"a"] false (intH ⟨32, true⟩) (·.«a») (fun v x => { x with «a» := v }),
   Member.of [b!"b"] false (intH ⟨32, true⟩) (·.«b») (fun v x => { x with «b» := v }),
   Member.of [b!"c"] false (intH ⟨32, true⟩) (·.«c») (fun v x => { x with «c» := v })]
  []
def MultiInt.hd : Handler MultiInt := structH {} MultiInt.meta

-- pretty_skip_delimiter_omits_comma
example : ((serializeStruct MultiInt.hd ⟨1, 2, 3⟩ { SerOpts.new true with tokenDelim := [] }).map fun t => decide (COMMA ∈ t)) = some false := by decide +kernel

structure NullTerminatorStruct where
  «data» : Bytes := []
  deriving DecidableEq

def NullTerminatorStruct.meta : Meta NullTerminatorStruct := .mk
  [Member.of [b!"data"] false (stringH .sse2) (·.«data») (fun v x => { x with «data» := v })]
  []
def NullTerminatorStruct.hd : Handler NullTerminatorStruct := structH {} NullTerminatorStruct.meta

-- json-string-with-nullterminator-test.cpp: check_parse_nullterminated_string
example : reads (NullTerminatorStruct.hd) (b!"{\"data\":\"Hello" ++ [0x05, 0x00, 0x00, 0x00] ++ b!" World!\"}") =
    some (.noError, ⟨b!"Hello" ++ [5, 0, 0, 0] ++ b!" World!"⟩, [], []) := by decide +kernel

-- check_serialize_nullterminated_struct
example : ((writes NullTerminatorStruct.hd ⟨b!"Hello" ++ [5, 0, 0, 0] ++ b!" World!"⟩).bind (reads NullTerminatorStruct.hd)) = some (.noError, ⟨b!"Hello" ++ [5, 0, 0, 0] ++ b!" World!"⟩, [], []) := by decide +kernel

-- json-struct-error-string.cpp: test_make_error_string
example : ((reads OneTwo.hd b!"{\n  /* Invalid stuff */\n  \"One\": \"foo / bar\",\n  \"Two\": \"foo \\/ bar\"\n}").map fun r => decide (r.1 ≠ .noError)) = some true := by decide +kernel

-- test_make_error_string_unnasigned_required_member
example : ((reads OneTwo.hd b!"{\n  \"One\": \"foo / bar\"\n  }" (p := { allowMissing := false, allowUnassigned := false })).map fun r => decide (r.1 ≠ .noError)) = some true := by decide +kernel

structure SecondChild where
  «some_more» : Bytes := []
  «another_int» : Int := 0
  deriving DecidableEq

def SecondChild.meta : Meta SecondChild := .mk
  [Member.of [b!"some_more"] false (stringH .sse2) (·.«some_more») (fun v x => { x with «some_more» := v }),
   Member.of [b!"another_int"] false (intH ⟨32, true⟩) (·.«another_int») (fun v x => { x with «another_int» := v })]
  []
def SecondChild.hd : Handler SecondChild := structH {} SecondChild.meta

structure SecondParent where
  «number» : Int := 0
  «valid» : Bool := false
  «child» : List Tok := []
  «more_data» : Bytes := []
  «super_data» : Bytes := []
  deriving DecidableEq

def SecondParent.meta : Meta SecondParent := .mk
  [Member.of [b!"number"] false (intH ⟨32, true⟩) (·.«number») (fun v x => { x with «number» := v }),
   Member.of [b!"valid"] false (boolH) (·.«valid») (fun v x => { x with «valid» := v }),
   Member.of [b!"child"] false (tokensH) (·.«child») (fun v x => { x with «child» := v }),
   Member.of [b!"more_data"] false (stringH .sse2) (·.«more_data») (fun v x => { x with «more_data» := v }),
   Member.of [b!"super_data"] false (stringH .sse2) (·.«super_data») (fun v x => { x with «super_data» := v })]
  []
def SecondParent.hd : Handler SecondParent := structH {} SecondParent.meta

-- json-copy-test.cpp: copy_test_js_copy_tokens
example : ((reads SecondParent.hd b!"\n{\n  \"number\": 45,\n  \"valid\": false,\n  \"child\": {\n    \"some_more\": \"world\",\n    \"another_int\": 495\n  },\n  \"more_data\": \"string data\",\n  \"super_data\": \"hello\"\n}\n").bind fun r => parseTo SecondChild.hd 100 {} { tz := (Tz.new { simd := .sse2 }).addTokens (r.2.1.child.map fun t => ⟨⟨.lit, t.name⟩, ⟨.lit, t.value⟩, t.nameType, t.valueType⟩) }).map
      (fun r => (r.1, r.2.1)) = some (.noError, ⟨b!"world", 495⟩) := by decide +kernel

structure Child where
  «sub_object_prop1» : Bool := false
  «sub_object_prop2» : Int := 0
  deriving DecidableEq

def Child.meta : Meta Child := .mk
  [Member.of [b!"sub_object_prop1"] false (boolH) (·.«sub_object_prop1») (fun v x => { x with «sub_object_prop1» := v }),
   Member.of [b!"sub_object_prop2"] false (intH ⟨32, true⟩) (·.«sub_object_prop2») (fun v x => { x with «sub_object_prop2» := v })]
  []
def Child.hd : Handler Child := structH {} Child.meta

structure Parent where
  «test» : Bool := false
  «more» : Child := {}
  «int_value» : Int := 0
  deriving DecidableEq

def Parent.meta : Meta Parent := .mk
  [Member.of [b!"test"] false (boolH) (·.«test») (fun v x => { x with «test» := v }),
   Member.of [b!"more"] false (Child.hd) (·.«more») (fun v x => { x with «more» := v }),
   Member.of [b!"int_value"] false (intH ⟨32, true⟩) (·.«int_value») (fun v x => { x with «int_value» := v })]
  []
def Parent.hd : Handler Parent := structH {} Parent.meta

-- copy_test_js_copy_parsed (from the text)
example : reads (Parent.hd) b!"{\n  \"test\": true,\n  \"more\": {\n    \"sub_object_prop1\": true,\n    \"sub_object_prop2\": 456\n  },\n  \"int_value\": 65\n}" =
    some (.noError, ⟨true, ⟨true, 456⟩, 65⟩, [], []) := by decide +kernel

end Small

end JsonStruct.Conformance.Struct
