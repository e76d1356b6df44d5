import Verif.Model.Diff
import Verif.Model.DiffNumber

/-
The project's own tests of diffs, in the model: `tests/json-struct-diff.cpp`.
-/

namespace JsonStruct.Conformance.Diff

/-- A C library in which small numbers are no error of range. -/
def clib : CLib := ⟨fun _ _ => false⟩

/-- The indices and the errors returned for texts that are compared with a base, each under its options. -/
def results (base : Bytes) (texts : List (DiffOptions × Bytes)) : Option (List (Option Nat × DiffError) × DiffCtx) := do
  let c ← DiffCtx.new (diffNumbers clib {}) base
  texts.foldlM (fun r t => do
    let x ← { r.2 with same := diffNumbers clib t.1 }.diff 1000 t.2
    some (r.1 ++ [(x.1, x.2.error)], x.2)) ([], c)

/-- `diff_count` and `diffs` of every result. -/
def DiffCtx.all (c : DiffCtx) : List (Nat × List DiffType) := c.diffs.map fun d => (d.res.count, d.res.diffs)


def basicBaseJson : Bytes := b!"\n{\n  \"name\": \"json\",\n  \"id\": 123,\n  \"value\": 3.141592,\n  \"enabled\": true,\n  \"meta\": null\n}\n"

def basicDiffJsonEqual : Bytes := b!"\n{\n  \"enabled\": true,\n  \"name\": \"json\",\n  \"value\": 3.1415921,\n  \"meta\": null,\n  \"id\": 123\n}\n"

def basicDiffJsonDifferent : Bytes := b!"\n{\n  \"enabled\": false,\n  \"name\": \"xml\",\n  \"value\": 2.71828,\n  \"meta\": \"This is so meta\",\n  \"id\": 321\n}\n"

-- diff_check_basic_object_diff
set_option synthInstance.maxSize 1000 in
example : (results basicBaseJson [({}, basicDiffJsonEqual), ({}, basicDiffJsonDifferent)]).map (fun r => DiffCtx.all r.2) =
    some [(0, [.noDiff, .noDiff, .noDiff, .noDiff, .noDiff, .noDiff, .noDiff]), (5, [.noDiff, .valueDiff, .valueDiff, .valueDiff, .typeDiff, .valueDiff, .noDiff])] := by decide +kernel

-- diff_check_empty_items
set_option synthInstance.maxSize 1000 in
example : (DiffCtx.new (diffNumbers clib {}) []).map (·.error) = some .emptyString := by decide +kernel

-- diff_check_empty_items
set_option synthInstance.maxSize 1000 in
example : (results [] [({}, []), ({}, b!"{}"), ({}, b!"[]")]).map (·.1) = some [(none, .emptyString), (some 0, .noError), (some 1, .noError)] := by decide +kernel

-- diff_check_empty_items
set_option synthInstance.maxSize 1000 in
example : (results b!"{}" [({}, []), ({}, b!"{}"), ({}, b!"[]")]).map (fun r => (r.1, DiffCtx.all r.2)) =
    some ([(none, .emptyString), (some 0, .noError), (some 1, .noError)], [(0, [.noDiff, .noDiff]), (2, [.rootItemDiff, .rootItemDiff])]) := by decide +kernel

-- diff_check_empty_items
set_option synthInstance.maxSize 1000 in
example : (results b!"[]" [({}, []), ({}, b!"{}"), ({}, b!"[]")]).map (fun r => (r.1, DiffCtx.all r.2)) =
    some ([(none, .emptyString), (some 0, .noError), (some 1, .noError)], [(2, [.rootItemDiff, .rootItemDiff]), (0, [.noDiff, .noDiff])]) := by decide +kernel

def basicDiffOptionsJson : Bytes := b!"\n{\n  \"name\": \"json\",\n  \"id\": 123,\n  \"value\": 3.141592,\n  \"enabled\": true,\n  \"meta\": null,\n  \"number1\": 1.000000001,\n  \"number2\": 2.000000020,\n  \"number3\": 3.000000300,\n  \"number4\": 4.000004000,\n  \"number5\": 5.000050000,\n  \"number6\": 6.000600000,\n  \"number7\": 7.007000000,\n  \"number8\": 8.080000000,\n  \"number9\": 9.900000000,\n  \"number10\": 10.00000000\n}\n"

def basicDiffOptionsJsonIdentical : Bytes := b!"\n{\n  \"name\": \"json\",\n  \"id\": 123,\n  \"value\": 3.141592,\n  \"enabled\": true,\n  \"meta\": null,\n  \"number1\": 1.000000001,\n  \"number2\": 2.000000020,\n  \"number3\": 3.000000300,\n  \"number4\": 4.000004000,\n  \"number5\": 5.000050000,\n  \"number6\": 6.000600000,\n  \"number7\": 7.007000000,\n  \"number8\": 8.080000000,\n  \"number9\": 9.900000000,\n  \"number10\": 10.00000000\n}\n"

def basicDiffOptionsJsonAlmostEqual : Bytes := b!"\n{\n  \"name\": \"json\",\n  \"id\": 123,\n  \"value\": 3.141592,\n  \"enabled\": true,\n  \"meta\": null,\n  \"number1\": 1.0000000011,\n  \"number2\": 2.0000000220,\n  \"number3\": 3.0000003300,\n  \"number4\": 4.0000044000,\n  \"number5\": 5.0000550000,\n  \"number6\": 6.0006600000,\n  \"number7\": 7.0077000000,\n  \"number8\": 8.0880000000,\n  \"number9\": 9.9900000000,\n  \"number10\": 11.00000000\n}\n"

-- diff_check_diff_options
set_option synthInstance.maxSize 1000 in
example : (results basicDiffOptionsJson [({ fuzzy := false, epsilon := 0 }, basicDiffOptionsJsonIdentical), ({ fuzzy := true, epsilon := 0 }, basicDiffOptionsJsonIdentical),
      ({ fuzzy := true, epsilon := 4472406533629990549 }, basicDiffOptionsJsonAlmostEqual),
      ({ fuzzy := true, epsilon := 4487126258331716666 }, basicDiffOptionsJsonAlmostEqual),
      ({ fuzzy := true, epsilon := 4502148214488346440 }, basicDiffOptionsJsonAlmostEqual),
      ({ fuzzy := true, epsilon := 4517329193108106637 }, basicDiffOptionsJsonAlmostEqual),
      ({ fuzzy := true, epsilon := 4532020583610935537 }, basicDiffOptionsJsonAlmostEqual),
      ({ fuzzy := true, epsilon := 4547007122018943789 }, basicDiffOptionsJsonAlmostEqual),
      ({ fuzzy := true, epsilon := 4562254508917369340 }, basicDiffOptionsJsonAlmostEqual),
      ({ fuzzy := true, epsilon := 4576918229304087675 }, basicDiffOptionsJsonAlmostEqual),
      ({ fuzzy := true, epsilon := 4591870180066957722 }, basicDiffOptionsJsonAlmostEqual)]).map (fun r => (DiffCtx.all r.2).map (·.1)) =
    some [0, 0, 9, 8, 7, 6, 5, 4, 3, 2, 1] := by decide +kernel

def basicBaseJsonWithSubObject : Bytes := b!"\n{\n  \"name\": \"json\",\n  \"id\": 123,\n  \"value\": 3.141592,\n  \"enabled\": true,\n  \"meta\": null,\n  \"sub_object\": {\n    \"name\": \"json_sub\",\n    \"id\": 1234,\n    \"value\": 1.570796,\n    \"enabled\": false,\n    \"meta\": null\n  }\n}\n"

def basicDiffJsonEqualWithSubObject : Bytes := b!"\n{\n  \"enabled\": true,\n  \"name\": \"json\",\n  \"sub_object\": {\n    \"meta\": null,\n    \"value\": 1.570796,\n    \"id\": 1234,\n    \"enabled\": false,\n    \"name\": \"json_sub\"\n  },\n  \"value\": 3.1415921,\n  \"meta\": null,\n  \"id\": 123\n}\n"

def basicDiffJsonDifferentWithSubObject : Bytes := b!"\n{\n  \"enabled\": false,\n  \"name\": \"xml\",\n  \"sub_object\": {\n    \"meta\": 067,\n    \"value\": 1.35914,\n    \"id\": 1234,\n    \"enabled\": true,\n    \"name\": \"xml_sub\"\n  },\n  \"value\": 2.71828,\n  \"meta\": \"This is so meta\",\n  \"id\": 321\n}\n"

-- diff_check_nested_objects_diff
set_option synthInstance.maxSize 1000 in
example : (do
      let r ← results basicBaseJsonWithSubObject [({}, basicDiffJsonEqualWithSubObject), ({}, basicDiffJsonDifferentWithSubObject)]
      let c ← r.2.changeBase 1000 1
      some (((DiffCtx.all r.2)[0]?).map (·.1), (DiffCtx.all r.2)[1]?, c.error, (DiffCtx.all c)[1]?)) =
    some (some 0, some (9, [.noDiff, .valueDiff, .valueDiff, .noDiff, .typeDiff, .valueDiff, .noDiff, .valueDiff, .valueDiff, .noDiff, .valueDiff, .typeDiff, .valueDiff, .noDiff]), .noError, some (9, [.noDiff, .valueDiff, .valueDiff, .valueDiff, .valueDiff, .typeDiff, .noDiff, .valueDiff, .noDiff, .valueDiff, .valueDiff, .typeDiff, .noDiff, .noDiff])) := by decide +kernel

def basicArrayJson : Bytes := b!"\n[\n  {\n    \"name\": \"item0\",\n    \"id\": 0,\n    \"value\": 1.0,\n    \"enabled\": true,\n    \"meta\": null\n  },\n  {\n    \"name\": \"item1\",\n    \"id\": 1,\n    \"value\": 2.0,\n    \"enabled\": false,\n    \"meta\": \"I am meta\"\n  },\n  {\n    \"name\": \"item2\",\n    \"id\": 2,\n    \"value\": 4.2e1,\n    \"enabled\": true,\n    \"meta\": 42\n  }\n]\n"

def basicArrayJsonEqual : Bytes := b!"\n[\n  {\n    \"meta\": null,\n    \"value\": 1.0000,\n    \"id\": 0,\n    \"name\": \"item0\",\n    \"enabled\": true\n  },\n  {\n    \"value\": 2.0,\n    \"id\": 1,\n    \"meta\": \"I am meta\",\n    \"name\": \"item1\",\n    \"enabled\": false\n  },\n  {\n    \"name\": \"item2\",\n    \"id\": 2,\n    \"value\": 4.2e1,\n    \"enabled\": true,\n    \"meta\": 42\n  }\n]\n"

def basicArrayJsonDifferent : Bytes := b!"\n[\n  {\n    \"value\": 1e1,\n    \"meta\": \"meta10\",\n    \"name\": \"item10\",\n    \"enabled\": false,\n    \"id\": 10\n  },\n  {\n    \"meta\": \"I am more meta\",\n    \"value\": 20.0,\n    \"name\": \"item2\",\n    \"id\": 20,\n    \"enabled\": false\n  },\n  {\n    \"name\": \"item20\",\n    \"id\": 24,\n    \"value\": 2.4e1,\n    \"enabled\": true,\n    \"meta\": 24\n  }\n]\n"

-- diff_check_basic_array_diff_ordered
set_option synthInstance.maxSize 1000 in
example : (results basicArrayJson [({}, basicArrayJsonEqual), ({}, basicArrayJsonDifferent)]).map (fun r => DiffCtx.all r.2) =
    some [(0, [.noDiff, .noDiff, .noDiff, .noDiff, .noDiff, .noDiff, .noDiff, .noDiff, .noDiff, .noDiff, .noDiff, .noDiff, .noDiff, .noDiff, .noDiff, .noDiff, .noDiff, .noDiff, .noDiff, .noDiff, .noDiff, .noDiff, .noDiff]), (13, [.noDiff, .noDiff, .valueDiff, .typeDiff, .valueDiff, .valueDiff, .valueDiff, .noDiff, .noDiff, .valueDiff, .valueDiff, .valueDiff, .valueDiff, .noDiff, .noDiff, .noDiff, .valueDiff, .valueDiff, .valueDiff, .noDiff, .valueDiff, .noDiff, .noDiff])] := by decide +kernel

def largeObjectWithAllDataTypes : Bytes := (b!"\n{\n  \"member1\": 0,\n  \"member2\": 2147483647,\n  \"member3\": -2147483648,\n  \"member4\": 0e10,\n  \"member5\": 2e5,\n  \"member6\": 2E5,\n  \"member7\": 2e+5,\n  \"member8\": 2E+5,\n  \"member9\": 2e-5,\n  \"member10\": 2E-5,\n  \"member11\": -3e4,\n  \"member12\": -3E4,\n  \"member13\": -3e+4,\n  \"member14\": -3E+4,\n  \"member15\": -3e-4,\n  \"member16\": -3E-4,\n  \"member17\": 0.0,\n  \"member18\": 123456.789,\n  \"member19\": -123456.789,\n  \"member20\": 2.345e5,\n  \"member21\": 2.345E5,\n  \"member22\": -3.456e5,\n  \"member23\": -3.456E5,\n  \"member24\": \"iamastring\",\n  \"member25\": \"1234567890abcdefghijklmnopqrstuvwxyzABCDEFGHIJKLMNOPQRSTUVWXYZ \\\" \\\\\\/\\b\\f\\n\\r\\t!@#$%^&*()_+-=[]{};:',.<>" ++ [0xef, 0xbf, 0xbd, 0xef, 0xbf, 0xbd, 0xef, 0xbf, 0xbd, 0xef, 0xbf, 0xbd, 0xef, 0xbf, 0xbd, 0xef, 0xbf, 0xbd, 0xef, 0xbf, 0xbd, 0xef, 0xbf, 0xbd, 0xef, 0xbf, 0xbd, 0xef, 0xbf, 0xbd, 0xef, 0xbf, 0xbd, 0xef, 0xbf, 0xbd, 0xef, 0xbf, 0xbd, 0xef, 0xbf, 0xbd, 0xef, 0xbf, 0xbd, 0xef, 0xbf, 0xbd, 0xef, 0xbf, 0xbd, 0xef, 0xbf, 0xbd] ++ b!"\",\n  \"member26\": \"\",\n  \"member27\": {},\n  \"member28\": [],\n  \"member29\": [[],{},[],{}],\n  \"member30\": [[[[[[[[[[null,true,false,1,2,3,\"a\",\"b\",\"c\"]]]]]]]]]],\n  \"member31\": null,\n  \"member32\": true,\n  \"member33\": false\n}\n")

def largeObjectWithAllDataTypesEqual : Bytes := (b!"\n{\n  \"member1\": 0,\n  \"member2\": 2147483647,\n  \"member3\": -2147483648,\n  \"member4\": 0e10,\n  \"member5\": 2e5,\n  \"member6\": 2E5,\n  \"member7\": 2e+5,\n  \"member8\": 2E+5,\n  \"member9\": 2e-5,\n  \"member10\": 2E-5,\n  \"member11\": -3e4,\n  \"member12\": -3E4,\n  \"member13\": -3e+4,\n  \"member14\": -3E+4,\n  \"member15\": -3e-4,\n  \"member16\": -3E-4,\n  \"member17\": 0.0,\n  \"member18\": 123456.789,\n  \"member19\": -123456.789,\n  \"member20\": 2.345e5,\n  \"member21\": 2.345E5,\n  \"member22\": -3.456e5,\n  \"member23\": -3.456E5,\n  \"member24\": \"iamastring\",\n  \"member25\": \"1234567890abcdefghijklmnopqrstuvwxyzABCDEFGHIJKLMNOPQRSTUVWXYZ \\\" \\\\\\/\\b\\f\\n\\r\\t!@#$%^&*()_+-=[]{};:',.<>" ++ [0xef, 0xbf, 0xbd, 0xef, 0xbf, 0xbd, 0xef, 0xbf, 0xbd, 0xef, 0xbf, 0xbd, 0xef, 0xbf, 0xbd, 0xef, 0xbf, 0xbd, 0xef, 0xbf, 0xbd, 0xef, 0xbf, 0xbd, 0xef, 0xbf, 0xbd, 0xef, 0xbf, 0xbd, 0xef, 0xbf, 0xbd, 0xef, 0xbf, 0xbd, 0xef, 0xbf, 0xbd, 0xef, 0xbf, 0xbd, 0xef, 0xbf, 0xbd, 0xef, 0xbf, 0xbd, 0xef, 0xbf, 0xbd, 0xef, 0xbf, 0xbd] ++ b!"\",\n  \"member26\": \"\",\n  \"member27\": {},\n  \"member28\": [],\n  \"member29\": [[],{},[],{}],\n  \"member30\": [[[[[[[[[[null,true,false,1,2,3,\"a\",\"b\",\"c\"]]]]]]]]]],\n  \"member31\": null,\n  \"member32\": true,\n  \"member33\": false\n}\n")

def largeObjectWithAllDataTypesDifferent : Bytes := (b!"\n{\n  \"member1\": 0,\n  \"member2\": 2147483647,\n  \"member3\": -2147483648,\n  \"member4\": 0e10,\n  \"member5\": 0.2e6,\n  \"member6\": 0.2E6,\n  \"member7\": 2e+5,\n  \"member8\": 2E+5,\n  \"member9\": 2e-5,\n  \"member10\": 2E-5,\n  \"member11\": -0.03e6,\n  \"member12\": -0.003E7,\n  \"member13\": -3e+4,\n  \"member14\": -3E+4,\n  \"member15\": -3e-4,\n  \"member16\": -3E-4,\n  \"member17\": 0.0,\n  \"member18\": 123456.789,\n  \"member19\": -123456.789,\n  \"member20\": 2.345e5,\n  \"member21\": 2.345E5,\n  \"member22\": -3.456e5,\n  \"member23\": -3.456E5,\n  \"member24\": \"iamastring\",\n  \"member25\": \"1234567890abcdefghijklmnopqrstuvwxyzABCDEFGHIJKLMNOPQRSTUVWXYZ \\\" \\\\\\/\\b\\f\\n\\r\\t!@#$%^&*()_+-=[]{};:',.<>" ++ [0xef, 0xbf, 0xbd, 0xef, 0xbf, 0xbd, 0xef, 0xbf, 0xbd, 0xef, 0xbf, 0xbd, 0xef, 0xbf, 0xbd, 0xef, 0xbf, 0xbd, 0xef, 0xbf, 0xbd, 0xef, 0xbf, 0xbd, 0xef, 0xbf, 0xbd, 0xef, 0xbf, 0xbd, 0xef, 0xbf, 0xbd, 0xef, 0xbf, 0xbd, 0xef, 0xbf, 0xbd, 0xef, 0xbf, 0xbd, 0xef, 0xbf, 0xbd, 0xef, 0xbf, 0xbd, 0xef, 0xbf, 0xbd, 0xef, 0xbf, 0xbd] ++ b!"\",\n  \"member26\": \"\",\n  \"member27\": {},\n  \"member28\": [],\n  \"member29\": [[],{},[],{}],\n  \"member30\": [[[[[[[[[[true,false,1,2,3,\"a\",\"b\",\"c\",1,\"hey\"]]]]]]]]]],\n  \"member31\": null,\n  \"member32\": true,\n  \"member33\": false\n}\n")

-- diff_check_large_object_with_all_data_types
set_option synthInstance.maxSize 1000 in
example : (do
      let r ← results largeObjectWithAllDataTypes [({}, largeObjectWithAllDataTypesEqual), ({}, largeObjectWithAllDataTypesDifferent)]
      let c ← r.2.changeBase 1000 1
      some ((DiffCtx.all r.2).map (fun x => (x.1, x.2.length)), ((DiffCtx.all r.2)[1]?).map (fun x => (x.2.drop 51).take 10), c.error,
        ((DiffCtx.all c)[1]?).map (fun x => (x.1, x.2.length, (x.2.drop 50).take 10)))) =
    some ([(0, 74), (10, 75)], some [.typeDiff, .valueDiff, .typeDiff, .valueDiff, .valueDiff, .typeDiff, .valueDiff, .valueDiff, .typeDiff, .newArrayItem], .noError,
      some (10, 74, [.missingArrayItems, .typeDiff, .valueDiff, .typeDiff, .valueDiff, .valueDiff, .typeDiff, .valueDiff, .valueDiff, .typeDiff])) := by decide +kernel

def jsonWithSubObjects : Bytes := b!"\n{\n  \"member1\": 1,\n  \"member2\": 2,\n  \"member3\": 3,\n  \"sub_object\": {\n    \"submember1\": \"11\",\n    \"submember2\": \"22\",\n    \"subsub_object\": {\n      \"subsubmember1\": 1.1e1,\n      \"subsubmember2\": 2.2e1,\n      \"subsubsub_array\": [\n        true,\n        false,\n        \"A\",\n        \"B\",\n        \"C\",\n      ],\n      \"subsubsub_object\": {\n        \"id\": 333,\n        \"name\": \"Sub SubSub\",\n        \"info\": null,\n        \"array_with_missing_members\": [\n          4,\n          5,\n          6,\n          7,\n          {\n            \"i\": \"am\",\n            \"a\": \"missing_object\"\n          }\n        ]\n      }\n    },\n    \"subsub_array\": [\n      \"string\",\n      123,\n      true,\n      false,\n      null,\n      {\n        \"subsub_array_object\": {\n          \"item1\": 1,\n          \"itemA\": \"A\",\n          \"itemNull\": null\n        }\n      }\n    ]\n  }\n}\n"

def jsonWithSubObjects_MissingAndNewMembers : Bytes := b!"\n{\n    \"member4\": 4,\n    \"memberG\": \"G\",\n    \"member1\": 1,\n    \"sub_object\": {\n        \"submember2\": \"22\",\n        \"submember3\": \"33\",\n        \"another_member\": null,\n        \"subsub_array\": [\n            123,\n            \"string\",\n            true,\n            false,\n            null,\n            {\n                \"subsub_array_object\": {\n                    \"itemA\": \"A\",\n                    \"new_item\": \"new\",\n                    \"itemNull\": null,\n                    \"another_new_item\": 1.23456e7\n                }\n            }\n        ],\n        \"subsub_object\": {\n            \"subsubsub_array\": [\n                true,\n                false,\n                \"B\",\n                \"A\",\n                \"C\",\n                \"new_array_item\",\n                555\n            ],\n            \"subsubmember1\": 1.1e1,\n            \"subsubmember2\": 2.2e1,\n            \"subsubsub_object\": {\n                \"id\": 333,\n                \"name\": \"New name\",\n                \"info\": {\n                    \"mem1\": 1,\n                    \"mem2\": 2,\n                    \"mem3\": 3\n                },\n                \"array_with_missing_members\": [\n                    4,\n                    5,\n                    6\n                ]\n            }\n        }\n    }\n}\n"

-- The base has a superfluous comma in an array. The tokenizer stops there, and only the part in front is compared.
-- diff_check_new_and_missing_members
set_option synthInstance.maxSize 1000 in
example : ((results jsonWithSubObjects [({}, jsonWithSubObjects_MissingAndNewMembers)]).bind fun r => (r.2.diffs[0]?).map fun d =>
      (d.res.count, (d.res.missingMembers.length, [0, 4, 15, 1].map d.getMissingMembers), (d.res.missingArrayItems.length, d.getMissingArrayItems 43))) =
    some (27, (3, [some [⟨b!"member2", .string, b!"2", .number⟩, ⟨b!"member3", .string, b!"3", .number⟩], some [⟨b!"submember1", .string, b!"11", .string⟩], some [⟨b!"item1", .string, b!"1", .number⟩], none]),
      (1, some [⟨[], .ascii, b!"7", .number⟩, ⟨[], .ascii, b!"{", .objectStart⟩, ⟨b!"i", .string, b!"am", .string⟩, ⟨b!"a", .string, b!"missing_object", .string⟩, ⟨[], .ascii, b!"}", .objectEnd⟩])) := by decide +kernel

def jsonMissingMembersAndArrayItemsBase : Bytes := b!"\n{\n    \"object1\": {\n        \"array11\": [\n            {\n                \"array111\": [\n                    1,\n                    2,\n                    3,\n                    {\n                        \"key\": \"val\"\n                    }\n                ],\n                \"object111\": {\n                    \"miss111\": {\n                        \"a\": \"b\",\n                        \"c\": 3,\n                        \"d\": false,\n                        \"e\": null,\n                        \"f\": 3.141592\n                    }\n                }\n            },\n            1,\n            2,\n            \"3\"\n         ],\n        \"object11\": {\n            \"array112\": [\n                1,\n                2,\n                3\n            ]\n        }\n    },\n    \"array1\": [\n        \"a\",\n        {\n            \"object12\": {\n                \"key1\": \"val1\",\n                \"key2\": {\n                    \"mem1\": 1,\n                    \"mem2\": false,\n                    \"array121\": [\n                        1,\n                        2,\n                        3\n                    ]\n                }\n            }\n        },\n        \"b\",\n        [\n            {\n                \"anon_obj_key1\": 123,\n                \"anon_obj_key2\": [\n                    \"a\",\n                    \"b\",\n                    \"c\",\n                    \"d\"\n                ]\n            }\n        ]\n    ]\n}\n"

def jsonMissingMembersAndArrayItemsDiff : Bytes := b!"\n{\n    \"object1\": {\n        \"array11\": [\n            {\n                \"array111\": [\n                    1,\n                    3\n                ],\n                \"object111\": {\n                    \"miss111_changed\": {\n                        \"a\": \"b\",\n                        \"e\": null\n                    }\n                }\n            },\n            1\n         ],\n        \"object11\": {\n            \"array112\": [\n                1,\n                2,\n                3,\n                {\n                    \"this_is_a_new\": \"object\",\n                    \"new_array\": [\n                        \"new\",\n                        \"array\"\n                    ]\n                },\n                null\n            ]\n        }\n    },\n    \"array1\": [\n        \"a\",\n        {\n            \"object12\": {\n                \"key1\": \"val1\",\n                \"key2\": {\n                    \"array_new\": [\n                        0.1,\n                        0.2,\n                        0.3\n                    ],\n                    \"array121\": [\n                        1,\n                        2,\n                        3\n                    ]\n                }\n            }\n        },\n        \"b\",\n        [\n            {\n                \"anon_obj_key1\": 123,\n                \"anon_obj_key2\": [\n                    \"d\"\n                ]\n            },\n            \"new\",\n            456,\n            false\n        ]\n    ]\n}\n"

-- diff_check_new_and_missing_members_nested
set_option synthInstance.maxSize 1000 in
example : ((results jsonMissingMembersAndArrayItemsBase [({}, jsonMissingMembersAndArrayItemsDiff)]).bind fun r => (r.2.diffs[0]?).map fun d =>
      (d.res.count, (d.res.missingMembers.length, [8, 38].map d.getMissingMembers), (d.res.missingArrayItems.length, [2, 4, 56].map d.getMissingArrayItems))) =
    some (40, (2, [some [⟨b!"miss111", .string, b!"{", .objectStart⟩, ⟨b!"a", .string, b!"b", .string⟩, ⟨b!"c", .string, b!"3", .number⟩, ⟨b!"d", .string, b!"false", .bool⟩, ⟨b!"e", .string, b!"null", .null⟩, ⟨b!"f", .string, b!"3.141592", .number⟩, ⟨[], .ascii, b!"}", .objectEnd⟩], some [⟨b!"mem1", .string, b!"1", .number⟩, ⟨b!"mem2", .string, b!"false", .bool⟩]]),
      (3, [some [⟨[], .ascii, b!"2", .number⟩, ⟨[], .ascii, b!"3", .string⟩], some [⟨[], .ascii, b!"3", .number⟩, ⟨[], .ascii, b!"{", .objectStart⟩, ⟨b!"key", .string, b!"val", .string⟩, ⟨[], .ascii, b!"}", .objectEnd⟩], some [⟨[], .ascii, b!"b", .string⟩, ⟨[], .ascii, b!"c", .string⟩, ⟨[], .ascii, b!"d", .string⟩]])) := by decide +kernel

end JsonStruct.Conformance.Diff
