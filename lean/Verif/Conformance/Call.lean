import Verif.Conformance.Basic
import Verif.Model.Call

/-
The project's own tests of calling functions from JSON, in the model: `tests/json-function-test.cpp` (and
`json-function-test-new.cpp`, `json-function-external-test.cpp` and `json-function-external-test-new.cpp`, which declare the
same functions by other macros), `json-function-error-test.cpp` and `json-scope.cpp`.
-/

namespace JsonStruct.Conformance.Call

/-- `callFunctions` on a text, with a container made of the marks of the functions called: the error returned, the
marks, the error of the parse context afterwards, and the context. -/
def calls (T : FnTable (List Nat)) (text : Bytes) (stop : Bool := false) : Option (Err × List Nat × Err) :=
  (callFunctions T 10000 [] { CallCtx.onString (Ctx.onText { simd := .sse2 } {} text) (SerOpts.new true) with stopOnFail := stop }).map
    fun r => (r.1, r.2.1, r.2.2.pc.error)

/-- The entries of `execution_list`. -/
def entries (T : FnTable (List Nat)) (text : Bytes) : Option (List Exec) :=
  (callFunctions T 10000 [] (CallCtx.onString (Ctx.onText { simd := .sse2 } {} text) (SerOpts.new true))).map fun r => r.2.2.list

/-- The string of results. -/
def results (T : FnTable (List Nat)) (text : Bytes) : Option Bytes :=
  (callFunctions T 10000 [] (CallCtx.onString (Ctx.onText { simd := .sse2 } {} text) (SerOpts.new true))).map fun r => r.2.2.results

/-- A function that leaves its mark and returns a value. -/
def fn (names : List Bytes) (arg : Arg A) (ret : Ret R) (mark : Nat) (x : R) : Fn (List Nat) :=
  .plain names arg ret fun w _ => (w ++ [mark], x)
/-- One that takes a `CallFunctionErrorContext`. -/
def fnErr (names : List Bytes) (arg : Arg A) (ret : Ret R) (mark : Nat) (x : R) (es : List (Err × Bytes)) : Fn (List Nat) :=
  .err names arg ret fun w _ => (w ++ [mark], x, es)
/-- One that takes a `CallFunctionContext`, and leaves it as it is. -/
def fnCtx (names : List Bytes) (arg : Arg A) (ret : Ret R) (mark : Nat) (x : R) : Fn (List Nat) :=
  .ctx names arg ret fun w _ c => (w ++ [mark], x, c)

def noRet : Ret Unit := none
def intRet : Ret Int := some (intH ⟨32, true⟩)
def noArg : Arg Unit := .void ()

structure SimpleData where
  «number» : Nat := 0
  «valid» : Bool := false
  deriving DecidableEq

def SimpleData.meta : Meta SimpleData := .mk
  [Member.of [b!"number"] false (floatH) (·.«number») (fun v x => { x with «number» := v }),
   Member.of [b!"valid"] false (boolH) (·.«valid») (fun v x => { x with «valid» := v })]
  []
def SimpleData.hd : Handler SimpleData := structH {} SimpleData.meta

def one : Fn (List Nat) := fn [b!"execute_one"] (.data SimpleData.hd) noRet 1 ()
def callFunction : FnTable (List Nat) := .mk
  [one, fnCtx [b!"execute_two"] (.data doubleH) intRet 2 2, fnCtx [b!"execute_three"] (.data (vecH doubleH)) noRet 3 ()] []

-- json-function-test.cpp, json-function-test-new.cpp: simpleTestRegular (and json-function-external-test.cpp); `sizeof` passes the NUL on
example : calls callFunction (b!"{  \"execute_one\": {\n    \"number\": 45,\n    \"valid\": \"false\"\n  },  \"execute_two\": 99,\n  \"execute_three\": [\n    4,\n    6,\n    8\n  ]\n}\n" ++ [0x00]) = some (.noError, [1, 2, 3], .noError) := by decide +kernel

structure ExecuteThreeReturn where
  «valid» : Bool := true
  «error_code» : Int := 0
  «data» : Bytes := b!"hello world"
  deriving DecidableEq

def ExecuteThreeReturn.meta : Meta ExecuteThreeReturn := .mk
  [Member.of [b!"valid"] false (boolH) (·.«valid») (fun v x => { x with «valid» := v }),
   Member.of [b!"error_code"] false (intH ⟨32, true⟩) (·.«error_code») (fun v x => { x with «error_code» := v }),
   Member.of [b!"data"] false (stringH .sse2) (·.«data») (fun v x => { x with «data» := v })]
  []
def ExecuteThreeReturn.hd : Handler ExecuteThreeReturn := structH {} ExecuteThreeReturn.meta

def sub : FnTable (List Nat) := .mk [fn [b!"execute_three"] (.data (vecH doubleH)) (some ExecuteThreeReturn.hd) 3 {}]
  [.mk [fn [b!"execute_two"] (.data doubleH) noRet 2 ()] [], .mk [one] []]

-- TestRegularFunction
example : calls sub b!"{  \"execute_one\": {\n    \"number\": 45,\n    \"valid\": \"false\"\n  },  \"execute_two\": 99,\n  \"execute_three\": [\n    4,\n    6,\n    8\n  ]\n}\n" = some (.noError, [1, 2, 3], .noError) := by decide +kernel

-- virtualFunctionTestRegular: the functions of the super class, one of them overridden
def overloaded : FnTable (List Nat) := .mk []
  [.mk [fn [b!"execute_one"] (.data SimpleData.hd) noRet 10 (), fnCtx [b!"execute_two"] (.data doubleH) intRet 2 2,
    fnCtx [b!"execute_three"] (.data (vecH doubleH)) noRet 3 ()] []]

-- virtualFunctionTestRegular (in json-function-external-test.cpp the container has no functions of its own)
example : calls overloaded b!"{  \"execute_one\": {\n    \"number\": 45,\n    \"valid\": \"false\"\n  },  \"execute_two\": 99,\n  \"execute_three\": [\n    4,\n    6,\n    8\n  ]\n}\n" = some (.noError, [10, 2, 3], .noError) := by decide +kernel

structure SuperParamOne where
  «number» : Int := 0
  deriving DecidableEq

def SuperParamOne.meta : Meta SuperParamOne := .mk
  [Member.of [b!"number"] false (intH ⟨32, true⟩) (·.«number») (fun v x => { x with «number» := v })]
  []
def SuperParamOne.hd : Handler SuperParamOne := structH {} SuperParamOne.meta

structure SuperParamTwo where
  «valid» : Bool := false
  deriving DecidableEq

def SuperParamTwo.meta : Meta SuperParamTwo := .mk
  [Member.of [b!"valid"] false (boolH) (·.«valid») (fun v x => { x with «valid» := v })]
  []
def SuperParamTwo.hd : Handler SuperParamTwo := structH {} SuperParamTwo.meta

structure SuperParamTwoOne where
  superSuperParamTwo : SuperParamTwo := {}
  «more_data» : Bytes := []
  deriving DecidableEq

def SuperParamTwoOne.meta : Meta SuperParamTwoOne := .mk
  [Member.of [b!"more_data"] false (stringH .sse2) (·.«more_data») (fun v x => { x with «more_data» := v })]
  [(b!"SuperParamTwo", SuperParamTwo.meta.up (·.superSuperParamTwo) (fun v x => { x with superSuperParamTwo := v }))]
def SuperParamTwoOne.hd : Handler SuperParamTwoOne := structH {} SuperParamTwoOne.meta

structure Param where
  superSuperParamOne : SuperParamOne := {}
  superSuperParamTwoOne : SuperParamTwoOne := {}
  «super_data» : Bytes := []
  deriving DecidableEq

def Param.meta : Meta Param := .mk
  [Member.of [b!"super_data"] false (stringH .sse2) (·.«super_data») (fun v x => { x with «super_data» := v })]
  [(b!"SuperParamTwoOne", SuperParamTwoOne.meta.up (·.superSuperParamTwoOne) (fun v x => { x with superSuperParamTwoOne := v })), (b!"SuperParamOne", SuperParamOne.meta.up (·.superSuperParamOne) (fun v x => { x with superSuperParamOne := v }))]
def Param.hd : Handler Param := structH {} Param.meta

-- super_class_param_testRegular
example : calls (.mk [fn [b!"execute_one"] (.data Param.hd) noRet 1 ()] []) b!"\n{\n  \"execute_one\": {\n    \"number\": 45,\n    \"valid\": false,\n    \"more_data\": \"string data\",\n    \"super_data\": \"hello\"\n  }\n}\n" = some (.noError, [1], .noError) := by decide +kernel

def callVoid : FnTable (List Nat) := .mk
  [fn [b!"call_void"] noArg noRet 1 (), fnCtx [b!"call_void_context"] noArg noRet 2 (), fn [b!"call_int_void"] noArg intRet 3 3,
   fnCtx [b!"call_int_void_context"] noArg intRet 4 7, fn [b!"call_void_with_value"] noArg noRet 5 (),
   fnErr [b!"call_void_error"] noArg noRet 6 () []] []

-- call_void_testRegular
example : calls callVoid b!"\n{\n  \"call_void\": [],\n  \"call_void_context\": null,\n  \"call_int_void\": {},\n  \"call_int_void_context\": {},\n  \"call_void_with_value\": 4,\n  \"call_void_error\": {}\n}\n" = some (.noError, [1, 2, 3, 4, 5, 6], .noError) := by decide +kernel

-- the list of calls has six entries
example : (entries callVoid b!"\n{\n  \"call_void\": [],\n  \"call_void_context\": null,\n  \"call_int_void\": {},\n  \"call_int_void_context\": {},\n  \"call_void_with_value\": 4,\n  \"call_void_error\": {}\n}\n").map List.length = some 6 := by decide +kernel

structure CallErrorCheckArg where
  «x» : Int := 0
  deriving DecidableEq

def CallErrorCheckArg.meta : Meta CallErrorCheckArg := .mk
  [Member.of [b!"x"] false (intH ⟨32, true⟩) (·.«x») (fun v x => { x with «x» := v })]
  []
def CallErrorCheckArg.hd : Handler CallErrorCheckArg := structH {} CallErrorCheckArg.meta

def errorCheck : FnTable (List Nat) := .mk
  [fn [b!"call_void"] noArg noRet 1 (),
   fnErr [b!"call_with_int"] (.data (intH ⟨32, true⟩)) noRet 2 () [(.userDefinedErrors, b!"CallWithIntCustomError problem with number")],
   fn [b!"call_another_void"] noArg noRet 3 (),
   fnErr [b!"call_with_object"] (.data CallErrorCheckArg.hd) (some (stringH .sse2)) 4 b!"THIS SHOULD NOT BE SERIALIZED"
     [(.userDefinedErrors, b!"This functions should not serialize the string")]] []

-- call_error_checkRegular
example : calls errorCheck b!"\n{\n  \"call_void\": [],\n  \"call_with_int\": 5,\n  \"call_another_void\": {},\n  \"call_with_object\": { \"x\": 9 }\n}\n" = some (.noError, [1, 2, 3, 4], .noError) := by decide +kernel

-- the results
example : results errorCheck b!"\n{\n  \"call_void\": [],\n  \"call_with_int\": 5,\n  \"call_another_void\": {},\n  \"call_with_object\": { \"x\": 9 }\n}\n" = some b!"[\n]" := by decide +kernel

def alias : FnTable (List Nat) := .mk
  [.plain [b!"execute_one"] (.data (intH ⟨32, true⟩)) noRet fun w x => (w ++ [1, x.toNat], ()),
   .plain [b!"execute_two_primary", b!"execute_two"] (.data (intH ⟨32, true⟩)) noRet fun w x => (w ++ [2, x.toNat], ()),
   .plain [b!"execute_three"] (.data (intH ⟨32, true⟩)) noRet fun w x => (w ++ [3, x.toNat], ())] []

-- call_json_aliasRegular
example : calls alias (b!"\n{\n  \"execute_one\": 4,\n  \"execute_two\": 5,\n  \"execute_three\": 6\n}\n" ++ [0x00]) = some (.noError, [1, 4, 2, 5, 3, 6], .noError) := by decide +kernel

structure JsonWrongArgTypeExecThree where
  «last_member» : Nat := 0
  deriving DecidableEq

def JsonWrongArgTypeExecThree.meta : Meta JsonWrongArgTypeExecThree := .mk
  [Member.of [b!"last_member"] false (doubleH) (·.«last_member») (fun v x => { x with «last_member» := v })]
  []
def JsonWrongArgTypeExecThree.hd : Handler JsonWrongArgTypeExecThree := structH {} JsonWrongArgTypeExecThree.meta

def wrongArg : FnTable (List Nat) := .mk
  [fn [b!"execute_one"] (.data (stringH .sse2)) noRet 1 (), fn [b!"execute_two"] (.data (stringH .sse2)) noRet 2 (),
   .plain [b!"execute_three"] (.data JsonWrongArgTypeExecThree.hd) noRet fun w x => (w ++ [x.last_member], ())] []

-- call_json_wrong_arg_typeRegular
example : calls wrongArg (b!"\n{\n  \"execute_one\": { \"some_function_object\": 1 },\n  \"execute_two\": { \"more_members\": false },\n  \"execute_three\": { \"last_member\": 44.50 }\n}\n" ++ [0x00]) = some (.noError, [1, 2, 4631459635541311488], .noError) := by decide +kernel

structure Func1Arg where
  «arg1» : Int := 0
  «arg2» : Bytes := []
  deriving DecidableEq

def Func1Arg.meta : Meta Func1Arg := .mk
  [Member.of [b!"arg1"] false (intH ⟨32, true⟩) (·.«arg1») (fun v x => { x with «arg1» := v }),
   Member.of [b!"arg2"] false (stringH .sse2) (·.«arg2») (fun v x => { x with «arg2» := v })]
  []
def Func1Arg.hd : Handler Func1Arg := structH {} Func1Arg.meta

structure Func2Arg where
  «one» : List (Int) := [0, 0, 0, 0]
  «two» : Bool := false
  deriving DecidableEq

def Func2Arg.meta : Meta Func2Arg := .mk
  [Member.of [b!"one"] false (arrH 4 (intH ⟨32, true⟩)) (·.«one») (fun v x => { x with «one» := v }),
   Member.of [b!"two"] false (boolH) (·.«two») (fun v x => { x with «two» := v })]
  []
def Func2Arg.hd : Handler Func2Arg := structH {} Func2Arg.meta

structure Func3Arg where
  «first» : Int := 0
  «second» : Nat := 0
  deriving DecidableEq

def Func3Arg.meta : Meta Func3Arg := .mk
  [Member.of [b!"first"] false (intH ⟨32, true⟩) (·.«first») (fun v x => { x with «first» := v }),
   Member.of [b!"second"] false (doubleH) (·.«second») (fun v x => { x with «second» := v })]
  []
def Func3Arg.hd : Handler Func3Arg := structH {} Func3Arg.meta

-- json-scope.cpp: json_function_scope_test. Arguments of other types than declared: only the second function is called, and the error is forgotten
example : calls (.mk [fn [b!"func1"] (.data Func1Arg.hd) noRet 1 (), fn [b!"func2"] (.data Func2Arg.hd) noRet 2 (), fn [b!"func3"] (.data Func3Arg.hd) noRet 3 ()] []) b!"{\n  \"func1\": {\n    \"arg1\": \"hello\",\n    \"arg2\": \"world\"\n  },\n  \"func2\": {\n    \"one\": [ 1, 2, 3, 4 ],\n    \"two\": true\n  },\n  \"func3\": {\n    \"first\":  {\n      \"advanced\": true\n    },\n    \"second\": false\n  }\n}" = some (.noError, [2], .noError) := by decide +kernel

structure ExecuteOneData where
  «prop1» : Int := 0
  «prop2» : Bytes := []
  «prop3» : Bytes := []
  deriving DecidableEq

def ExecuteOneData.meta : Meta ExecuteOneData := .mk
  [Member.of [b!"prop1"] false (intH ⟨32, true⟩) (·.«prop1») (fun v x => { x with «prop1» := v }),
   Member.of [b!"prop2"] false (stringH .sse2) (·.«prop2») (fun v x => { x with «prop2» := v }),
   Member.of [b!"prop3"] false (stringH .sse2) (·.«prop3») (fun v x => { x with «prop3» := v })]
  []
def ExecuteOneData.hd : Handler ExecuteOneData := structH {} ExecuteOneData.meta

structure ExecuteTwoData where
  «first_prop» : Bytes := []
  deriving DecidableEq

def ExecuteTwoData.meta : Meta ExecuteTwoData := .mk
  [Member.of [b!"first_prop"] false (stringH .sse2) (·.«first_prop») (fun v x => { x with «first_prop» := v })]
  []
def ExecuteTwoData.hd : Handler ExecuteTwoData := structH {} ExecuteTwoData.meta

structure ExecuterTwoReturn where
  «string_data» : Bytes := []
  «value» : Int := 0
  «values» : List (Int) := []
  deriving DecidableEq

def ExecuterTwoReturn.meta : Meta ExecuterTwoReturn := .mk
  [Member.of [b!"string_data"] false (stringH .sse2) (·.«string_data») (fun v x => { x with «string_data» := v }),
   Member.of [b!"value"] false (intH ⟨32, true⟩) (·.«value») (fun v x => { x with «value» := v }),
   Member.of [b!"values"] false (vecH (intH ⟨32, true⟩)) (·.«values») (fun v x => { x with «values» := v })]
  []
def ExecuterTwoReturn.hd : Handler ExecuterTwoReturn := structH {} ExecuterTwoReturn.meta

def executor : FnTable (List Nat) := .mk
  [fn [b!"execute_one"] (.data ExecuteOneData.hd) noRet 1 (),
   fn [b!"execute_two"] (.data ExecuteTwoData.hd) (some ExecuterTwoReturn.hd) 2
     { string_data := b!"Ret data", value := 999, values := [3, 4, 5, 7, 8] }] []

-- json-function-error-test.cpp: test_function_error_simple
example : entries executor b!"\n{\n  \"execute_one\": {\n    \"prop1\": 4,\n    \"prop2\": \"Property 2\"\n  },\n  \"execute_two\": {\n    \"first_prop\": \"some string\",\n    \"second_prop\": 8\n  }\n}\n" =
    some [{ name := b!"execute_one", unassigned := [b!"prop3"] }, { name := b!"execute_two", missing := [b!"second_prop"] }] := by decide +kernel

end JsonStruct.Conformance.Call
