exec(open('/verif/tools/conformance/lib.py').read())
T='/repo/tests/'
import glob
F_='json-function-test.cpp'
def txt(f,v,nul=False):
    b=text(T+f if not f.startswith('/') else f,v)
    return b+(b'\0' if nul else b'')
def hdr(imports,doc,ns):
    return '\n'.join('import '+i for i in imports)+'\n\n/-\n'+doc+'\n-/\n\nnamespace JsonStruct.Conformance.'+ns+'\n\n'
def save(name,head,ns):
    open('/verif/lean/Verif/Conformance/%s.lean'%name,'w').write(head+'\n'.join(out)+'\nend JsonStruct.Conformance.'+ns+'\n')
    out.clear()
def raw(s): out.append(s)
# ---------------- Call
raw('''/-- `callFunctions` on a text, with a container made of the marks of the functions called: the error returned, the
marks, the error of the parse context afterwards, and the context. -/
def calls (T : FnTable (List Nat)) (text : Bytes) (stop : Bool := false) : Option (Err × List Nat × Err) :=
  (callFunctions T 10000 [] { CallCtx.onString (Ctx.onText { simd := .sse2 } {} text) (SerOpts.new true) with stopOnFail := stop }).map
    fun r => (r.1, r.2.1, r.2.2.pc.error)

/-- The entries of `execution_list`. -/
def entries (T : FnTable (List Nat)) (text : Bytes) : Option (List Exec) :=
  (callFunctions T 10000 [] (CallCtx.onString (Ctx.onText { simd := .sse2 } {} text) (SerOpts.new true))).map fun r => r.2.2.list

/-- The string of results. -/
def results (T : FnTable (List Nat)) (text : Bytes) : Option Bytes :=
  (callFunctions T 10000 [] (CallCtx.onString (Ctx.onText { simd := .sse2 } {} text) (SerOpts.new true))).map fun r => r.2.2.results

/-- A function that leaves its mark and returns a value. -/
def fn (names : List Bytes) (arg : Arg A) (ret : Ret R) (mark : Nat) (x : R) : Fn (List Nat) :=
  .plain names arg ret fun w _ => (w ++ [mark], x)
/-- One that takes a `CallFunctionErrorContext`. -/
def fnErr (names : List Bytes) (arg : Arg A) (ret : Ret R) (mark : Nat) (x : R) (es : List (Err × Bytes)) : Fn (List Nat) :=
  .err names arg ret fun w _ => (w ++ [mark], x, es)
/-- One that takes a `CallFunctionContext`, and leaves it as it is. -/
def fnCtx (names : List Bytes) (arg : Arg A) (ret : Ret R) (mark : Nat) (x : R) : Fn (List Nat) :=
  .ctx names arg ret fun w _ c => (w ++ [mark], x, c)

def noRet : Ret Unit := none
def intRet : Ret Int := some (intH ⟨32, true⟩)
def noArg : Arg Unit := .void ()
''')
S('SimpleData',[('number',FLT),('valid',BOOL)])
raw('''def one : Fn (List Nat) := fn [b!"execute_one"] (.data SimpleData.hd) noRet 1 ()
def callFunction : FnTable (List Nat) := .mk
  [one, fnCtx [b!"execute_two"] (.data doubleH) intRet 2 2, fnCtx [b!"execute_three"] (.data (vecH doubleH)) noRet 3 ()] []
''')
j=txt(F_,'json')
def C(cmt,table,t,marks,ret='noError',err='noError',extra=''):
    ex(cmt,'calls %s %s%s = some (.%s, %s, .%s)'%(table,L(t),extra,ret,marks,err))
C('json-function-test.cpp, json-function-test-new.cpp: simpleTestRegular (and json-function-external-test.cpp); `sizeof` passes the NUL on','callFunction',j+b'\0','[1, 2, 3]')
S('ExecuteThreeReturn',[('valid',BOOL,'true'),('error_code',I32),('data',STR,L('hello world'))])
raw('''def sub : FnTable (List Nat) := .mk [fn [b!"execute_three"] (.data (vecH doubleH)) (some ExecuteThreeReturn.hd) 3 {}]
  [.mk [fn [b!"execute_two"] (.data doubleH) noRet 2 ()] [], .mk [one] []]
''')
C('TestRegularFunction','sub',j,'[1, 2, 3]')
raw('''-- virtualFunctionTestRegular: the functions of the super class, one of them overridden
def overloaded : FnTable (List Nat) := .mk []
  [.mk [fn [b!"execute_one"] (.data SimpleData.hd) noRet 10 (), fnCtx [b!"execute_two"] (.data doubleH) intRet 2 2,
    fnCtx [b!"execute_three"] (.data (vecH doubleH)) noRet 3 ()] []]
''')
C('virtualFunctionTestRegular (in json-function-external-test.cpp the container has no functions of its own)','overloaded',j,'[10, 2, 3]')
S('SuperParamOne',[('number',I32)])
S('SuperParamTwo',[('valid',BOOL)])
S('SuperParamTwoOne',[('more_data',STR)],['SuperParamTwo'])
S('Param',[('super_data',STR)],['SuperParamOne','SuperParamTwoOne'])
C('super_class_param_testRegular','(.mk [fn [b!"execute_one"] (.data Param.hd) noRet 1 ()] [])',txt(F_,'json_two'),'[1]')
raw('''def callVoid : FnTable (List Nat) := .mk
  [fn [b!"call_void"] noArg noRet 1 (), fnCtx [b!"call_void_context"] noArg noRet 2 (), fn [b!"call_int_void"] noArg intRet 3 3,
   fnCtx [b!"call_int_void_context"] noArg intRet 4 7, fn [b!"call_void_with_value"] noArg noRet 5 (),
   fnErr [b!"call_void_error"] noArg noRet 6 () []] []
''')
v=txt(F_,'call_void_json')
C('call_void_testRegular','callVoid',v,'[1, 2, 3, 4, 5, 6]')
ex('the list of calls has six entries','(entries callVoid %s).map List.length = some 6'%L(v))
S('CallErrorCheckArg',[('x',I32)])
raw('''def errorCheck : FnTable (List Nat) := .mk
  [fn [b!"call_void"] noArg noRet 1 (),
   fnErr [b!"call_with_int"] (.data (intH ⟨32, true⟩)) noRet 2 () [(.userDefinedErrors, b!"CallWithIntCustomError problem with number")],
   fn [b!"call_another_void"] noArg noRet 3 (),
   fnErr [b!"call_with_object"] (.data CallErrorCheckArg.hd) (some (stringH .sse2)) 4 b!"THIS SHOULD NOT BE SERIALIZED"
     [(.userDefinedErrors, b!"This functions should not serialize the string")]] []
''')
c=txt(F_,'call_error_check_json')
C('call_error_checkRegular','errorCheck',c,'[1, 2, 3, 4]')
ex('the results','results errorCheck %s = some b!"[\\n]"'%L(c))
raw('''def alias : FnTable (List Nat) := .mk
  [.plain [b!"execute_one"] (.data (intH ⟨32, true⟩)) noRet fun w x => (w ++ [1, x.toNat], ()),
   .plain [b!"execute_two_primary", b!"execute_two"] (.data (intH ⟨32, true⟩)) noRet fun w x => (w ++ [2, x.toNat], ()),
   .plain [b!"execute_three"] (.data (intH ⟨32, true⟩)) noRet fun w x => (w ++ [3, x.toNat], ())] []
''')
C('call_json_aliasRegular','alias',txt(F_,'json_alias',True),'[1, 4, 2, 5, 3, 6]')
S('JsonWrongArgTypeExecThree',[('last_member',DBL)])
raw('''def wrongArg : FnTable (List Nat) := .mk
  [fn [b!"execute_one"] (.data (stringH .sse2)) noRet 1 (), fn [b!"execute_two"] (.data (stringH .sse2)) noRet 2 (),
   .plain [b!"execute_three"] (.data JsonWrongArgTypeExecThree.hd) noRet fun w x => (w ++ [x.last_member], ())] []
''')
C('call_json_wrong_arg_typeRegular','wrongArg',txt(F_,'json_wrong_arg_type',True),'[1, 2, %s]'%D(44.5))
S('Func1Arg',[('arg1',I32),('arg2',STR)])
S('Func2Arg',[('one',ARR(4,I32)),('two',BOOL)])
S('Func3Arg',[('first',I32),('second',DBL)])
C('json-scope.cpp: json_function_scope_test. Arguments of other types than declared: only the second function is called, and the error is forgotten','(.mk [fn [b!"func1"] (.data Func1Arg.hd) noRet 1 (), fn [b!"func2"] (.data Func2Arg.hd) noRet 2 (), fn [b!"func3"] (.data Func3Arg.hd) noRet 3 ()] [])',txt('json-scope.cpp','json'),'[2]')
S('ExecuteOneData',[('prop1',I32),('prop2',STR),('prop3',STR)])
S('ExecuteTwoData',[('first_prop',STR)])
S('ExecuterTwoReturn',[('string_data',STR),('value',I32),('values',VEC(I32))])
raw('''def executor : FnTable (List Nat) := .mk
  [fn [b!"execute_one"] (.data ExecuteOneData.hd) noRet 1 (),
   fn [b!"execute_two"] (.data ExecuteTwoData.hd) (some ExecuterTwoReturn.hd) 2
     { string_data := b!"Ret data", value := 999, values := [3, 4, 5, 7, 8] }] []
''')
ex('json-function-error-test.cpp: test_function_error_simple','entries executor %s =\n    some [{ name := b!"execute_one", unassigned := [b!"prop3"] }, { name := b!"execute_two", missing := [b!"second_prop"] }]'%L(txt('json-function-error-test.cpp','json_data')))
save('Call',hdr(['Verif.Conformance.Basic','Verif.Model.Call'],'''The project's own tests of calling functions from JSON, in the model: `tests/json-function-test.cpp` (and
`json-function-test-new.cpp`, `json-function-external-test.cpp` and `json-function-external-test-new.cpp`, which declare the
same functions by other macros), `json-function-error-test.cpp` and `json-scope.cpp`.''','Call'),'Call')
# ---------------- Map
P='json-struct-polymorphic-map.cpp'
big=False
S('ComplexFields_t',[('Hello',I32),('World',I32)])
S('SubObject_t',[('SimpleMember',BOOL),('MoreValues',VEC(STR))])
S('ComplexFields2_t',[('SimpleMember',BOOL),('ArrayOfValues',VEC(I32)),('SubObject',ST('SubObject_t'))])
S('Root_t',[('Field1',I32),('Field2',BOOL),('Field3',STR),('Field4',I32),('ComplexFields',ST('ComplexFields_t')),('ComplexFields2',ST('ComplexFields2_t'),'{ SimpleMember := true }')])
S('NewComplexField',[('Foo',STR),('Bar',STR)])
S('HelloWorld',[('Hello',STR),('World',STR)])
pm=txt(P,'json',True)
raw('''/-- `ParseContext pc(json, sizeof(json), map)`. -/
def polymorphic : Option (JMap × Ctx) :=
  (parseTo jmapH 10000 {} (Ctx.onText { simd := .sse2 } {} %s)).bind
    fun r => if r.1 = .noError then some (r.2.1, r.2.2) else none

/-- `castToType(name, pc, value)`: the error and the value. -/
def cast (mc : Option (JMap × Ctx)) (h : Handler T) (name : Bytes) (old : T := h.init) : Option (Err × T) :=
  mc.bind fun (m, c) => (m.castTo h 10000 name c old).map fun r => (r.1, r.2.1)

/-- `setValue(name, pc, value)`. -/
def set (mc : Option (JMap × Ctx)) (h : Handler T) (name : Bytes) (v : T) : Option (JMap × Ctx) :=
  mc.bind fun (m, c) => (m.setValue h 10000 name v).map fun m => (m, c)

/-- `verify_map_meta` of the test, without what it says about `json_data` (see Model/MapMemory): the metadata are those
of the tokens. -/
def verify (mc : Option (JMap × Ctx)) : Bool :=
  match mc with
  | none => false
  | some (m, _) => metaForTokens m.tokens = some m.metas
'''%L(pm))
I='(intH ⟨32, true⟩)'
ex('polymorphic_map_basic: numbers, strings and structs are read','cast polymorphic %s b!"Field1" = some (.noError, 4)'%I)
ex('','cast polymorphic boolH b!"Field2" = some (.noError, true)')
ex('','cast polymorphic (stringH .sse2) b!"Field3" = some (.noError, b!"432")')
ex('','cast polymorphic ComplexFields_t.hd b!"ComplexFields" = some (.noError, { Hello := 4, World := 2 })')
cf2='{ SimpleMember := true, ArrayOfValues := [4, 3, 5, 7], SubObject := { SimpleMember := false, MoreValues := [b!"Hello", b!"World"] } }'
ex('','cast polymorphic ComplexFields2_t.hd b!"ComplexFields2" = some (.noError, %s)'%cf2)
ex('','cast polymorphic %s b!"Field4" = some (.noError, 567)'%I)
ex('the map as a whole','(polymorphic.bind fun (m, c) => (m.castAll Root_t.hd 10000 c {}).map fun r => (r.1, r.2.1)) = some (.noError, { Field1 := 4, Field2 := true, Field3 := b!"432", Field4 := 567, ComplexFields := { Hello := 4, World := 2 }, ComplexFields2 := %s })'%cf2)
ex('the type of a token found','(polymorphic.bind fun (m, _) => (m.find b!"Field2").bind fun it => (m.tokens[it.index]?).map Tok.valueType) = some .bool')
raw('''def step1 := set polymorphic (intH ⟨64, false⟩) b!"HelloWorld" 4567
def step2 := set step1 (stringH .sse2) b!"Field4" b!"hello world"
def step3 := set step2 boolH b!"ComplexFields" true
def step4 := set step3 NewComplexField.hd b!"ComplexFields" { Foo := b!"Map is awsome", Bar := b!"NewComplexField" }
def step5 := set step4 (intH ⟨32, true⟩) b!"Some" 5678
def step6 := set step5 ComplexFields2_t.hd b!"MoreValues" %s
def step7 := set step6 boolH b!"ComplexFields2" false
'''%cf2)
ex('a new member','cast step1 %s b!"HelloWorld" = some (.noError, 4567) ∧ verify step1'%I)
ex('a member replaced','cast step2 (stringH .sse2) b!"Field4" = some (.noError, b!"hello world") ∧ verify step2')
ex('an object replaced by a value','cast step3 boolH b!"ComplexFields" = some (.noError, true) ∧ verify step3')
ex('a value replaced by an object','cast step4 NewComplexField.hd b!"ComplexFields" = some (.noError, { Foo := b!"Map is awsome", Bar := b!"NewComplexField" }) ∧ verify step4')
ex('','cast step6 NewComplexField.hd b!"ComplexFields" = some (.noError, { Foo := b!"Map is awsome", Bar := b!"NewComplexField" }) ∧ verify step6')
ex('','cast step7 NewComplexField.hd b!"ComplexFields" = some (.noError, { Foo := b!"Map is awsome", Bar := b!"NewComplexField" }) ∧ verify step7')
raw('''/-- A map and a parse context without data. -/
def empty : Option (JMap × Ctx) := some ({}, { tz := Tz.new { simd := .sse2 } })
''')
ex('clean_map','((set (set empty (stringH .sse2) b!"Hello" b!"world") (stringH .sse2) b!"World" b!"hello").bind fun (m, c) => (m.castAll HelloWorld.hd 10000 c {}).map fun r => (r.1, r.2.1)) = some (.noError, { Hello := b!"world", World := b!"hello" })')
raw('''/-- `map.setValue(pc, helloworld)`. -/
def assigned : Option (JMap × Ctx) :=
  (OwnedMap.assign {} HelloWorld.hd 10000 { Hello := b!"Foo", World := b!"Bar" }).map fun m => (m.map, { tz := Tz.new { simd := .sse2 } })
''')
ex('to_clean_map','cast assigned (stringH .sse2) b!"Hello" = some (.noError, b!"Foo") ∧ cast assigned (stringH .sse2) b!"World" = some (.noError, b!"Bar")')
S('Inner',[('innerKey1',STR),('innerKey2',I32)])
S('ParsedJsonMap',[('regularKey',STR),('mapKey',ST('Inner'))])
raw('''def nested : Option JMap := (set (set empty (stringH .sse2) b!"innerKey1" b!"value1") (intH ⟨32, true⟩) b!"innerKey2" 42).map Prod.fst
def outer : Option JMap := nested.bind fun n =>
  (set (set empty (stringH .sse2) b!"regularKey" b!"simpleValue") jmapH b!"mapKey" n).map Prod.fst
''')
ex('nested_map','((outer.bind (writes jmapH)).bind (reads ParsedJsonMap.hd)).map (fun r => (r.1, r.2.1)) = some (.noError, { regularKey := b!"simpleValue", mapKey := { innerKey1 := b!"value1", innerKey2 := 42 } })')
raw('''/-- The metadata of a text (`parseTo(tokens)`, `metaForTokens`). -/
def metas (text : Bytes) : Option (List Tok × List JMeta) :=
  (reads tokensH text).bind fun r => if r.1 = .noError then (metaForTokens r.2.1).map fun m => (r.2.1, m) else none
''')
mt=txt('meta-for-tokens.cpp','json_string')
raw('''def sample : Option (List Tok × List JMeta) := metas %s
'''%L(mt))
ex('meta-for-tokens.cpp: testMetaForTokens','(sample.bind fun (_, m) => m[3]?.map JMeta.isArray) = some false')
ex('','(sample.bind fun (t, m) => m[3]?.bind fun x => t[x.position]?.map Tok.name) = some b!"member_three"')
ex('','(sample.bind fun (t, m) => m[3]?.bind fun x => t[x.position + x.size]?.map Tok.name) = some b!"member_four"')
ex('','(sample.bind fun (t, m) => m[6]?.bind fun x => t[x.position]?.map Tok.name) = some b!"fourth_member"')
ex('','(sample.bind fun (_, m) => m[1]?.bind fun x => m[1 + x.skip]?.map fun y => 1 + x.skip + y.skip) = some 7')
M='json-meta-test.cpp'
ex('json-meta-test.cpp: find_first_child_with_data','((metas %s).bind fun x => findFirstChildWithData x.2 0) = some (some 2)'%L(txt(M,'first_child_with_data_json')))
ex('find_first_child_with_data_last','((metas %s).bind fun x => findFirstChildWithData x.2 0) = some (some 3)'%L(txt(M,'first_child_with_data_json_last')))
save('Map',hdr(['Verif.Conformance.Basic','Verif.Model.MapMemory','Verif.Model.MapWhole'],'''The project's own tests of `JS::Map` and `metaForTokens`, in the model: `tests/json-struct-polymorphic-map.cpp`,
`meta-for-tokens.cpp` and `json-meta-test.cpp`.''','Map'),'Map')
# ---------------- Comments
Q='json-struct-comments-test.cpp'
S('DatabaseConfig',[('host',STR),('port',I32),('ssl_enabled',BOOL)])
S('FeatureFlags',[('beta_ui',BOOL),('new_parser',BOOL)])
S('AppConfig',[('app_name',STR),('version',DBL),('database',ST('DatabaseConfig')),('preferences',VEC(STR)),('features',ST('FeatureFlags'))])
jc=txt(Q,'json_with_comments')
app='{ app_name := b!"TestApp", version := %s, database := { host := b!"localhost", port := 5432, ssl_enabled := true }, preferences := [b!"theme_dark", b!"notifications_enabled", b!"auto_save"], features := { beta_ui := false, new_parser := true } }'%D(1.42)
o='comments := true'
R('parse_struct_with_comments','AppConfig.hd',jc,app,o=o)
S('DeepInner',[('value',I32),('name',STR)]); S('Inner',[('inner',ST('DeepInner'))]); S('NestedCommentStruct',[('outer',ST('Inner'))])
R('parse_nested_struct_with_comments','NestedCommentStruct.hd',txt(Q,'nested_comments_json'),'{ outer := { inner := { value := 42, name := b!"test_string" } } }',o=o)
S('MessageData',[('message',STR),('priority',I32)]); S('GenericContainer',[('container_id',I32),('data',ST('MessageData'))])
R('parse_template_struct_with_comments','GenericContainer.hd',txt(Q,'template_json_with_comments'),'{ container_id := 123, data := { message := b!"Hello World", priority := 5 } }',o=o)
S('BaseClass',[('base_id',I32),('base_name',STR)]); S('DerivedClass',[('derived_value',DBL),('derived_flag',BOOL)],['BaseClass'])
R('parse_inheritance_struct_with_comments','DerivedClass.hd',txt(Q,'inheritance_json_with_comments'),'{ superBaseClass := { base_id := 42, base_name := b!"BaseObject" }, derived_value := %s, derived_flag := true }'%D(3.14),o=o)
S('UserSettings',[('theme',STR),('notifications',OPTC(BOOL))]); S('User',[('name',STR),('age',I32),('email',OPTC(STR)),('phone',OPTC(STR)),('settings',ST('UserSettings'))])
R('parse_optional_members_with_comments','User.hd',txt(Q,'optional_json_with_comments'),'{ name := b!"TestUser", age := 25, email := (b!"test@example.com", true), settings := { theme := b!"dark" } }',o=o)
S('SimpleItem',[('id',I32),('name',STR),('active',OPTC(BOOL))])
raw('''/-- Three calls of `parseTo` on one context: the errors and the values. -/
def three (h : Handler T) (c : Ctx) : Option (List (Err × T)) := do
  let (e1, v1, c) ← parseTo h 10000 h.init c
  let (e2, v2, c) ← parseTo h 10000 h.init c
  let (e3, v3, _) ← parseTo h 10000 h.init c
  some [(e1, v1), (e2, v2), (e3, v3)]
''')
ex('parse_multi_top_level_with_comments','three SimpleItem.hd (Ctx.onText { simd := .sse2, comments := true, ascii := true } {} %s) =\n    some [(.noError, { id := 1, name := b!"First" }), (.noError, { id := 2, name := b!"Second", active := (true, true) }), (.noError, { id := 3, name := b!"Third" })]'%L(txt(Q,'multi_level_json_comments')))
S('Employee',[('name',STR),('department',STR),('salary',I32),('skills',VEC(STR))]); S('Company',[('employees',VEC(ST('Employee')))])
R('parse_array_of_structs_with_comments','Company.hd',txt(Q,'array_json_with_comments'),'{ employees := [{ name := b!"Alice", department := b!"Engineering", salary := 75000, skills := [b!"C++", b!"Python", b!"JavaScript"] }, { name := b!"Bob", department := b!"Marketing", salary := 65000, skills := [b!"Communication", b!"Strategy"] }] }',o=o)
ex('serialization_round_trip_with_comments','((writes AppConfig.hd %s).bind fun t => reads AppConfig.hd t (o := { simd := .sse2, comments := true })) = some (.noError, %s, [], [])'%(app,app))
ex('error_when_comments_disabled','(reads AppConfig.hd %s).map (fun r => decide (r.1 = .noError)) = some false'%L(jc))
S('Level4',[('value',STR),('array',VEC(RAW('any',7)))])
S('Level3',[('level4',ST('Level4'))]); S('Level2',[('level3',ST('Level3'))]); S('Level1',[('level2',ST('Level2'))]); S('DeeplyNested',[('level1',ST('Level1'))])
dn=txt(Q,'deeply_nested_comments')
i=dn.index(b'{',dn.index(b'// Array in deep')); k=dn.index(b'}',i)
R('parse_deeply_nested_with_comments: the captured text keeps the comment','DeeplyNested.hd',dn,'{ level1 := { level2 := { level3 := { level4 := { value := b!"deeply_nested", array := [%s] } } } } }'%L(dn[i:k+1]),o=o)
save('Comments',hdr(['Verif.Conformance.Basic','Verif.Model.Raw'],'''The project's own tests of comments, in the model: `tests/json-struct-comments-test.cpp`.''','Comments'),'Comments')
