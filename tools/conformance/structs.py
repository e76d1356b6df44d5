exec(open('/verif/tools/conformance/lib.py').read())
out.append('''import Verif.Conformance.Basic
import Verif.Model.Raw
import Verif.Model.Time

/-
The project's own tests of reading and writing structs, in the model: `tests/json-struct-test.cpp`, `json-struct-verify.cpp`,
`json-struct-aliases-test.cpp`, `json-struct-nested.cpp`, `json-struct-escape.cpp`, `json-struct-unicode-escape.cpp`,
`json-struct-utf8.cpp`, `json-struct-float.cpp`, `zero-value-test.cpp`, `json-nullable-test.cpp`, `json-optional.cpp`,
`json-struct-array-varlength.cpp`, `json-struct-serialize-tuple.cpp`, `json-unordered-map.cpp`, `json-struct-stdint.cpp`,
`json-enum-test.cpp`, `json-timepoint.cpp`, `json-struct-serialize-test.cpp`, `json-struct-optimization-fixes.cpp`,
`json-string-with-nullterminator-test.cpp` and `json-struct-error-string.cpp`. A member that a test leaves
without a value starts as zero here. The tests look at some of the members; the examples state all of them.
-/

namespace JsonStruct.Conformance.Struct
''')
f='json-struct-test.cpp'
T=lambda v,n=0: text(f,v,n)
S('SubStruct',[('SubString',STR),('SubNumber',I32),('Array',VEC(DBL)),('optional_float',OPTC(FLT)),('optional_with_value',OPT(DBL),D(4.5))])
S('SubStruct2',[('Field1',FLT),('Field2',BOOL,None,['hello','Foobar'])])
S('SubStruct3',[('Field3',STR),('Field4',I32),('Field5',OPT(STR))],['SubStruct2'])
S('JsonData1',[('StringNode',STR),('NumberNode',DBL),('BooleanTrue',BOOL),('BooleanFalse',BOOL),('OptionalInt',OPT(I32)),('TestStruct',ST('SubStruct')),('OptionalButWithData',OPT(VEC(DBL))),('unassigned_value',FLT,F(32)),('subStruct2',UPTR(ST('SubStruct2'))),('Field3',I32,'243'),('NodeWithLiteral',STR,L('SOME STRING LITERAL!!!'))])
R('check_json_tree_nodes_json_struct','JsonData1.hd',T('json_data1'),'''{ StringNode := b!"Some test data", NumberNode := %s, BooleanTrue := true,
      TestStruct := { SubString := b!"Some other string", SubNumber := 500, Array := [%s, %s, %s, %s], optional_float := (%s, true) },
      OptionalButWithData := [%s], subStruct2 := some { Field1 := %s, Field2 := true } }'''%(D(4676.4),D(5),D(6),D(3),D(6),F(300),D(17.5),F(4)),
  miss=['this_property_does_not_exist','Skipped_sub_object'],una=['NodeWithLiteral','Field3','unassigned_value'])
S('SubObject',[('more_data',STR),('a_float',FLT),('boolean_member',BOOL)])
S('OuterStruct',[('some_int',I32),('sub_object',ST('SubObject'))])
R('check_json_tree_template','OuterStruct.hd',T('json_data2'),'{ some_int := 4, sub_object := { more_data := b!"some text", a_float := %s } }'%F(1.2))
R('check_json_tree_subclass','SubStruct3.hd',T('sub_struct3_data'),'{ Field3 := b!"432", superSubStruct2 := { Field1 := %s, Field2 := true } }'%F(4),una=['Field4'])
S('SuperSuperClass',[('SuperSuper',I32)])
S('SuperClass',[('Super',STR)],['SuperSuperClass'])
S('RegularClass',[('Regular',I32)],['SuperClass'])
R('check_json_tree_deep_tree','RegularClass.hd',T('json_data3'),'{ Regular := 42, superSuperClass := { Super := b!"This is in the Superclass", superSuperSuperClass := { SuperSuper := 5 } } }')
S('MissingObjectDef',[('first',BOOL),('second',STR),('fourth',I32)])
R('check_json_missing_object','MissingObjectDef.hd',T('missing_object_def'),'{ first := true, second := b!"hello world", fourth := 33 }',miss=['third'])
S('ErrorInSubChild',[('ffirst',I32)])
S('ErrorInSub',[('first',ST('ErrorInSubChild')),('second',STR),('third',I32)])
R('check_json_error_in_sub','ErrorInSub.hd',T('error_in_sub'),'{ first := { ffirst := 4 }, second := b!"hello world", third := 33 }',miss=['fsecond','not_assigned'])
for nm,ty in [('JsonObjectTester',RAW('object',7)),('JsonObjectOrArrayObjectTester',RAW('any',7)),('JsonObjectRefTester',RAWREF('object')),('JsonObjectOrArrayObjectRefTester',RAWREF('any'))]:
    S(nm,[('field',STR),('obj',ty),('number',I32)])
    t=T('jsonObjectTest'); i=t.index(b'{',5); j=t.index(b'\n  }')+4
    v='{ field := b!"hello", obj := %s, number := 43 }'%L(t[i:j])
    R('check_json_object (%s)'%nm,nm+'.hd',t,v)
    ex('… and back','writes %s.hd %s = some %s'%(nm,v,L(t)))
for nm,ty in [('JsonArrayTester',RAW('array',7)),('JsonObjectOrArrayArrayTester',RAW('any',7)),('JsonArrayRefTester',RAWREF('array')),('JsonObjectOrArrayArrayRefTester',RAWREF('any'))]:
    S(nm,[('string',STR),('array',ty),('number',I32)])
    t=T('jsonArrayTest'); i=t.index(b'['); j=t.index(b'\n  ]')+4
    v='{ string := b!"foo", array := %s, number := 43 }'%L(t[i:j])
    R('check_json_array (%s)'%nm,nm+'.hd',t,v)
    ex('… and back','writes %s.hd %s = some %s'%(nm,v,L(t)))
ints=[('intN',I32,'-345'),('uintN',INT(32,False),'567'),('int64N',INT(64),'-1234'),('uint64N',INT(64,False),'987'),('int16N',INT(16),'-23'),('uint16N',INT(16,False),'45'),('uint8N',INT(8,False),'255'),('int8N',INT(8),'-127'),('charN',INT(8),'123'),('scharN',INT(8),'-123'),('ucharN',INT(8,False),'234')]
S('TypeHandlerTypes',[('doubleN',DBL),('floatN',FLT)]+[(a,b) for a,b,c in ints]+[('boolN',BOOL)])
iv=', '.join('%s := %s'%(a,c) for a,b,c in ints)+', boolN := true'
R('check_json_type_handler_types','TypeHandlerTypes.hd',T('jsonTypeHandlerTypes'),'{ doubleN := %s, floatN := %s, %s }'%(D(44.5),F(33.4),iv))
S('TypeHandlerIntTypes',[(a,b) for a,b,c in ints]+[('boolN',BOOL)])
R('check_json_type_handler_integer_types','TypeHandlerIntTypes.hd',T('jsonTypeHandlerIntTypes'),'{ %s }'%iv)
ex('… and back','writes TypeHandlerIntTypes.hd { %s } = some %s'%(iv,L(T('jsonTypeHandlerIntTypes'))))
S('ArrayTest',[('data',ARR(3,DBL))])
R('check_json_array_test','ArrayTest.hd',T('arrayTestJson'),'{ data := [%s, %s, %s] }'%(D(4),D(5),D(6)))
S('SkipTestBase',[('name',STR),('id',I32)])
S('SkipTestInternalContainer',[('items',VEC(FLT))])
S('SkipTestNameContainer',[('name',STR),('id',I32),('container',ST('SkipTestInternalContainer'))])
S('SkipTestSubClass',[('value',FLT),('skip_test_list_01',VEC(ST('SkipTestNameContainer'))),('skip_test_list_02',VEC(ST('SkipTestNameContainer')))],['SkipTestBase'])
R('check_json_skip_test','SkipTestBase.hd',T('jsonSkipTest'),'{ name := b!"base_name", id := 444 }',miss=['skip_test_list_01','skip_test_list_02','value'])
R('check_json_skip_test (the derived class)','SkipTestSubClass.hd',T('jsonSkipTest'),'''{ superSkipTestBase := { name := b!"base_name", id := 444 }, value := %s,
      skip_test_list_01 := [{ name := b!"list01", id := 1 }, { name := b!"list02", id := 2, container := { items := [%s, %s, %s] } }, { name := b!"list03", id := 3, container := { items := [%s, %s, %s] } }],
      skip_test_list_02 := [{ name := b!"list01", id := 1 }, { name := b!"list02", id := 2 }, { name := b!"list03", id := 3 }] }'''%(F(3.14),F(1.1),F(2.2),F(3.3),F(0),F(1),F(2)),miss=['skip_me']*6)
S('MultiTopLevel',[('a',I32)])
mt=T('multi_top_level_json')
ex('check_multi_top_level_json','''(do
      let r1 ← parseTo MultiTopLevel.hd 100 {} (Ctx.onText { ascii := true, simd := .sse2 } {} %s)
      let r2 ← parseTo MultiTopLevel.hd 100 r1.2.1 r1.2.2
      let r3 ← parseTo MultiTopLevel.hd 100 r2.2.1 r2.2.2
      some [(r1.1, r1.2.1), (r2.1, r2.2.1), (r3.1, r3.2.1)]) =
    some [(Err.noError, ⟨1⟩), (.noError, ⟨2⟩), (.noError, ⟨3⟩)]'''%L(mt))
S('EscapedOuterStruct',[('some_text',STR),('sub_object',ST('SubObject'))])
R('check_json_escaped','EscapedOuterStruct.hd',T('escapedJson'),'{ some_text := %s, sub_object := { more_data := %s, a_float := %s } }'%(L(b'more"_te\\xt'),L(b'so\\me "text'),F(1.2)))
S('OutsideMeta',[('data',STR),('a',FLT)])
R('check_json_meta_outside','OutsideMeta.hd',T('outside_json'),'{ data := b!"this is some text", a := %s }'%F(44.5))
S('FloatingPointAtTheEnd',[('enabled',BOOL),('value',FLT)])
R('check_short_floating_point','FloatingPointAtTheEnd.hd',T('short_floating_at_the_end'),'{ enabled := true, value := %s }'%F(.5))
ex('check_invalid_floating_point','(reads FloatingPointAtTheEnd.hd %s).map (·.1) = some .failedToParseFloat'%L(T('invalid_floating')))
me=['some_text','some_other','pure_escape','strange_escape','pure_strange_escape','empty_string']
S('MoreEscapedStruct',[(x,STR) for x in me])
R('check_json_escaped_end','MoreEscapedStruct.hd',T('moreEscapedJsonAtEnd'),'{ '+', '.join('%s := %s'%(n,L(v)) for n,v in zip(me,[b'more\n',b'tests"',b'\n',b'foo\\s',b'\\k',b'']))+' }')
f='json-struct-verify.cpp'; out.append('namespace Verify\n')
S('ContainsStringNode',[('StringNode',STR)]); S('SubStructVerify',[('NumberNode',I32)],['ContainsStringNode'])
R('json-struct-verify.cpp: testSimpleOneMember','SubStructVerify.hd',T('json_data1'),'{ superContainsStringNode := { StringNode := b!"Some test data" }, NumberNode := 4676 }')
R('testSimpleVerifyMissingMemberInStruct','ContainsStringNode.hd',T('json_data2'),'{ StringNode := b!"Some test data" }',miss=['ThisWillBeUnassigned'])
S('RequiredMemberStruct',[('Field1',I32),('Field2',I32),('Field3',I32)])
R('testSimpleVerifyMissingRequiredMemberInStruct','RequiredMemberStruct.hd',T('json_data3'),'{ Field1 := 1, Field3 := 3 }',una=['Field2'])
S('SuperClass',[('StringNode',STR),('NumberNode',I32)]); S('SubClass',[('SubNode',STR),('SubNode2',I32)],['SuperClass'])
R('testClassHirarchyVerifyMissingMemberInStruct','SubClass.hd',T('json_data4'),'{ superSuperClass := { StringNode := b!"Some test data", NumberNode := 342 }, SubNode := b!"This should be in subclass" }',una=['SubNode2'])
S('SuperSuperClass',[('SuperSuper',I32)]); S('SuperClass2',[('Super',STR)],['SuperSuperClass']); S('RegularClass',[('Regular',I32)],['SuperClass2'])
R('testClassHIrarchyVerifyMissingDataForStruct','RegularClass.hd',T('json_data5'),'{ Regular := 42, superSuperClass2 := { superSuperSuperClass := { SuperSuper := 5 } } }',una=['SuperClass2::Super'])
R('testClassHirarchyVerifyMissingMemberInStruct2','RegularClass.hd',T('json_data6'),'{ Regular := 42, superSuperClass2 := { Super := b!"This is super", superSuperSuperClass := { SuperSuper := 5 } } }',miss=['SuperSuperSuper'])
S('A',[('a',I32)]); S('B',[('b',FLT)],['A']); S('D',[('d',I32)]); S('E',[('e',DBL)],['D']); S('F',[('f',I32)],['E']); S('G',[('g',STR)]); S('Subclass',[('h',I32)],['B','F','G'])
R('testClassHirarchyVerifyMissingDataForStructDeep','Subclass.hd'.replace('Subclass.hd','Subclass.hd'),T('json_data7'),'{ h := 987, superB := { b := %s, superA := { a := 4 } }, superF := { f := 345, superE := { superD := { d := 127 } } }, superG := { g := b!"a" } }'%F(5.5),una=['E::e'])
f='json-struct-serialize-test.cpp'
sv='{ h := 7, superB := { b := %s, superA := { a := 4 } }, superF := { f := 6, superE := { e := %s, superD := { d := 5 } } }, superG := { g := b!"OutputString" } }'%(F(4.5),D(5.5))
ex('json-struct-serialize-test.cpp: test_serialize_deep','writes (Subclass.hd) %s = some %s'%(sv,L(T('expected2'))))
ex('serialize_test_compact','writes (Subclass.hd) %s false = some %s'%(sv,L(T('expected3'))))
S('Simple',[('A',STR),('b',BOOL),('some_longer_name',I32)])
ex('test_serialize_simple','writes Simple.hd { A := b!"TestString", some_longer_name := 456 } = some %s'%L(T('expected1')))
S('WithEscapedData',[('data',STR)])
ex('serialze_test_escaped_data','writes WithEscapedData.hd { data := %s } = some %s'%(L(b'escaped \n " \t string'),L(T('escaped_expected'))))
S('EmptyString',[('key1',STR),('key2',STR),('key3',STR)])
R('test_serialize_empty_string','EmptyString.hd',T('empty_string_json'),'{ key1 := b!"value1", key3 := b!"value3" }')
ex('… and back','writes EmptyString.hd { key1 := b!"value1", key3 := b!"value3" } = some %s'%L(T('empty_string_json')))
ex('… and as tokens','((reads tokensH %s).bind fun r => writes tokensH r.2.1) = some %s'%(L(T('empty_string_json')),L(T('empty_string_json'))))
out.append('end Verify\n')
f='json-struct-aliases-test.cpp'; out.append('namespace Aliases\n')
S('FirstAlias',[('ThePrimary',I32,None,['TheAlias']),('SomeOtherValue',I32)])
R(f+': struct_aliases_checkPlain','FirstAlias.hd',T('json_data1'),'{ ThePrimary := 55, SomeOtherValue := 44 }')
S('ShadowAlias',[('TheAlias',I32,None,['SomeOtherValue']),('SomeOtherValue',I32)])
R('struct_aliases_checkPlainShadow','ShadowAlias.hd',T('json_data1'),'{ TheAlias := 55, SomeOtherValue := 44 }')
S('TheSuper',[('TheAlias',I32)]); S('TheSub',[('SomeOtherValue',I32,None,['TheAlias'])],['TheSuper'])
for v in ['json_data1','json_data2']: R('struct_aliases_checkSuperShadow','TheSub.hd',T(v),'{ superTheSuper := { TheAlias := 55 }, SomeOtherValue := 44 }')
S('Second',[('one',STR),('two_primary',STR,None,['two']),('three',STR)]); S('First',[('first',STR),('second',ST('Second')),('third',STR)])
R('struct_aliases_checkRecursiveShadow','First.hd',T('recursive_alias'),'{ first := b!"first", second := { one := b!"one", two_primary := b!"two", three := b!"three" }, third := b!"third" }')
out.append('end Aliases\n')
f='json-struct-nested.cpp'; out.append('namespace Nested\n')
S('Inner',[('some_value',STR)]); S('NestedObject',[('nested_1',ST('Inner')),('nested_2',ST('Inner'))]); S('Object1',[('value',I32),('nested_object',ST('NestedObject'))]); S('Object1_OmittedVal',[('value',I32)]); S('Object2',[('value',I32)]); S('Container',[('object1',ST('Object1')),('object2',ST('Object2'))]); S('Container_OmittedVal',[('object1',ST('Object1_OmittedVal')),('object2',ST('Object2'))])
one,two=T('JSON_ONE_NESTED_OBJECT'),T('JSON_TWO_NESTED_OBJECTS')
R(f+': nested_optional','Container.hd',one,'{ object1 := { value := 1, nested_object := { nested_1 := ⟨b!"foo"⟩ } }, object2 := ⟨2⟩ }',una=['nested_2'])
R('nested_optional','Container.hd',two,'{ object1 := { value := 1, nested_object := { nested_1 := ⟨b!"foo"⟩, nested_2 := ⟨b!"bar"⟩ } }, object2 := ⟨2⟩ }')
for x in (one,two): R('nested_optional','Container_OmittedVal.hd',x,'{ object1 := ⟨1⟩, object2 := ⟨2⟩ }',miss=['nested_object'])
out.append('end Nested\n')
out.append('namespace Small\n')
f='json-struct-escape.cpp'
S('OneTwo',[('One',STR),('Two',STR)])
R(f+': test_forward_slash','OneTwo.hd',T('json_data1'),'⟨b!"foo / bar", b!"foo / bar"⟩')
ex('… and back','((writes OneTwo.hd ⟨b!"foo / bar", b!"foo / bar"⟩).bind (reads OneTwo.hd)) = some (.noError, ⟨b!"foo / bar", b!"foo / bar"⟩, [], [])')
f='json-struct-unicode-escape.cpp'
S('UStruct',[(x,STR) for x in ['euro','cjk','oslash','grin','ascii']])
uv='{ euro := [0xE2, 0x82, 0xAC], cjk := [0xE4, 0xB8, 0xAD], oslash := [0xC3, 0xB8], grin := [0xF0, 0x9F, 0x98, 0x80], ascii := b!"A" }'
R(f+': unicode_escape_decoding','UStruct.hd',T('unicode_json'),uv)
ex('unicode_escape_roundtrip','((writes UStruct.hd %s).bind (reads UStruct.hd)) = some (.noError, %s, [], [])'%(uv,uv))
f='json-struct-utf8.cpp'
S('Utf8',[(x,STR) for x in ['One','Two','Three','Four','Five']])
j='jørgen'.encode()
R(f+': test_simple_utf8','Utf8.hd',T('json_data1'),'{ '+', '.join('%s := %s'%(n,L(v)) for n,v in zip(['One','Two','Three','Four','Five'],[j,j+'ø'.encode(),j+b'\\u012',j+b'\\u01',j+b'\\u0']))+' }')
f='json-struct-float.cpp'
S('Json1',[('num1',FLT),('num2',DBL)])
R(f+': json_struct_float','Json1.hd',T('json_data'),'⟨%s, %s⟩'%(F('32587.403333333333333333'),D('32587.403333333333333333')))
f='zero-value-test.cpp'
S('ZeroValueStruct',[('f_pos_zero',FLT),('f_neg_zero',FLT),('d_pos_zero',DBL),('d_neg_zero',DBL)])
for v in ['json_data','json_data_decimal','json_data_scientific']: R(f+': test_zero_value','ZeroValueStruct.hd',T(v),'⟨0, 0x80000000, 0, 0x8000000000000000⟩')
f='json-nullable-test.cpp'
S('SmallStructWithoutNullable',[('a',I32),('b',FLT,F(2.2))]); S('SmallStruct',[('a',I32),('b',NUL(FLT),F(2.2))]); S('SmallStructNullableChecked',[('a',I32),('b',NULC(FLT),'(%s, false)'%F(2.2))])
ex(f+': test_nullable','((reads SmallStructWithoutNullable.hd %s).map fun r => decide (r.1 ≠ .noError)) = some true'%L(T('json')))
R('test_nullable','SmallStruct.hd',T('json'),'{ a := 1 }')
R('test_nullable','SmallStructNullableChecked.hd',T('json'),'{ a := 1, b := (%s, true) }'%F(2.2))
f='json-optional.cpp'
S('SmallStructWithoutOptional',[('a',I32),('b',FLT,F(2.2)),('c',STR),('d',STR)]); S('SmallStructStd',[('a',I32),('b',STDOPT(FLT),'some '+F(2.2)),('c',STDOPT(STR)),('d',STDOPT(STR))])
ex(f+': test_optional','((reads SmallStructWithoutOptional.hd %s (p := { allowUnassigned := false })).map fun r => decide (r.1 ≠ .noError)) = some true'%L(T('json')))
R('test_optional','SmallStructStd.hd',T('json'),'{ a := 1, b := some %s, c := some b!"hello world" }'%F(2.2),p='allowUnassigned := false')
f='json-struct-array-varlength.cpp'
S('JsonObject1',[('vec',AVC(10,I32))]); S('JsonObject2',[('vec',AVC(2,I32))])
R(f+': array_variable_content','JsonObject1.hd',T('json_data'),'⟨[1, 2, 3, 4, 0, 0, 0, 0, 0, 0], 4⟩')
ex('array_variable_content_fail','((reads JsonObject2.hd %s).map fun r => decide (r.1 ≠ .noError)) = some true'%L(T('json_data')))
f='json-struct-serialize-tuple.cpp'
TUP=Ty('Int × Bytes × Nat × Unit','tupleH (.cons (intH ⟨32, true⟩) (.cons (stringH .sse2) (.cons floatH .nil)))','(0, [], 0, ())')
S('Foo',[('data',TUP)])
R(f+': serialize_tuple','Foo.hd',T('json'),'⟨(9876, b!"Tuples are cool", %s, ())⟩'%F(3.1415))
S('TestBool',[('member',Ty('Bool × Unit','tupleH (.cons boolH .nil)','(false, ())'))])
R('bool_tuple','TestBool.hd',b'{ "member": [true] }','⟨(true, ())⟩')
ex('bool_tuple','writes TestBool.hd ⟨(true, ())⟩ = some %s'%L(b'{\n  "member": [\n    true\n  ]\n}'))
f='json-unordered-map.cpp'
S('JsonData',[('unordered_map',MAP(VEC(DBL))),('map',MAP(STR)),('unordered_set',SET(I32)),('set',SET(FLT))])
t=T('json')
mv='{ unordered_map := [(b!"foo", [%s]), (b!"bar", [%s])], map := [(b!"hello", b!"world"), (b!"sail", b!"boat")], unordered_set := [9, 8, 7, 6], set := [%s] }'%(D(1),D(2),', '.join(F(x) for x in (1.5,1.6,1.7,1.8)))
R(f+': unordered_map_complex_value','JsonData.hd',t,mv)
ex('… and back','((writes JsonData.hd %s).bind (reads JsonData.hd)) = some (.noError, %s, [], [])'%(mv,mv))
f='json-struct-stdint.cpp'
sd=[('int8',INT(8)),('uint8',INT(8,False)),('int16',INT(16)),('uint16',INT(16,False)),('int32',INT(32)),('uint32',INT(32,False)),('int64',INT(64)),('uint64',INT(64,False))]
S('StdInt',sd)
R(f+': js_std_int','StdInt.hd',T('json')+b'\0','⟨4, 5, 6, 7, 8, 9, 10, 11⟩',p='allowMissing := false, allowUnassigned := false')
ex('large_number_roundtrip','((writes StdInt.hd { uint64 := 2 ^ 64 - 1 }).bind (reads StdInt.hd)) = some (.noError, { uint64 := 2 ^ 64 - 1 }, [], [])')
S('VeryLargeInt',[('data',INT(128))])
ex('test_128_int','((writes VeryLargeInt.hd ⟨2 ^ 127 - 1⟩).bind (reads VeryLargeInt.hd)) = some (.noError, ⟨2 ^ 127 - 1⟩, [], [])')
f='json-enum-test.cpp'
S('TestEnumParser',[('colors',Ty('Int','enumH [b!"Red", b!"Green", b!"Blue", b!"Yellow4", b!"Purple"] ⟨32, true⟩','0'))])
R(f+': check_enum_parser','TestEnumParser.hd',T('json'),'⟨1⟩')
ex('… and back','writes TestEnumParser.hd ⟨1⟩ = some %s'%L(T('json')))
R('check_enum_number_parser','TestEnumParser.hd',T('json_number'),'⟨2⟩')
S('CarContainer',[('car',Ty('Int','enumH [b!"Fiat", b!"VW", b!"BMW", b!"Peugeot", b!"Mazda"] ⟨32, true⟩','0'))])
R('check_enum_parser_namespace','CarContainer.hd',T('car_json'),'⟨2⟩')
ex('… and back','writes CarContainer.hd ⟨2⟩ = some %s'%L(T('car_json')))
f='json-timepoint.cpp'
ns={'0':1625409496*10**9,'1':1625409497*10**9,'2':1625409497002*10**6,'3':1625409497002003000,'4':1625409497002003004}
tn=[('tp_0_s','0',0,10**9),('tp_0_ms','0',0,10**6),('tp_0_us','0',0,10**3),('tp_0_ns','0',1,1),('tp_1_s','1',0,10**9),('tp_2_ms','2',0,10**6),('tp_3_us','3',0,10**3),('tp_4_ns','4',1,1)]
S('TimeData',[(n,Ty('Int','timeH hiresClock' if h else 'timeH microClock','0')) for n,k,h,d in tn])
txt='{'+','.join('"%s"%s: %d'%(n,' ' if n.endswith('_s') else '',ns[k]//d) for n,k,h,d in tn)+'}'
tv='⟨'+', '.join(str(ns[k] if h else ns[k]//1000) for n,k,h,d in tn)+'⟩'
R(f+': time_point (the system clock counting microseconds)','TimeData.hd',txt,tv)
ex('… and back','((writes TimeData.hd %s).bind (reads TimeData.hd)) = some (.noError, %s, [], [])'%(tv,tv))
S('TimeData2',[(n,INT(64,False)) for n,k,h,d in tn])
ex('… without the trailing zeros','((writes TimeData.hd %s).bind (reads TimeData2.hd)) = some (.noError, ⟨%s⟩, [], [])'%(tv,', '.join(str(x) for x in [1625409496]*4+[1625409497,1625409497002,1625409497002003,1625409497002003004])))
S('TimeDataNs',[(n,Ty('Int','timeH hiresClock' if h else 'timeH ⟨1000, false⟩','0')) for n,k,h,d in tn])
tvn='⟨'+', '.join(str(ns[k]) for n,k,h,d in tn)+'⟩'
R('time_point (the system clock counting nanoseconds)','TimeDataNs.hd',txt,tvn)
ex('… and back','((writes TimeDataNs.hd %s).bind (reads TimeDataNs.hd)) = some (.noError, %s, [], [])'%(tvn,tvn))
ex('… without the trailing zeros','((writes TimeDataNs.hd %s).bind (reads TimeData2.hd)) = some (.noError, ⟨%s⟩, [], [])'%(tvn,', '.join(str(x) for x in [1625409496]*4+[1625409497,1625409497002,1625409497002003,1625409497002003004])))
f='json-struct-optimization-fixes.cpp'
S('IntBox',[('x',I32)])
for v in ['100','1e2']: R(f+': integer_requires_full_token_consumption','IntBox.hd','{"x": %s}'%v,'⟨100⟩')
for v in ['1e2e3','12-3']: ex('integer_requires_full_token_consumption','((reads IntBox.hd %s).map fun r => decide (r.1 ≠ .noError)) = some true'%L('{"x": %s}'%v))
S('DoubleBox',[('d',DBL)]); S('FloatBox',[('f',FLT)])
ex('nonfinite_serializes_as_valid_json','writes DoubleBox.hd ⟨0x7ff8000000000000⟩ = some %s'%L(b'{\n  "d": null\n}'))
ex('nonfinite_serializes_as_valid_json','writes DoubleBox.hd ⟨0x7ff0000000000000⟩ = some %s'%L(b'{\n  "d": null\n}'))
ex('nonfinite_serializes_as_valid_json','writes FloatBox.hd ⟨0xff800000⟩ = some %s'%L(b'{\n  "f": null\n}'))
for simd in ['scalar','sse2','sse42','avx2','neon']:
    ex('newline_delimiter_simd_gate','((tokenizeBufs { newLines := true, simd := .%s } [%s]).1.filter (·.valueType = .string)).length = 4'%(simd,L(b'[\n'+b''.join(b'  "'+c*16+b'"\n' for c in (b'a',b'b',b'c',b'd'))+b']')))
    ex('streaming_escape_parity_across_buffer_boundary','tokenizeBufs { simd := .%s } [%s, %s, %s] =\n    ([⟨[], .ascii, b!"[", .arrayStart⟩, ⟨[], .ascii, %s, .string⟩, ⟨[], .ascii, b!"]", .arrayEnd⟩], .needMoreData)'%(simd,L(b'["aaaaaaaa\\'),L(b'"'+b'b'*40),L(b'"]'),L(b'aaaaaaaa\\"'+b'b'*40)))
S('NestChild',[('a',I32)]); S('NestParent',[('collide',I32),('child',ST('NestChild'))])
ex('nested_unknown_field_strict_stops_scanning','((reads NestParent.hd %s (p := { allowMissing := false })).map fun r => (decide (r.1 ≠ .noError), decide (r.2.1.collide ≠ 99))) = some (true, true)'%L(b'{"child":{"a":1,"collide":99},"collide":7}'))
R('nested_unknown_field_allowed_by_default','NestParent.hd',b'{"child":{"a":1,"extra":99},"collide":7}','⟨7, ⟨1⟩⟩',miss=['extra'])
S('MultiInt',[('a',I32),('b',I32),('c',I32)])
ex('pretty_skip_delimiter_omits_comma','((serializeStruct MultiInt.hd ⟨1, 2, 3⟩ { SerOpts.new true with tokenDelim := [] }).map fun t => decide (COMMA ∈ t)) = some false')
f='json-string-with-nullterminator-test.cpp'
S('NullTerminatorStruct',[('data',STR)])
R(f+': check_parse_nullterminated_string','NullTerminatorStruct.hd',b'{"data":"Hello\x05\0\0\0 World!"}','⟨b!"Hello" ++ [5, 0, 0, 0] ++ b!" World!"⟩')
ex('check_serialize_nullterminated_struct','((writes NullTerminatorStruct.hd ⟨b!"Hello" ++ [5, 0, 0, 0] ++ b!" World!"⟩).bind (reads NullTerminatorStruct.hd)) = some (.noError, ⟨b!"Hello" ++ [5, 0, 0, 0] ++ b!" World!"⟩, [], [])')
f='json-struct-error-string.cpp'
ex(f+': test_make_error_string','((reads OneTwo.hd %s).map fun r => decide (r.1 ≠ .noError)) = some true'%L(T('json_data1')))
ex('test_make_error_string_unnasigned_required_member','((reads OneTwo.hd %s (p := { allowMissing := false, allowUnassigned := false })).map fun r => decide (r.1 ≠ .noError)) = some true'%L(T('json_data')))
f='json-copy-test.cpp'
S('SecondChild',[('some_more',STR),('another_int',I32)]); S('SecondParent',[('number',I32),('valid',BOOL),('child',TOKS),('more_data',STR),('super_data',STR)])
ex(f+': copy_test_js_copy_tokens','''((reads SecondParent.hd %s).bind fun r => parseTo SecondChild.hd 100 {} { tz := (Tz.new { simd := .sse2 }).addTokens (r.2.1.child.map fun t => ⟨⟨.lit, t.name⟩, ⟨.lit, t.value⟩, t.nameType, t.valueType⟩) }).map
      (fun r => (r.1, r.2.1)) = some (.noError, ⟨b!"world", 495⟩)'''%L(T('json_token_copy')))
S('Child',[('sub_object_prop1',BOOL),('sub_object_prop2',I32)]); S('Parent',[('test',BOOL),('more',ST('Child')),('int_value',I32)])
R('copy_test_js_copy_parsed (from the text)','Parent.hd',T('json2'),'⟨true, ⟨true, 456⟩, 65⟩')
out.append('end Small\n\nend JsonStruct.Conformance.Struct\n')
open('/verif/lean/Verif/Conformance/Struct.lean','w').write('\n'.join(out))
