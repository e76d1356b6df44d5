exec(open('/verif/tools/conformance/lib.py').read())
big=True
f='json-struct-diff.cpp'
T=lambda v,n=0: text(f,v,n)
out.append('''import Verif.Model.Diff
import Verif.Model.DiffNumber

/-
The project's own tests of diffs, in the model: `tests/json-struct-diff.cpp`.
-/

namespace JsonStruct.Conformance.Diff

/-- A C library in which small numbers are no error of range. -/
def clib : CLib := ⟨fun _ _ => false⟩

/-- The indices and the errors returned for texts that are compared with a base, each under its options. -/
def results (base : Bytes) (texts : List (DiffOptions × Bytes)) : Option (List (Option Nat × DiffError) × DiffCtx) := do
  let c ← DiffCtx.new (diffNumbers clib {}) base
  texts.foldlM (fun r t => do
    let x ← { r.2 with same := diffNumbers clib t.1 }.diff 1000 t.2
    some (r.1 ++ [(x.1, x.2.error)], x.2)) ([], c)

/-- `diff_count` and `diffs` of every result. -/
def DiffCtx.all (c : DiffCtx) : List (Nat × List DiffType) := c.diffs.map fun d => (d.res.count, d.res.diffs)

''')
N,V,TD='.noDiff','.valueDiff','.typeDiff'
J=', '.join
def defs(*names):
    for n in names: out.append('def %s : Bytes := %s\n'%(n,L(T(n))))
def tk(n,ty,v): return '⟨%s, .%s, %s, .%s⟩'%(L(n) if n else '[]','string' if n else 'ascii',L(v),ty)
defs('basicBaseJson','basicDiffJsonEqual','basicDiffJsonDifferent')
ex('diff_check_basic_object_diff','(results basicBaseJson [({}, basicDiffJsonEqual), ({}, basicDiffJsonDifferent)]).map (fun r => DiffCtx.all r.2) =\n    some [(0, [%s]), (5, [%s])]'%(J([N]*7),J([N,V,V,V,TD,V,N])))
ex('diff_check_empty_items','(DiffCtx.new (diffNumbers clib {}) []).map (·.error) = some .emptyString')
ro='.rootItemDiff'
er='[(none, .emptyString), (some 0, .noError), (some 1, .noError)]'
ex('diff_check_empty_items','(results [] [({}, []), ({}, b!"{}"), ({}, b!"[]")]).map (·.1) = some %s'%er)
for b,x in [('{}',[(0,[N,N]),(2,[ro,ro])]),('[]',[(2,[ro,ro]),(0,[N,N])])]:
    ex('diff_check_empty_items','(results b!"%s" [({}, []), ({}, b!"{}"), ({}, b!"[]")]).map (fun r => (r.1, DiffCtx.all r.2)) =\n    some (%s, [%s])'%(b,er,J('(%d, [%s])'%(n,J(l)) for n,l in x)))
defs('basicDiffOptionsJson','basicDiffOptionsJsonIdentical','basicDiffOptionsJsonAlmostEqual')
ex('diff_check_diff_options','''(results basicDiffOptionsJson [({ fuzzy := false, epsilon := 0 }, basicDiffOptionsJsonIdentical), ({ fuzzy := true, epsilon := 0 }, basicDiffOptionsJsonIdentical),
      %s]).map (fun r => (DiffCtx.all r.2).map (·.1)) =
    some [0, 0, 9, 8, 7, 6, 5, 4, 3, 2, 1]'''%',\n      '.join('({ fuzzy := true, epsilon := %s }, basicDiffOptionsJsonAlmostEqual)'%D('1e-%d'%i) for i in range(9,0,-1)))
defs('basicBaseJsonWithSubObject','basicDiffJsonEqualWithSubObject','basicDiffJsonDifferentWithSubObject')
ex('diff_check_nested_objects_diff','''(do
      let r ← results basicBaseJsonWithSubObject [({}, basicDiffJsonEqualWithSubObject), ({}, basicDiffJsonDifferentWithSubObject)]
      let c ← r.2.changeBase 1000 1
      some (((DiffCtx.all r.2)[0]?).map (·.1), (DiffCtx.all r.2)[1]?, c.error, (DiffCtx.all c)[1]?)) =
    some (some 0, some (9, [%s]), .noError, some (9, [%s]))'''%(J([N,V,V,N,TD,V,N,V,V,N,V,TD,V,N]),J([N,V,V,V,V,TD,N,V,N,V,V,TD,N,N])))
defs('basicArrayJson','basicArrayJsonEqual','basicArrayJsonDifferent')
ex('diff_check_basic_array_diff_ordered','(results basicArrayJson [({}, basicArrayJsonEqual), ({}, basicArrayJsonDifferent)]).map (fun r => DiffCtx.all r.2) =\n    some [(0, [%s]), (13, [%s])]'%(J([N]*23),J([N,N,V,TD,V,V,V,N,N,V,V,V,V,N,N,N,V,V,V,N,V,N,N])))
defs('largeObjectWithAllDataTypes','largeObjectWithAllDataTypesEqual','largeObjectWithAllDataTypesDifferent')
ex('diff_check_large_object_with_all_data_types','''(do
      let r ← results largeObjectWithAllDataTypes [({}, largeObjectWithAllDataTypesEqual), ({}, largeObjectWithAllDataTypesDifferent)]
      let c ← r.2.changeBase 1000 1
      some ((DiffCtx.all r.2).map (fun x => (x.1, x.2.length)), ((DiffCtx.all r.2)[1]?).map (fun x => (x.2.drop 51).take 10), c.error,
        ((DiffCtx.all c)[1]?).map (fun x => (x.1, x.2.length, (x.2.drop 50).take 10)))) =
    some ([(0, 74), (10, 75)], some [%s], .noError,
      some (10, 74, [%s]))'''%(J([TD,V,TD,V,V,TD,V,V,TD,'.newArrayItem']),J(['.missingArrayItems',TD,V,TD,V,V,TD,V,V,TD])))
defs('jsonWithSubObjects','jsonWithSubObjects_MissingAndNewMembers')
out.append('-- The base has a superfluous comma in an array. The tokenizer stops there, and only the part in front is compared.')
P='((results jsonWithSubObjects [({}, jsonWithSubObjects_MissingAndNewMembers)]).bind fun r => (r.2.diffs[0]?).map fun d =>\n      (d.res.count, (d.res.missingMembers.length, [0, 4, 15, 1].map d.getMissingMembers), (d.res.missingArrayItems.length, d.getMissingArrayItems 43)))'
ex('diff_check_new_and_missing_members',P+''' =
    some (27, (3, [some [%s, %s], some [%s], some [%s], none]),
      (1, some [%s]))'''%(tk('member2','number','2'),tk('member3','number','3'),tk('submember1','string','11'),tk('item1','number','1'),
 J([tk('','number','7'),tk('','objectStart','{'),tk('i','string','am'),tk('a','string','missing_object'),tk('','objectEnd','}')])))
defs('jsonMissingMembersAndArrayItemsBase','jsonMissingMembersAndArrayItemsDiff')
P='((results jsonMissingMembersAndArrayItemsBase [({}, jsonMissingMembersAndArrayItemsDiff)]).bind fun r => (r.2.diffs[0]?).map fun d =>\n      (d.res.count, (d.res.missingMembers.length, [8, 38].map d.getMissingMembers), (d.res.missingArrayItems.length, [2, 4, 56].map d.getMissingArrayItems)))'
ex('diff_check_new_and_missing_members_nested',P+''' =
    some (40, (2, [some [%s], some [%s]]),
      (3, [some [%s], some [%s], some [%s]]))'''%(J([tk('miss111','objectStart','{'),tk('a','string','b'),tk('c','number','3'),tk('d','bool','false'),tk('e','null','null'),tk('f','number','3.141592'),tk('','objectEnd','}')]),
 J([tk('mem1','number','1'),tk('mem2','bool','false')]),J([tk('','number','2'),tk('','string','3')]),J([tk('','number','3'),tk('','objectStart','{'),tk('key','string','val'),tk('','objectEnd','}')]),J(tk('','string',x) for x in 'bcd')))
out.append('end JsonStruct.Conformance.Diff\n')
open('/verif/lean/Verif/Conformance/Diff.lean','w').write('\n'.join(out))
