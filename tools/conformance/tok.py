import sys; sys.path.insert(0,'/verif/tools/conformance')
from conformance import *
o=[]
o.append('''import Verif.Model.Tokenizer

/-
The project's own tests of the tokenizer, in the model: `tests/json-tokenizer-test.cpp`, `json-tokenizer-fail-test.cpp`,
`json-tokenizer-partial-test.cpp` and `json-tokenizer-comments-test.cpp`. They test the model, and prove nothing about all
inputs. The texts are taken from the test files; `sizeof` passes the NUL byte
behind them on. Where a test stops before the end of the text, the tokens and the error that the model finds behind are
in the example, too.
-/

namespace JsonStruct.Conformance.Tokenizer

/-- A member `name: value`. -/
def m (n : Bytes) (t : Ty) (v : Bytes) : Tok := ⟨n, .string, v, t⟩
/-- A member whose name has no quotes. -/
def a (n : Bytes) (t : Ty) (v : Bytes) : Tok := ⟨n, .ascii, v, t⟩
/-- An element of an array. -/
def e (t : Ty) (v : Bytes) : Tok := ⟨[], .ascii, v, t⟩
def os : Tok := e .objectStart b!"{"
def oe : Tok := e .objectEnd b!"}"
def as : Tok := e .arrayStart b!"["
def ae : Tok := e .arrayEnd b!"]"
''')
def t(b): return lean(b if isinstance(b,bytes) else b.encode())
def tok(x):
    if isinstance(x,str): return x
    if len(x)==3: n,ty,v=x; return 'm %s .%s %s'%(t(n),ty,t(v))
    if len(x)==4: _,n,ty,v=x; return 'a %s .%s %s'%(t(n),ty,t(v))
    ty,v=x; return 'e .%s %s'%(ty,t(v))
def ex(cmt,opts,bufs,toks,err,simd='scalar'):
    o.append('-- %s\nexample : tokenizeBufs { %s } [%s] =\n    ([%s],\n     .%s) := by decide +kernel\n'%(cmt,', '.join(opts+['simd := .'+simd]),',\n      '.join(lean(b) for b in bufs),', '.join(tok(x) for x in toks),err))
AN=['ascii := true','newLines := true']
H='../tests/json-test-data.h'
d1=text('json-test-data.h','json_data1')+b'\0'
T1=['os',('foo','string','bar'),('color','string','red'),('a','weather','string','clear'),('a','weather1','string','clear1'),('a','ToBeTrue','bool','true'),('a','HeresANull','null','null'),('a','ThisIsFalse','bool','false'),
('a','EscapedString','string','contains \\"'),('\\"EscapedName\\"','bool','true'),('EscapedProp','string','\\"Hello\\"'),('a','ThisIsANumber','number','3.14'),('a','ThisIsAnObject','objectStart','{'),('a','ThisIsASubType','string','red'),'oe',
('a','AnotherProp','string','prop'),('a','ThisIsAnotherObject','objectStart','{'),('a','ThisIsAnotherASubType','string','blue'),'oe',('a','ThisIsAnArray','arrayStart','['),('number','12.4'),('number','3'),('number','43.2'),'ae',
('a','ThisIsAnObjectArray','arrayStart','['),'os',('a','Test1','string','Test2'),('a','Test3','string','Test4'),'oe','os',('a','Test5','bool','true'),('a','Test7','bool','false'),'oe','ae','oe']
ex('json-tokenizer-test.cpp: check_json_with_string_and_ascii',AN,[d1],T1,'needMoreData')
ex('the same with AVX2',AN,[d1],T1,'needMoreData','avx2')
ex('json-tokenizer-test.cpp: check_json_with_array_and_ascii',AN,[text('json-test-data.h','json_data3')+b'\0'],['os',('a','an_array','arrayStart','['),('ascii','text_element_one'),('ascii','text_two'),('ascii','text_three'),'ae','oe'],'needMoreData')
F='json-tokenizer-fail-test.cpp'
fb=('foo','string','bar'); cr=('color','string','red')
for nm,toks,err,z in [('json_with_ascii_property',['os',fb],'illegalPropertyName',0),('json_with_ascii_data',['os',fb],'illegalDataValue',0),('json_with_new_line_seperator',['os',fb],'invalidToken',0),
  ('json_with_comma_before_obj_end',['os',fb,cr],'expectedDataToken',1),('json_with_illegal_chars',['os',fb],'encounteredIllegalChar',1),('json_with_illegal_comma_in_array',['os',('foo','arrayStart','[')],'encounteredIllegalChar',0),('json_broken_stream',[],'illegalPropertyType',0)]:
    ex(F+': '+nm,[],[text(F,nm)+b'\0'*z],toks,err)
P='json-tokenizer-partial-test.cpp'
ac=('a','color','string','red'); ab=('a','color','bool','true')
for i,toks in [(1,['os',fb,cr,'oe']),(2,['os',fb,cr,'oe']),(3,['os',fb,cr,'oe']),(4,['os',fb,cr,'oe']),(5,['os',fb,ac,'oe']),(6,['os',fb,ab,'oe']),(7,['os',fb,ab,'oe']),(8,['os',fb,('array','arrayStart','['),('string','one'),('string','two'),('string','three'),'ae','oe'])]:
    ex(P+': check_json_partial_%d'%i,AN,[text(P,'json_data_partial_%d_1'%i)+b'\0',text(P,'json_data_partial_%d_2'%i)+b'\0'],toks,'needMoreData')
C='json-tokenizer-comments-test.cpp'
kv=('key','string','value')
names=['basic_comment_parsing','comment_at_beginning','inline_comment','multiple_consecutive_comments','comments_in_array','comments_disabled_by_default','comments_between_object_properties','comment_after_colon','empty_comment','comment_with_special_characters','comment_without_newline_at_eof']
exp=[['os',kv,'oe'],['os',kv,'oe'],['os',kv,('number','number','42'),'oe'],['os',kv,'oe'],['os',('items','arrayStart','['),('string','item1'),('string','item2'),'ae','oe'],['os',kv,'oe'],['os',('first','string','value1'),('second','string','value2'),('third','number','123'),'oe'],['os',kv,'oe'],['os',kv,'oe'],['os',kv,'oe'],['os',kv]]
for i,(n,x) in enumerate(zip(names,exp)):
    ex(C+': '+n,['comments := true'] if i!=5 else [],[text(C,'json_data',i)+(b'\0' if i!=10 else b'')],x,'needMoreData')
o.append('end JsonStruct.Conformance.Tokenizer\n')
open('/verif/lean/Verif/Conformance/Tokenizer.lean','w').write('\n'.join(o))
