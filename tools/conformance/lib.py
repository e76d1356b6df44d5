import sys, struct; sys.path.insert(0,'/verif/tools/conformance')
from conformance import *
import conformance
def L(b): return lean(b if isinstance(b,bytes) else b.encode())
def D(x): return str(struct.unpack('<Q',struct.pack('<d',float(x)))[0])
def F(x): return str(struct.unpack('<I',struct.pack('<f',float(x)))[0])
class Ty:
    def __init__(s,t,h,i,opt=False): s.t,s.h,s.i,s.opt=t,h,i,opt
STR=Ty('Bytes','stringH .sse2','[]')
BOOL=Ty('Bool','boolH','false')
def INT(b,s=True): return Ty('Int','intH ⟨%d, %s⟩'%(b,'true' if s else 'false'),'0')
I32=INT(32)
DBL=Ty('Nat','doubleH','0'); FLT=Ty('Nat','floatH','0')
TOKS=Ty('List Tok','tokensH','[]')
def VEC(t): return Ty('List (%s)'%t.t,'vecH (%s)'%t.h,'[]')
def ARR(n,t): return Ty('List (%s)'%t.t,'arrH %d (%s)'%(n,t.h),'[%s]'%', '.join([t.i]*n))
def OPT(t): return Ty(t.t,'optionalH (%s)'%t.h,t.i,True)
def OPTC(t): return Ty('%s × Bool'%t.t,'optionalCheckedH (%s)'%t.h,'(%s, false)'%t.i,True)
def STDOPT(t): return Ty('Option (%s)'%t.t,'stdOptionalH (%s)'%t.h,'none',True)
def NUL(t): return Ty(t.t,'nullableH (%s)'%t.h,t.i)
def NULC(t): return Ty('%s × Bool'%t.t,'nullableCheckedH (%s)'%t.h,'(%s, true)'%t.i)
def UPTR(t): return Ty('Option (%s)'%t.t,'ptrH (%s)'%t.h,'none',True)
def RAW(k,a): return Ty('Bytes','rawH .%s %d'%(k,a),'[]')
def RAWREF(k): return Ty('Bytes','rawRefH .%s'%k,'[]')
def ST(n): return Ty(n,n+'.hd','{}')
def MAP(t): return Ty('List (Bytes × %s)'%t.t,'mapH (fun l e => l.filter (fun x => x.1 ≠ e.1) ++ [e]) (%s)'%t.h,'[]')
def SET(t): return Ty('List (%s)'%t.t,'setH (fun l e => if e ∈ l then l else l ++ [e]) (%s)'%t.h,'[]')
def AVC(n,t): return Ty('List (%s) × Nat'%t.t,'avcH %d (%s)'%(n,t.h),'([%s], 0)'%', '.join([t.i]*n))
out=[]
def S(name,fields,supers=()):
    """fields: (name, type[, init[, aliases]])"""
    o=['structure %s where'%name]
    for s in supers: o.append('  super%s : %s := {}'%(s,s))
    for f in fields: o.append('  «%s» : %s := %s'%(f[0],f[1].t,f[2] if len(f)>2 and f[2] is not None else f[1].i))
    o.append('  deriving DecidableEq\n')
    ms=[]
    for f in fields:
        names=', '.join(L(n) for n in [f[0]]+list(f[3] if len(f)>3 else ()))
        ms.append('Member.of [%s] %s (%s) (·.«%s») (fun v x => { x with «%s» := v })'%(names,'true' if f[1].opt else 'false',f[1].h,f[0],f[0]))
    ss=['(%s, %s.meta.up (·.super%s) (fun v x => { x with super%s := v }))'%(L(s),s,s,s) for s in reversed(supers)]
    o.append('def %s.meta : Meta %s := .mk\n  [%s]\n  [%s]'%(name,name,',\n   '.join(ms),', '.join(ss)))
    o.append('def %s.hd : Handler %s := structH {} %s.meta\n'%(name,name,name))
    out.append('\n'.join(o))
def ex(cmt,stmt): out.append('%s%sexample : %s := by decide +kernel\n'%('-- '+cmt+'\n' if cmt else '','set_option synthInstance.maxSize 1000 in\n' if big else '',stmt))
big=False
def R(cmt,h,txt,res,err='noError',miss=(),una=(),o='',p='',old=None):
    ex(cmt,'reads (%s) %s%s%s =\n    some (.%s, %s, [%s], [%s])'%(h,L(txt),' (o := { simd := .sse2, %s })'%o if o else '',' (p := { %s })'%p if p else '',err,re.sub(r'\s*\n\s*',' ',res),', '.join(L(x) for x in miss),', '.join(L(x) for x in una)))
