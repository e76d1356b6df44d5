#!/usr/bin/env python3
"""Generates lean/Verif/Model/FloatTables.lean from the tables in json_struct.h (cache_values<double>, cache_values<float>)."""
import re, os
SRC = '/repo/include/json_struct/json_struct.h'
OUT = os.path.join(os.path.dirname(__file__), '..', 'lean', 'Verif', 'Model', 'FloatTables.lean')
src = open(SRC).read().split('\n')

def table(decl, n, width):
    idx = [i for i, l in enumerate(src) if decl in l]
    assert len(idx) == 1
    i = idx[0]
    txt = []
    while 'return' not in src[i]:
        txt.append(src[i])
        i += 1
    nums = re.findall(r'UINT64_C\((\d+)\)', '\n'.join(txt))
    assert len(nums) == n * width
    return (idx[0] + 1, i), [nums[j * width:(j + 1) * width] for j in range(n)]

out = ['import Verif.Model.Basic', '',
       '/-', 'The multiplication tables of `cache_values<double>` and `cache_values<float>`, copied from', 'json_struct.h by tools/tables.py. Generated: do not edit.', '-/', '',
       'namespace JsonStruct', '']

def emit(name, doc, decl, n, width):
    (a, b), t = table(decl, n, width)
    out.append('/-- JSH %d-%d %s -/' % (a, b, doc))
    out.append('def %s : List (Nat × Nat) := [' % name)
    for j, e in enumerate(t):
        w = (e + ['0'])[:2]
        out.append('  (%s, %s)%s' % (w[0], w[1], ',' if j + 1 < n else ']'))
    out.append('')

emit('doubleLessThan', '`cache_values<double>::less_than`: low and high word of each entry.', 'static const uint64_t data[326][2]', 326, 2)
emit('doubleGreaterEq', '`cache_values<double>::greater_than_equals`: low and high word of each entry.', 'static const uint64_t data[291][2]', 291, 2)
emit('floatLessThan', '`cache_values<float>::less_than`. The entries have one word; the second one is 0 here.', 'static const uint64_t data[48]', 48, 1)
emit('floatGreaterEq', '`cache_values<float>::greater_than_equals`. The entries have one word; the second one is 0 here.', 'static const uint64_t data[30]', 30, 1)
out.append('end JsonStruct')
open(OUT, 'w').write('\n'.join(out) + '\n')
