#!/usr/bin/env python3
"""Texts of the project's own tests (/repo/tests), for the modules under lean/Verif/Conformance."""
import re, pathlib

TESTS = pathlib.Path('/repo/tests')

def literal(src, pos):
    """The bytes of the adjacent C++ string literals at pos."""
    out = b''
    while True:
        m = re.compile(r'(?:\s|//[^\n]*\n)*').match(src, pos)
        pos = m.end()
        r = re.compile(r'R"(\w*)\(').match(src, pos)
        if r:
            end = src.index(')' + r.group(1) + '"', r.end())
            out += src[r.end():end].encode()
            pos = end + len(r.group(1)) + 2
            continue
        q = re.compile(r'(?:u8)?"((?:[^"\\]|\\.)*)"').match(src, pos)
        if not q:
            return out
        out += unescape(q.group(1))
        pos = q.end()

def unescape(s):
    out = b''
    i = 0
    while i < len(s):
        if s[i] != '\\':
            out += s[i].encode(); i += 1; continue
        c = s[i + 1]
        if c == 'x':
            m = re.compile(r'[0-9a-fA-F]+').match(s, i + 2)
            out += bytes([int(m.group(0), 16)]); i = m.end(); continue
        if c == 'u':
            out += chr(int(s[i + 2:i + 6], 16)).encode(); i += 6; continue
        if c in '01234567':
            m = re.compile(r'[0-7]{1,3}').match(s, i + 1)
            out += bytes([int(m.group(0), 8)]); i = m.end(); continue
        out += {'n': b'\n', 't': b'\t', 'r': b'\r', '"': b'"', '\\': b'\\', "'": b"'", 'b': b'\b', 'f': b'\f', '/': b'/', '?': b'?'}[c]
        i += 2
    return out

def text(file, name, nth=0):
    """The nth text assigned to a variable of this name in a test file."""
    src = (TESTS / file).read_text()
    ms = list(re.finditer(r'\b' + name + r'\s*(?:\[\])?\s*(?:=|\()\s*(?=R?(?:u8)?["R])', src))
    return literal(src, ms[nth].end())

def lean(b):
    """The bytes as a Lean expression."""
    if not b:
        return '[]'
    parts, cur = [], ''
    for c in b:
        if c == 10: cur += '\\n'
        elif c == 34: cur += '\\"'
        elif c == 92: cur += '\\\\'
        elif c == 9: cur += '\\t'
        elif 32 <= c < 127: cur += chr(c)
        else:
            if cur: parts.append('b!"%s"' % cur); cur = ''
            if parts and parts[-1].startswith('['): parts[-1] = parts[-1][:-1] + ', 0x%02x]' % c
            else: parts.append('[0x%02x]' % c)
    if cur: parts.append('b!"%s"' % cur)
    return parts[0] if len(parts) == 1 else '(' + ' ++ '.join(parts) + ')'
