#!/usr/bin/env python3
"""Extract the B programs of the project's own tests, with the output they must produce."""
import re, json, sys
R = '/repo/'
out = []
def golit(s, i):
    """a Go string literal (or concatenation) at s[i]; returns (bytes, end)"""
    acc = b''
    while True:
        while s[i] in ' \t\n': i += 1
        if s[i] == '`':
            j = s.index('`', i + 1); acc += s[i+1:j].encode(); i = j + 1
        elif s[i] == '"':
            j = i + 1; b = b''
            while s[j] != '"':
                if s[j] == '\\':
                    e = s[j+1]
                    m = {'n': b'\n', 't': b'\t', 'r': b'\r', '\\': b'\\', '"': b'"', '0': None, 'x': None}
                    if e == 'x': b += bytes([int(s[j+2:j+4], 16)]); j += 4; continue
                    if e == '0': b += bytes([int(s[j+1:j+4], 8)]); j += 4; continue
                    b += m[e]; j += 2
                else: b += s[j].encode(); j += 1
            acc += b; i = j + 1
        else: raise ValueError(s[i:i+40])
        k = i
        while s[k] in ' \t\n': k += 1
        if s[k] == '+': i = k + 1
        else: return acc, i
def add(name, code, want, stdin=b'', mode='exact'):
    out.append(dict(name=name, code=list(code), want=list(want), stdin=list(stdin), mode=mode))
for f in ['lang_expr_test.go', 'lang_prog_test.go']:
    s = open(R + f).read()
    for m in re.finditer(r'\bname:\s*"([^"]*)",\s*code:\s*', s):
        code, i = golit(s, m.end())
        w = re.compile(r',\s*wantStdout:\s*').match(s, i)
        want, _ = golit(s, w.end())
        add(f + ':' + m.group(1), code, want)
s = open(R + 'lang_prog_test.go').read()
i = s.index('const bcode = ') + len('const bcode = ')
code, _ = golit(s, i)
add('read ABC', code, b'65 66 67 EOF=4\n', b'ABC')
add('read empty', code, b'EOF=4\n')
add('read embedded', code, b'65 EOF=4\n', b'A\x04B')
rd = lambda p: open(R + 'examples/' + p, 'rb').read()
add('hello', rd('hello.b'), b'Hello, World!', mode='sub')
add('helloworld', rd('helloworld.b'), b'Hello, World!', mode='sub')
add('fibonacci', rd('fibonacci.b'), b'55\n', mode='sub')
add('fizzbuzz', rd('fizzbuzz.b'), b'FizzBuzz', mode='sub')
add('showcase', rd('showcase.b'), b'', mode='sub')
s = open(R + 'examples_test.go').read()
for fn, want, stdin in [('TestPDP7CompilerName', b'main:\n', b''), ('TestPDP7CompilerLookup', b'main\n', b'')]:
    i = s.index('func ' + fn); i = s.index('code := ', i) + len('code := ')
    code, _ = golit(s, i)
    add(fn, code, want, stdin)
i = s.index('func TestPDP7CompilerSymbol'); i = s.index('code := ', i) + len('code := ')
code, _ = golit(s, i)
add('TestPDP7CompilerSymbol', code, b'main\n', b'main\n')
add('b.b', rd('b.b'), rd('b.pdp7'), rd('b.b'))
add('e-2', rd('e-2.b'), b'71828 18284 59045 23536 02874', mode='prefix')

# texts that must or must not compile, with a part of the message
s = open(R + 'driver_test.go').read()
i0 = s.index('func TestCompileErrors'); i1 = s.index('func TestCompileMultipleFiles')
for m in re.finditer(r'\bname:\s*"([^"]*)",\s*content:\s*', s[i0:i1]):
    code, i = golit(s, i0 + m.end())
    w = re.compile(r',\s*wantErr:\s*(true|false),\s*(?://[^\n]*\n\s*)?(?:errContains:\s*)?').match(s, i)
    if w.group(1) == 'true': add(m.group(1), code, golit(s, w.end())[0], mode='error')
    else: add(m.group(1), code, b'', mode='compile')
s = open(R + 'parser_test.go').read()
for m in re.finditer(r'parse(OK|Err)\(t, (?=[`"])', s):
    code, i = golit(s, m.end())
    if m.group(1) == 'OK': add('parser_test', code, b'', mode='compile')
    else: add('parser_test', code, golit(s, s.index(',', i) + 1)[0], mode='error')
for m in re.finditer(r'(?:src|ok) := (?=`)', s):
    add('parser_test', golit(s, m.end())[0], b'', mode='compile')
json.dump(out, open(sys.argv[1], 'w'))
print(len(out), 'programs')
