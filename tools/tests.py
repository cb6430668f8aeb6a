#!/usr/bin/env python3
"""Compare the programs of C100 (Props/TestPrograms*.lean) and what they are to write with the tests in /repo."""
import glob, re, sys
tests = {}
for f in ["lang_prog_test.go", "lang_expr_test.go"]:
    for name, code, want in re.findall(r'\{\s*name:\s*"([^"]+)",\s*code:\s*`([^`]*)`,\s*(?:want\w*:\s*)(`[^`]*`|"(?:[^"\\]|\\.)*")',
                                       open("/repo/" + f).read()):
        tests[name] = (code, want[1:-1] if want[0] == "`" else eval(want))
def text(s):
    return re.sub(r'\\(.)', lambda m: {"n": "\n", "t": "\t"}.get(m.group(1), m.group(1)), s)
n = bad = 0
for f in sorted(glob.glob("/verif/lean/Verif/Props/TestPrograms?.lean")):
    s = open(f).read()
    for name, c in re.findall(r'/-- the test `(\w+)` -/\ndef (\w+)Text ', s):
        code, want = (text(re.search(r'def %s%s : List Char := "((?:[^"\\]|\\.)*)"\.toList' % (c, x), s, re.S).group(1)) for x in ("Text", "Out"))
        n += 1
        if tests.get(name) != (code, want):
            bad += 1
            print(name, "DIFFERENT")
print(n, "tests,", bad, "different")
sys.exit(bad != 0)
