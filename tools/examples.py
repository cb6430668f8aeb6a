#!/usr/bin/env python3
"""Compare the texts of C74 and C75 in Props with the files in /repo/examples."""
import re, sys
bad = 0
for f, d, ex in [("Examples", "helloBText", "hello.b"), ("Examples", "helloWText", "helloworld.b"), ("Fibonacci", "fibText", "fibonacci.b"),
                 ("Fizzbuzz", "fizzText", "fizzbuzz.b"), ("Euler", "eulerText", "e-2.b"), ("Showcase", "showText", "showcase.b")]:
    try:
        s = open(f"/verif/lean/Verif/Props/{f}.lean").read()
    except OSError:
        continue
    m = re.search(r'def %s : List Char := "((?:[^"\\]|\\.)*)"\.toList' % d, s, re.S)
    t = m.group(1).replace('\\"', '"').replace('\\\\', '\\')
    ok = t == open(f"/repo/examples/{ex}").read()
    print(ex, "same" if ok else "DIFFERENT")
    bad |= not ok
sys.exit(bad)
