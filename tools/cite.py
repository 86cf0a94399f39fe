#!/usr/bin/env python3
"""Check (and with --fix, correct) citations of the form  src/dir/file.c:A-B `function`  in the Lean sources
against the function ranges of /repo."""
import sys, re, os
def ranges(f):
    L = open('/repo/' + f).read().split('\n'); out = {}; i = 0
    while i < len(L):
        m = re.match(r'^(?:[a-z][^(]*?\b)?\*?(\w+)\(', L[i])
        if m and not L[i].rstrip().endswith(';'):
            j = i
            op = lambda l: l.startswith('{') or l.rstrip().endswith(') {')
            while j < len(L) and not op(L[j]):
                if L[j].rstrip().endswith(';'): break
                j += 1
            if j < len(L) and op(L[j]):
                k = j
                while not L[k].startswith('}'): k += 1
                s = i if re.match(r'^(static|int|void|bool|struct|char|unsigned|enum)\b.*\b%s\(' % m.group(1), L[i]) else i - 1
                out[m.group(1)] = (s + 1, k + 1); i = k
        i += 1
    return out
cache = {}
fix = '--fix' in sys.argv; bad = 0; ok = 0
for d, _, fs in os.walk('/verif/lean/Verif'):
    for fn in fs:
        if not fn.endswith('.lean'): continue
        path = os.path.join(d, fn); t = open(path).read()
        def rep(m):
            global bad, ok
            f, rng, sep, name = m.groups()
            if not os.path.exists('/repo/' + f):
                print(path, 'no such file', f); bad += 1; return m.group(0)
            r = cache.setdefault(f, ranges(f)).get(name)
            if r is None:
                print(path, 'no function', f, name); bad += 1; return m.group(0)
            new = '%d-%d' % r
            if new != rng: bad += 1; print(path, f, name, rng, '->', new)
            else: ok += 1
            return '%s:%s%s`%s`' % (f, new, sep, name)
        t2 = re.sub(r'(src/[\w/]+\.[ch]):(\d+-\d+)(\s+)`(\w+)`', rep, t)
        if fix and t2 != t: open(path, 'w').write(t2)
print('ok', ok, 'bad', bad)
