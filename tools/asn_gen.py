#!/usr/bin/env python3
"""Reads the type descriptors in /repo/src/asn1/asn1c and writes lean/Verif/Asn/Types.lean and lean/Verif/Asn/Cons.lean."""
import re, sys, os
D = '/repo/src/asn1/asn1c/'
CLS = {'UNIVERSAL': 0, 'APPLICATION': 1, 'CONTEXT': 2, 'PRIVATE': 3}
src = {}
for f in sorted(os.listdir(D)):
    if f.endswith('.c'):
        src[f] = open(D + f).read()

def strip(s):
    return re.sub(r'/\*.*?\*/', lambda m: re.sub(r'[^\n]', ' ', m.group(0)), s, flags=re.S)
clean = {f: strip(s) for f, s in src.items()}

def body(f, sym):
    """The initializer of a symbol, its first and last line."""
    s = clean[f]
    m = re.search(r'\b%s(\[\])?\s*=\s*\{' % re.escape(sym), s)
    if not m: return None
    i = m.end(); d = 1
    while d:
        c = s[i]
        if c == '{': d += 1
        if c == '}': d -= 1
        i += 1
    start = s.rfind('\n', 0, m.start()) + 1
    return s[m.end():i-1], s.count('\n', 0, start) + 1, s.count('\n', 0, i) + 1

def split(s):
    out, d, cur = [], 0, ''
    for c in s:
        if c in '({[': d += 1
        if c in ')}]': d -= 1
        if c == ',' and d == 0:
            out.append(cur.strip()); cur = ''
        else: cur += c
    if cur.strip(): out.append(cur.strip())
    return out

def tagnum(s):
    s = s.strip()
    if s == '-1': return None
    m = re.fullmatch(r'\(?\s*ASN_TAG_CLASS_(\w+)\s*\|\s*\((\d+)\s*<<\s*2\)\s*\)?', s)
    assert m, s
    return int(m.group(2)) * 4 + CLS[m.group(1)]

def find(sym, prefer):
    for f in [prefer] + sorted(src):
        b = body(f, sym)
        if b: return f, b
    return None

def decoder(op, f):
    r = find(op, f)
    if not r: return None
    return split(r[1][0])[3]

names = {}
out = []
cout = []
GEN = {'asn_generic_no_constraint': '.none', 'INTEGER_constraint': '.none', 'OCTET_STRING_constraint': '.none', 'ANY_constraint': '.none',
    'BIT_STRING_constraint': '.bits', 'IA5String_constraint': '.ia5', 'OBJECT_IDENTIFIER_constraint': '.oid',
    'GeneralizedTime_constraint': '.gtime', 'UTCTime_constraint': '.utime'}
def memcon(sym, g, el):
    """The constraint of a member (or none): from the text of the function."""
    if sym == 'NULL': return None, []
    s = clean[g]
    m = re.search(r'\n%s\(' % re.escape(sym), s)
    end = s.index('\n}', m.start())
    t = s[m.start():end]
    cite = ['src/asn1/asn1c/%s:%d-%d `%s`' % (g, s.count('\n', 0, m.start()) + 1, s.count('\n', 0, end) + 2, sym)]
    q = re.search(r'if\(\(size >= (\d+) && size <= (\d+)\)\)', t)
    if q and 'st->size' in t: return '(.size %s %s)' % q.groups(), cite
    if 'if((size >= 1))' in t and '->count' in t and 'return SEQUENCE_OF_constraint(td' in t: return '(.filled %s)' % el, cite
    if "st->buf[0] & 0x80" in t and 'if((value >= 0))' in t: return '.nonneg', cite
    if 'if(1 ' in t and 'return td->encoding_constraints.general_constraints(td' in t: return '(.same %s)' % el, cite
    raise Exception(sym + t)

def tags(sym, f):
    if sym == 'NULL': return []
    g, b = find(sym, f)
    return [tagnum(x) for x in split(b[0])]

def lname(sym):
    n = sym.replace('asn_DEF_', '')
    n = re.sub(r'_\d+$', '', n).replace('_', '')
    n = n[0].lower() + n[1:]
    m = re.match(r'[A-Z]+', sym.replace('asn_DEF_', ''))
    if m and len(m.group(0)) > 1:
        k = len(m.group(0)); k = k if k == len(n) or not n[k:k+1].islower() else k - 1
        n = n[:k].lower() + n[k:]
    return n + 'Ty'

def gen(x):
    return split(x.strip()[1:-1])[2].strip()
def cname(ty):
    return ty[:-2] + 'Con'
def mcite(sym, f):
    g, b = find(sym, f)
    return 'src/asn1/asn1c/%s:%d-%d `%s`' % (g, b[1], b[2], sym)

def emit(sym, f):
    key = None
    g, b = find(sym, f)
    key = (sym, g)
    if key in names: return names[key]
    p = split(b[0])
    op = p[2].lstrip('&')
    dec = decoder(op, g)
    def cnt(x, base):
        m = re.search(r'-\s*(\d+)', x)
        return base - (int(m.group(1)) if m else 0)
    tg = tags(p[3], g); tg = tg[:cnt(p[4], len(tg))] if p[3] != 'NULL' else []
    al = tags(p[5], g)
    name = lname(sym)
    while name in names.values(): name = g[:-2][0].lower() + g[1:-2] + name[0].upper() + name[1:]
    cite = 'src/asn1/asn1c/%s:%d-%d `%s`' % (g, b[1], b[2], sym)
    cites = [cite]
    ccites = []
    con = gen(p[7])
    c = GEN.get(con)
    L = lambda l: '[' + ', '.join(map(str, l)) + ']'
    if dec in ('ber_decode_primitive', 'NULL_decode_ber', 'BOOLEAN_decode_ber'):
        k = {'ber_decode_primitive': 'plain', 'NULL_decode_ber': 'null', 'BOOLEAN_decode_ber': 'bool'}[dec]
        d = '.prim .%s %s' % (k, L(tg))
    elif dec == 'OCTET_STRING_decode_ber':
        k = {'&asn_SPC_BIT_STRING_specs': 'bits', '&asn_SPC_ANY_specs': 'any'}.get(p[10] if len(p) > 10 else '', 'octets')
        d = '.str .%s %s %s' % (k, L(tg), L(al))
    elif dec == 'BIT_STRING_decode_ber' : raise Exception('bits')
    elif dec in ('SET_OF_decode_ber', 'SEQUENCE_OF_decode_ber'):
        mem = split(find(p[8], g)[1][0])
        assert len(mem) == 1
        q = split(mem[0].strip()[1:-1])
        assert q[4] == '0', q
        el = emit(q[5].lstrip('&'), g)
        t = tagnum(q[3])
        cites.append(mcite(p[8], g))
        assert con in ('SET_OF_constraint', 'SEQUENCE_OF_constraint') and gen(q[7]) == 'NULL', (con, q[7])
        c = '.setOf %s' % cname(el)
        d = '.setOf %s %s %s' % (L(tg), 'none' if t is None else '(some %d)' % t, el)
    elif dec in ('SEQUENCE_decode_ber', 'CHOICE_decode_ber'):
        mem = [split(x.strip()[1:-1]) for x in split(find(p[8], g)[1][0])]
        assert len(mem) == int(p[9])
        spc = split(find(p[10].lstrip('&'), g)[1][0])
        mapsym = next(x for x in spc if 'tag2el' in x)
        assert spc[-1] == '-1', spc
        m2 = [split(x.strip()[1:-1]) for x in split(find(mapsym, g)[1][0])]
        t2e = {i: [] for i in range(len(mem))}
        for e in m2: t2e[int(e[1])].append(tagnum(e[0]))
        if dec == 'CHOICE_decode_ber':
            allt = [tagnum(e[0]) for e in m2]
            if len(allt) != len(set(allt)): print('AMBIGUOUS', sym, allt, file=sys.stderr)
        ss = '.nil'
        cc = '.nil'
        assert con == ('SEQUENCE_constraint' if dec[0] == 'S' else 'CHOICE_constraint'), con
        run = 0
        for i in reversed(range(len(mem))):
            q = mem[i]
            o = int(q[1])
            run = run + 1 if o else 0
            assert o == run or dec == 'CHOICE_decode_ber', (sym, i, o, run)
            el = emit(q[5].lstrip('&'), g)
            own, cc1 = memcon(gen(q[7]), g, cname(el))
            ccites += cc1
            cc = '.cons %s %s %s <|\n    %s' % ('true' if o else 'false', 'true' if own else 'false', own or cname(el), cc)
            t = tagnum(q[3])
            mode = {'0': '.none', '-1': '.implicit', '+1': '.explicit'}[q[4]]
            ss = '.cons ⟨%s, %s, %s, %s, %s⟩ %s <|\n    %s' % ('none' if t is None else 'some %d' % t, mode, 'true' if o else 'false',
                'true' if 'ATF_ANY_TYPE' in q[0] else 'false', L(t2e[i]), el, ss)
        ss = ss.replace('<|\n    .nil', '.nil') if False else ss
        cites.append(mcite(p[8], g)); cites.append(mcite(mapsym, g))
        c = '.%s <|\n    %s' % ('seq' if dec[0] == 'S' else 'choice', cc)
        d = '.%s %s <|\n    %s' % ('seq' if dec[0] == 'S' else 'choice', L(tg), ss)
    else:
        raise Exception('%s: decoder %s' % (sym, dec))
    names[key] = name
    out.append('/-- %s -/\ndef %s : Ty :=\n  %s\n' % (',\n'.join(cites), name, d))
    cout.append('/-- %s -/\ndef %s : Con :=\n  %s\n' % (',\n'.join([cite] + ccites), cname(name), c))
    return name

roots = ['ContentInfo', 'SignedData', 'SignedDataPKCS7', 'OBJECT_IDENTIFIER', 'MessageDigest', 'ContentTypePKCS7', 'RouteOriginAttestation', 'Manifest', 'IPAddrBlocks', 'ASIdentifiers']
roots += sys.argv[1:]
for r in roots:
    emit('asn_DEF_' + r, r + '.c')
RENAME = {'iPAddrBlocksIpAddrBlocks': 'ipAddrBlocksExt'}
def fix(t):
    for a, b in RENAME.items(): t = t.replace(a, b)
    return t
O = os.path.dirname(os.path.abspath(__file__)) + '/../lean/Verif/Asn/'
open(O + 'Types.lean', 'w').write(fix('''import Verif.Asn.Model
/-
The types that are decoded. Generated by tools/asn_gen.py from the type descriptors.
-/
namespace Verif.Asn

''' + '\n'.join(out) + '\nend Verif.Asn\n'))
open(O + 'Cons.lean', 'w').write(fix('''import Verif.Asn.ModelCon
/-
The constraints of the types that are decoded. Generated by tools/asn_gen.py from the type descriptors.
-/
namespace Verif.Asn

''' + '\n'.join(cout) + '\nend Verif.Asn\n'))
