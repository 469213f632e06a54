"""Writes lean/Verif/NormalizeData.lean from the tables of the repository.

usage: python3 normalize_data.py /repo > ../lean/Verif/NormalizeData.lean
"""
import re
import sys

src = open(sys.argv[1] + '/src/runtime/unicodelib/py_unicodedata_db.h').read()


def arr(decl):
    i = src.index(decl)
    j = src.index('};', i)
    return [int(x) for x in re.findall(r'-?\d+', re.sub(r'/\*.*?\*/', '', src[i + len(decl):j]))]


rec = arr('_PyUnicode_Database_Records[] = {')
rec = [rec[i:i + 6] for i in range(0, len(rec), 6)]
index1 = arr('static const unsigned short index1[] = {')
index2 = arr('static const unsigned short index2[] = {')
dd = arr('static const unsigned int decomp_data[] = {')
di1 = arr('static const unsigned char decomp_index1[] = {')
di2 = arr('static const unsigned short decomp_index2[] = {')
ci = arr('static const unsigned short comp_index[] = {')
cd = arr('static const unsigned int comp_data[] = {')


def reidx(n):
    a = arr('static struct reindex %s[] = {' % n)
    a = [tuple(a[k:k + 3]) for k in range(0, len(a), 3)]
    return a[:a.index((0, 0, 0))]


first, last = reidx('nfc_first'), reidx('nfc_last')
total_first, total_last = 376, 62

ranges = []
prev = None
for c in range(0x110000):
    r = rec[index2[(index1[c >> 7] << 7) + (c & 127)]]
    v = (r[1], r[5])
    if prev and prev[0] == v:
        prev[2] = c
    else:
        prev = [v, c, c]
        ranges.append(prev)
ranges = [(a, b, v[0] + 256 * v[1]) for v, a, b in ranges if v != (0, 0)]

dec = []
for c in range(0x110000):
    k = di2[(di1[c >> 7] << 7) + (c & 127)]
    l = dd[k + 1:k + 1 + (dd[k] >> 8)]
    if l:
        assert 0 not in l
        dec.append((c, (1 if dd[k] & 255 else 0) + 2 * sum(x << (21 * i) for i, x in enumerate(l))))

pairs = []
for ix in range(total_first * total_last):
    p = cd[(ci[ix >> 2] << 2) + (ix & 3)]
    if p:
        pairs.append((ix, p))

defs = []


def tree(name, kind, entries, depth, path):
    if not entries:
        return '.nil'
    m = len(entries) // 2
    l = tree(name, kind, entries[:m], depth + 1, path + '0')
    r = tree(name, kind, entries[m + 1:], depth + 1, path + '1')
    e = ' '.join('(nat_lit %d)' % x for x in entries[m])
    t = '.node %s %s %s' % (l if l[0] != '.' or l == '.nil' else '(%s)' % l, e,
                            r if r[0] != '.' or r == '.nil' else '(%s)' % r)
    if depth > 0 and 64 < len(entries) <= 128:
        defs.append('def %s%s : %s :=\n  %s' % (name, path, kind, t))
        return name + path
    return t


def emit(name, kind, doc, entries):
    global defs
    defs = []
    t = tree(name, kind, entries, 0, '')
    for d in defs:
        print(d)
        print()
    print('/-- %s -/' % doc)
    print('def %s : %s :=\n  %s' % (name, kind, t))
    print()


print('''import Verif.NormalizeTree

/-! The tables of `src/runtime/unicodelib/py_unicodedata_db.h`, written by
`scripts/normalize_data.py`.  Entries that are zero are left out. -/

namespace Verif.Normalize
''')
emit('classT', 'RTree', '`combining + 256 * normalization_quick_check` of `_PyUnicode_Database_Records`, by ranges.', ranges)
emit('decT', 'Tree', '`decomp_data`: the lowest bit tells whether `prefix` is not zero, then 21 bits for each character.', dec)
emit('pairT', 'Tree', '`comp_data`, by `f * TOTAL_LAST + l`.', pairs)
for n, t in (('nfcFirst', first), ('nfcLast', last)):
    print('/-- `%s`: `start`, `count`, `index`. -/' % {'nfcFirst': 'nfc_first', 'nfcLast': 'nfc_last'}[n])
    print('def %s : List (Nat × Nat × Nat) :=\n  [%s]' % (n, ', '.join('(%d, %d, %d)' % x for x in t)))
    print()
print('end Verif.Normalize')
