"""Generates lean/Verif/Model/UnicodeCase.lean from the interpreter that runs it (CPython 3.11, Unicode 14.0)."""
import unicodedata as u, sys
ALL = [c for c in range(0x110000) if not 0xD800 <= c < 0xE000]
def rng(pred):
    out = []
    for c in ALL:
        if pred(chr(c)):
            if out and out[-1][1] == c - 1: out[-1][1] = c
            else: out.append([c, c])
    return out
up = {c: [ord(x) for x in chr(c).upper()] for c in ALL if chr(c).upper() != chr(c)}
special = sorted((c, up[c]) for c in up if len(up[c]) > 1)
single = {c: up[c][0] for c in up if len(up[c]) == 1}
ent = sorted(single); i = 0; R = []
while i < len(ent):
    c = ent[i]; d = single[c] - c
    for step in (1, 2):
        j = i
        while j + 1 < len(ent) and ent[j + 1] == ent[j] + step and single[ent[j + 1]] - ent[j + 1] == d: j += 1
        if j > i: break
    R.append((c, ent[j], step if j > i else 1, single[c])); i = j + 1
chk = {}
for lo, hi, st, to in R:
    for n in range(lo, hi + 1, st): chk[n] = to + n - lo
assert chk == single
title = [(c, [ord(x) for x in chr(c).title()]) for c in ALL if chr(c).title() != chr(c).upper()]
lowp = rng(str.islower); upp = rng(str.isupper); tit = rng(lambda x: x.istitle() and not x.isupper())
def lst(l, per=8):
    def it(x):
        if isinstance(x, (list, tuple)):
            b = '()' if not (len(x) == 2 and isinstance(x[1], list)) else None
            if b is None: return '(%d, [%s])' % (x[0], ', '.join(map(str, x[1])))
            return '(' + ', '.join(map(str, x)) + ')'
        return str(x)
    items = [it(x) for x in l]
    return '[' + (',\n  ').join(', '.join(items[k:k + per]) for k in range(0, len(items), per)) + ']'
T = "List (Nat × Nat)"
open('/verif/lean/Verif/Model/UnicodeCase.lean', 'w').write(f'''/-
Generated by tools/gen_unicode_case.py from CPython {sys.version_info[0]}.{sys.version_info[1]} (Unicode {u.unidata_version}).  Not part of /repo: what
/repo/pymorphy2/shapes.py:155-163 (`_make_the_same_case`) asks the interpreter for.  Ranges are inclusive.
-/

namespace Verif.Unicode

/-- `str.upper` of a character, where it is another single character: `(lo, hi, step, image of lo)`. -/
def upperTable : List (Nat × Nat × Nat × Nat) :=
 {lst(R)}

/-- `str.upper` of a character, where it is several characters. -/
def upperSpecial : List (Nat × List Nat) :=
 {lst(special)}

/-- `str.title` of a character, where it is not its `str.upper`. -/
def titleTable : List (Nat × List Nat) :=
 {lst(title)}

/-- `str.islower` of a character -/
def islowerTable : {T} :=
 {lst(lowp)}

/-- `str.isupper` of a character -/
def isupperTable : {T} :=
 {lst(upp)}

/-- Title-case characters -/
def istitleTable : {T} :=
 {lst(tit)}

end Verif.Unicode
''')
print(len(R), len(special), len(title), len(lowp), len(upp), len(tit))
frag=[c for c in ALL if (chr(c)+'a').title().title()!=(chr(c)+'a').title() or ('a'+chr(c)+'a').title().title()!=('a'+chr(c)+'a').title()]
print('fragile',[hex(c) for c in frag], len(frag))
