"""Generates lean/Verif/Model/UnicodeData.lean from the interpreter that runs it (CPython 3.11, Unicode 14.0)."""
import unicodedata as u, sys
ALL = [c for c in range(0x110000) if not 0xD800 <= c < 0xE000]   # no lone surrogates
def rng(pred):
    out = []
    for c in ALL:
        if pred(chr(c)):
            if out and out[-1][1] == c - 1: out[-1][1] = c
            else: out.append([c, c])
    return out
S = '\u03a3'
cased = lambda x: (x + S).lower()[-1] == '\u03c2'
ign = lambda x: not cased(x) and ('A' + x + S).lower()[-1] == '\u03c2'
low = {c: [ord(x) for x in chr(c).lower()] for c in ALL if chr(c).lower() != chr(c) and chr(c) != S}
assert [c for c in low if len(low[c]) > 1] == [0x130] and low[0x130] == [0x69, 0x307]
del low[0x130]
ent = sorted(low); i = 0; R = []
while i < len(ent):
    c = ent[i]; d = low[c][0] - c
    for step in (1, 2):
        j = i
        while j + 1 < len(ent) and ent[j + 1] == ent[j] + step and low[ent[j + 1]][0] - ent[j + 1] == d: j += 1
        if j > i: break
    R.append((c, ent[j], step if j > i else 1, low[c][0])); i = j + 1
chk = {}
for lo, hi, st, to in R:
    for n in range(lo, hi + 1, st): chk[n] = to + n - lo
assert chk == {c: low[c][0] for c in low}
dec = [c for c in ALL if u.decimal(chr(c), None) == 0]
assert all(u.decimal(chr(c + k), None) == k for c in dec for k in range(10))
assert sum(1 for c in ALL if u.decimal(chr(c), None) is not None) == 10 * len(dec)
alpha = rng(str.isalpha)
nameless = rng(lambda x: x.isalpha() and u.name(x, None) is None)
latin = rng(lambda x: x.isalpha() and 'LATIN' in u.name(x, ''))
space = rng(str.isspace); punct = rng(lambda x: u.category(x)[0] == 'P')
def lst(l, per=8):
    items = ['(' + ', '.join(map(str, x)) + ')' if isinstance(x, (list, tuple)) else str(x) for x in l]
    return '[' + (',\n  ').join(', '.join(items[k:k + per]) for k in range(0, len(items), per)) + ']'
T = "List (Nat × Nat)"
out = f'''/-
Generated by tools/gen_unicode.py from CPython {sys.version_info[0]}.{sys.version_info[1]} (Unicode {u.unidata_version}).  Not part of /repo: the facts about characters
that /repo/pymorphy2/shapes.py:10-95, units/by_shape.py:114-124 and analyzer.py:312,331 (`word.lower()`) ask the interpreter for.  Ranges are inclusive.
-/

namespace Verif.Unicode

/-- `str.lower` of a character, where it is another single character: `(lo, hi, step, image of lo)`.  Σ (U+03A3) and İ (U+0130) are treated apart. -/
def lowerTable : List (Nat × Nat × Nat × Nat) :=
 {lst(R)}

/-- Cased characters that are not case-ignorable (they decide the lower case of Σ). -/
def casedTable : {T} :=
 {lst(rng(cased))}

/-- Case-ignorable characters. -/
def ignorableTable : {T} :=
 {lst(rng(ign))}

/-- `str.isalpha` -/
def alphaTable : {T} :=
 {lst(alpha)}

/-- Characters with `isalpha()` for which `unicodedata.name` raises `ValueError`: Tangut ideographs. -/
def namelessTable : {T} :=
 {lst(nameless)}

/-- Letters with `LATIN` in their name. -/
def latinTable : {T} :=
 {lst(latin)}

/-- `str.isspace` -/
def spaceTable : {T} :=
 {lst(space)}

/-- `unicodedata.category(c)[0] == 'P'` -/
def punctTable : {T} :=
 {lst(punct)}

/-- The zeros of the decimal digits: `unicodedata.decimal(c) == k` iff `c` is `k` places after one of them, `k < 10`. -/
def zeros : List Nat :=
 {lst(dec, 16)}

end Verif.Unicode
'''
open('/verif/lean/Verif/Model/UnicodeData.lean', 'w').write(out)
print(len(R), len(alpha), len(dec))
