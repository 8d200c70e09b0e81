"""Generates lean/Verif/Model/UnicodeWord.lean from the interpreter that runs it (CPython 3.11, Unicode 14.0): the characters matched by \\w."""
import re, sys, unicodedata as u
W = re.compile(r'\w', re.UNICODE)
r = []
for c in range(0x110000):
    if 0xD800 <= c < 0xE000: continue
    assert bool(W.match(chr(c))) == (chr(c).isalnum() or chr(c) == '_')
    if W.match(chr(c)):
        if r and r[-1][1] == c - 1: r[-1][1] = c
        else: r.append([c, c])
items = ['(%d, %d)' % tuple(x) for x in r]
body = ',\n  '.join(', '.join(items[k:k + 8]) for k in range(0, len(items), 8))
open(sys.argv[1], 'w').write(f'''/-
Generated by tools/gen_unicode_word.py from CPython {sys.version_info[0]}.{sys.version_info[1]} (Unicode {u.unidata_version}).  Not part of /repo: the characters that
`\\w` matches in /repo/pymorphy2/tokenizers.py:6.  Ranges are inclusive.
-/

namespace Verif.Unicode

/-- `re.match(r'\\w', c)` -/
def wordTable : List (Nat × Nat) :=
 [{body}]

end Verif.Unicode
''')
