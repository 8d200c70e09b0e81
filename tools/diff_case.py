"""Differential test of Verif/Model/CpythonCase.lean against the running interpreter (a test, not a proof).
Writes cases to /tmp/cpc_cases.txt and a Lean script /tmp/cpc_test.lean; run the latter with `lake env lean --run` in lean/."""
import random
R = random.Random(2)
ALL = [c for c in range(0x110000) if not 0xD800 <= c < 0xE000]
pool = [c for c in ALL if chr(c).lower() != chr(c) or chr(c).upper() != chr(c) or chr(c).islower() or chr(c).isupper()] + [0x3a3] * 300 + [0x307, 0x27, 0xad, 0x2e, 0x20, 0x300, 0x2d] * 100 + [0x130, 0x1c4, 0x1f0, 0x390, 0x149, 0x1f88] * 50
cases = [chr(c) for c in ALL if c < 0x3000 or c in set(pool) or c % 97 == 0]
for _ in range(60000): cases.append(''.join(chr(R.choice(pool)) for _ in range(R.randint(0, 6))))
for _ in range(30000): cases.append(''.join(R.choice('abАбВг-1 \u01c4\u01c5\u01c6Σσς\u0130\u0149ßΐ') for _ in range(R.randint(0, 8))))
for _ in range(20000): cases.append(R.choice([str.title, str.upper, str.lower])(''.join(chr(R.choice(pool)) for _ in range(R.randint(0, 5)))))
n = lambda s: ' '.join(str(ord(x)) for x in s)
with open('/tmp/cpc_cases.txt', 'w') as f:
    for s in cases: f.write('|'.join([n(s), n(s.lower()), n(s.upper()), n(s.title()), str(int(s.islower())), str(int(s.isupper())), str(int(s.istitle()))]) + '\n')
open('/tmp/cpc_test.lean', 'w').write('''import Verif.Model.CpythonCase
open Verif Verif.Cpython
def nums (s : String) : Str := (s.splitOn " ").filterMap fun x => x.toNat?.map Char.ofNat
def main : IO Unit := do
  let mut bad := 0
  let mut n := 0
  for l in (← IO.FS.lines "/tmp/cpc_cases.txt") do
    match l.splitOn "|" with
    | [a, lo, up, ti, il, iu, it] =>
      n := n + 1
      let w := nums a
      if cpythonCase.lower w != nums lo || cpythonCase.upper w != nums up || cpythonCase.title w != nums ti || cpythonCase.isLower w != (il == "1") ||
          cpythonCase.isUpper w != (iu == "1") || cpythonCase.isTitle w != (it == "1") then
        bad := bad + 1
        if bad < 20 then IO.println s!"DIFF {l} | {(cpythonCase.lower w).map Char.toNat} {(cpythonCase.upper w).map Char.toNat} {(cpythonCase.title w).map Char.toNat} {cpythonCase.isLower w} {cpythonCase.isUpper w} {cpythonCase.isTitle w}"
    | _ => IO.println s!"BAD {l}"
  IO.println s!"{n} cases, {bad} differences"
''')
print(len(cases))
