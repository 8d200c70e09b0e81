"""Differential test of Verif/Model/Cpython.lean against the running interpreter (a test, not a proof).
Writes cases to /tmp/cpy_cases.txt and a Lean script /tmp/cpy_test.lean; run the latter with `lake env lean --run` in lean/."""
import random, re, unicodedata as u
R = random.Random(1)
ALL = [c for c in range(0x110000) if not 0xD800 <= c < 0xE000]
pool_case = [c for c in ALL if chr(c).lower() != chr(c) or chr(c).upper() != chr(c)] + [0x3a3] * 1500 + [0x307, 0x27, 0xad, 0x2e, 0x20, 0x300] * 100
zeros = [c for c in ALL if u.decimal(chr(c), None) == 0]
spaces = [c for c in ALL if chr(c).isspace()]
def ok(f, s):
    try: f(s); return 1
    except ValueError: return 0
rom = re.compile('I|V|X|L|C|D|M', re.I)
def row(s):
    return [ord(x) for x in s], [ord(x) for x in s.lower()], ok(int, s), ok(float, s)
cases = []
for c in ALL:
    if c < 0x3000 or chr(c).lower() != chr(c) or c % 97 == 0 or chr(c).isspace() or u.decimal(chr(c), None) is not None: cases.append(row(chr(c)))
for _ in range(20000): cases.append(row(''.join(chr(R.choice(pool_case)) for _ in range(R.randint(1, 6)))))
nums = '0123456789' * 2 + '__..eE+-  \t\n\x1c\x85infatyINFATY,\x7f?'
def numch():
    r = R.random()
    if r < .9: return R.choice(nums)
    if r < .95: return chr(R.choice(zeros) + R.randint(0, 9))
    return chr(R.choice(spaces))
for _ in range(60000): cases.append(row(''.join(numch() for _ in range(R.randint(0, 7)))))
for _ in range(30000):   # near-valid numbers
    s = R.choice(['', ' ', '\u3000', '\t']) + R.choice(['', '+', '-']) + R.choice(['1', '12', '1_2', '', 'inf', 'nan', 'Infinity', '1__2', '_1', '1_']) + R.choice(['', '.', '.5', '.5_0', '._5', '_.5']) + R.choice(['', '', 'e5', 'E+5', 'e-5_0', 'e', 'e+', 'e_5']) + R.choice(['', '', ' ', '\n', '\x1c', '\u2003', 'x'])
    cases.append(row(s))
for k in (4299, 4300, 4301):
    cases.append(row('1' * k)); cases.append(row('0' * k)); cases.append(row(' -' + '1_' * (k - 1) + '1 '))
with open('/tmp/cpy_cases.txt', 'w') as f:
    for a, b, i, fl in cases: f.write(' '.join(map(str, a)) + '|' + ' '.join(map(str, b)) + '|%d|%d\n' % (i, fl))
with open('/tmp/cpy_chars.txt', 'w') as f:
    for c in ALL:
        x = chr(c); n = (u.name(x, None) if x.isalpha() else 'x')
        m = rom.match(x); 
        f.write('%d %d %d %d %d %d\n' % (c, x.isalpha(), x.isspace(), u.category(x)[0] == 'P', 2 if not x.isalpha() else (0 if n is None else (3 if 'LATIN' in n else 1)), bool(m)))
open('/tmp/cpy_test.lean', 'w').write('''import Verif.Model.Cpython
open Verif Verif.Cpython
def nums (s : String) : Str := (s.splitOn " ").filterMap fun x => x.toNat?.map Char.ofNat
def main : IO Unit := do
  let mut bad := 0
  let mut n := 0
  for l in (← IO.FS.lines "/tmp/cpy_cases.txt") do
    match l.splitOn "|" with
    | [a, b, i, f] =>
      n := n + 1
      let w := nums a
      if lower w != nums b || isInt w != (i == "1") || isFloat w != (f == "1") then
        bad := bad + 1
        if bad < 20 then IO.println s!"DIFF {l} lower {(lower w).map Char.toNat} int {isInt w} float {isFloat w}"
    | _ => IO.println s!"BAD {l}"
  for l in (← IO.FS.lines "/tmp/cpy_chars.txt") do
    match (l.splitOn " ").filterMap String.toNat? with
    | [c, a, s, p, nm, r] =>
      n := n + 1
      let ch := Char.ofNat c
      let name := if !isAlpha ch then 2 else match charName ch with
        | none => 0
        | some x => if x == c!"LATIN" then 3 else 1
      if isAlpha ch != (a == 1) || isSpace ch != (s == 1) || isPunct ch != (p == 1) || name != nm || (c!"MDCLXVI").contains (reFold ch) != (r == 1) then
        bad := bad + 1
        if bad < 40 then IO.println s!"DIFFCHAR {l}"
    | _ => IO.println s!"BAD {l}"
  IO.println s!"{n} cases, {bad} differences"
''')
print(len(cases))
