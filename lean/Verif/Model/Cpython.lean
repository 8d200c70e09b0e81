/-
The string functions of CPython 3.11 (Unicode 14.0) that the library calls: a concrete `Env`.  They are not part of /repo; each definition says where /repo calls
the function and which C function it follows.  tools/diff_cpython.py compares them with the interpreter.
-/
import Verif.Model.Env
import Verif.Model.UnicodeData

namespace Verif.Cpython

open Verif.Unicode

/-- Membership in a table of ranges. -/
def inTable (t : List (Nat × Nat)) (c : Char) : Bool := t.any fun r => r.1 ≤ c.toNat && c.toNat ≤ r.2

/-- Simple lower case of a code point (`_PyUnicode_ToLowerFull` without İ). -/
def lowerNat (n : Nat) : Nat :=
  match lowerTable.find? fun r => r.1 ≤ n && n ≤ r.2.1 && (n - r.1) % r.2.2.1 == 0 with
  | some r => r.2.2.2 + (n - r.1)
  | none => n

/-- `_PyUnicode_ToLowerFull`: İ becomes i and a combining dot, any other character becomes one character. -/
def lowerFull (c : Char) : Str := if c = 'İ' then ['i', '\u0307'] else [Char.ofNat (lowerNat c.toNat)]

/-- `handle_capital_sigma` (Objects/unicodeobject.c): Σ is word-final when, case-ignorable characters being skipped, a cased character precedes it and none
follows.  `before` is reversed. -/
def sigmaFinal (before after : Str) : Bool :=
  ((before.dropWhile (inTable ignorableTable)).head?.any (inTable casedTable)) &&
  !((after.dropWhile (inTable ignorableTable)).head?.any (inTable casedTable))

/-- `lower_ucs4` at one position. -/
def lowerAt (before : Str) (c : Char) (after : Str) : Str :=
  if c = 'Σ' then (if sigmaFinal before after then ['ς'] else ['σ']) else lowerFull c

/-- The loop of `do_lower`. -/
def lowerFrom : Str → Str → Str
  | _, [] => []
  | before, c :: s => lowerAt before c s ++ lowerFrom (c :: before) s

/-- `str.lower`, called in analyzer.py:312,331 -/
def lower (w : Str) : Str := lowerFrom [] w

/-- `str.isalpha` of a character, called in shapes.py:39-40 -/
def isAlpha (c : Char) : Bool := inTable alphaTable c

/-- `unicodedata.name`, called in shapes.py:17, for letters.  Only two things matter to the caller: whether there is a name and whether LATIN is in it;
the name is abbreviated accordingly. -/
def charName (c : Char) : Option Str :=
  if inTable namelessTable c then none
  else if inTable latinTable c then some (c!"LATIN") else some (c!"OTHER")

/-- `str.isspace` of a character, called in shapes.py:66-67 and tokenizers.py:13 -/
def isSpace (c : Char) : Bool := inTable spaceTable c

/-- `unicodedata.category(c)[0] == 'P'`, shapes.py:67 -/
def isPunct (c : Char) : Bool := inTable punctTable c

/-- A letter of a pattern compiled with `re.IGNORECASE` (shapes.py:71-81): the pattern letter I also matches İ and ı. -/
def reFold (c : Char) : Char :=
  if c = 'İ' ∨ c = 'ı' then 'I' else if 97 ≤ c.toNat ∧ c.toNat ≤ 122 then Char.ofNat (c.toNat - 32) else c

/-! ### `int()` and `float()`, called in units/by_shape.py:116,120 -/

/-- `_PyUnicode_TransformDecimalAndSpaceToASCII` for one character: white space and decimal digits of all scripts become ASCII, other non-ASCII
characters become `?` (which no number contains). -/
def asciiOf (c : Char) : Char :=
  if c.toNat < 128 then c
  else if isSpace c then ' '
  else match zeros.find? fun z => z ≤ c.toNat && c.toNat < z + 10 with
    | some z => Char.ofNat (48 + (c.toNat - z))
    | none => '?'

/-- `Py_ISSPACE` -/
def cSpace (c : Char) : Bool := c.toNat == 32 || (9 ≤ c.toNat && c.toNat ≤ 13)

/-- `Py_ISDIGIT` -/
def cDigit (c : Char) : Bool := 48 ≤ c.toNat && c.toNat ≤ 57

/-- An optional sign is skipped. -/
def skipSign : Str → Str
  | [] => []
  | c :: s => if c = '+' ∨ c = '-' then s else c :: s

/-- The limit on the number of digits of `int(str)` (`sys.int_info.default_max_str_digits`). -/
def maxDigits : Nat := 4300

/-- The scan of `PyLong_FromString` in base 10: digits, with single underscores between digits.  `prev` is the previous character, `n` the number of digits so far;
the result is the rest and the number of digits. -/
def scanDigits : Char → Nat → Str → Option (Str × Nat)
  | prev, n, [] => if prev = '_' then none else some ([], n)
  | prev, n, c :: s =>
    if c = '_' then (if prev = '_' then none else scanDigits '_' n s)
    else if cDigit c then scanDigits c (n + 1) s
    else if prev = '_' then none else some (c :: s, n)

/-- `PyLong_FromString` and the check that all of the text was used. -/
def intAscii (s : Str) : Bool :=
  match scanDigits '_' 0 (skipSign (s.dropWhile cSpace)) with
  | none => false
  | some (rest, n) => (rest.dropWhile cSpace).isEmpty && decide (n ≤ maxDigits)

/-- Does `int(w)` succeed. -/
def isInt (w : Str) : Bool := intAscii (w.map asciiOf)

/-- `_Py_string_to_number_with_underscores`: underscores only between digits. -/
def underscoresOk : Char → Str → Bool
  | prev, [] => prev != '_'
  | prev, c :: s =>
    if c = '_' then cDigit prev && underscoresOk '_' s
    else (prev != '_' || cDigit c) && underscoresOk c s

/-- ASCII lower case, for `inf` and `nan`. -/
def asciiLower (c : Char) : Char := if 65 ≤ c.toNat ∧ c.toNat ≤ 90 then Char.ofNat (c.toNat + 32) else c

/-- `_Py_dg_strtod` after the mantissa: nothing, or e, an optional sign and digits. -/
def expOk : Str → Bool
  | [] => true
  | c :: s => decide (c = 'e' ∨ c = 'E') && !(skipSign s).isEmpty && (skipSign s).all cDigit

/-- `_Py_dg_strtod` (unsigned): digits, possibly with a point, at least one digit in all; an exponent. -/
def decimalOk (s : Str) : Bool :=
  let a := s.takeWhile cDigit
  match s.dropWhile cDigit with
  | '.' :: r => !(a.isEmpty && (r.takeWhile cDigit).isEmpty) && expOk (r.dropWhile cDigit)
  | r => !a.isEmpty && expOk r

/-- `_PyOS_ascii_strtod` used up the whole text. -/
def floatAscii (s : Str) : Bool :=
  decimalOk (skipSign s) || decide ((skipSign s).map asciiLower ∈ [c!"inf", c!"infinity", c!"nan"])

/-- White space at both ends removed (`PyFloat_FromString`). -/
def strip (s : Str) : Str := ((s.dropWhile cSpace).reverse.dropWhile cSpace).reverse

/-- Does `float(w)` succeed. -/
def isFloat (w : Str) : Bool :=
  let s := strip (w.map asciiOf)
  underscoresOk ' ' s && floatAscii (s.filter (· ≠ '_'))

/-- CPython 3.11. -/
def cpython : Env := { lower, isAlpha, isSpace, isPunct, charName, isInt, isFloat, reFold }

end Verif.Cpython
