/-
The Python runtime facts the modelled code depends on, and the laws about them that theorems may assume.
-/
import Verif.Base

namespace Verif

/-- Interpreter facts used by pymorphy2.  None of these is defined in /repo; they are parameters of the model. -/
structure Env where
  /-- `str.lower` -/
  lower : Str → Str
  /-- `str.isalpha` of a character -/
  isAlpha : Char → Bool
  /-- `str.isspace` of a character -/
  isSpace : Char → Bool
  /-- `unicodedata.category(ch)[0] == 'P'` -/
  isPunct : Char → Bool
  /-- `unicodedata.name(ch)`; `none` when the character has no name (then Python raises `ValueError`) -/
  charName : Char → Option Str
  /-- does `int(word)` succeed (otherwise `ValueError`) -/
  isInt : Str → Bool
  /-- does `float(word)` succeed (otherwise `ValueError`) -/
  isFloat : Str → Bool
  /-- case folding used by `re.IGNORECASE`: a pattern letter `p` (upper case) matches `c` iff `reFold c = p` -/
  reFold : Char → Char

/-- `str.lower` is stable on every substring of a lower-cased string.  (In CPython lower-casing is
character-wise except for capital sigma, which does not occur in a lower-cased string, and the
character mapping is idempotent.) -/
def Env.LowerStable (e : Env) : Prop := ∀ w x : Str, x <:+: e.lower w → e.lower x = x

/-- A small concrete environment used for non-vacuity examples: ASCII/Cyrillic lower-casing by code point. -/
def lowerChar (c : Char) : Char :=
  let n := c.toNat
  if 65 ≤ n ∧ n ≤ 90 then Char.ofNat (n + 32)
  else if 0x410 ≤ n ∧ n ≤ 0x42F then Char.ofNat (n + 32)
  else if 0x400 ≤ n ∧ n ≤ 0x40F then Char.ofNat (n + 80)
  else if n = 0x490 then Char.ofNat 0x491
  else c

def isAsciiLetter (c : Char) : Bool :=
  let n := c.toNat
  (65 ≤ n && n ≤ 90) || (97 ≤ n && n ≤ 122)

def isCyrLetter (c : Char) : Bool :=
  let n := c.toNat
  (0x410 ≤ n && n ≤ 0x44F) || n == 0x401 || n == 0x451

/-- A concrete environment: ASCII + basic Cyrillic.  U+3006 plays the role of an alphabetic character
without a name (real examples exist in every Unicode version newer than the interpreter's database). -/
def demoEnv : Env where
  lower := List.map lowerChar
  isAlpha := fun c => isAsciiLetter c || isCyrLetter c || c.toNat == 0x3006
  isSpace := fun c => c == ' ' || c == '\n' || c == '\t'
  isPunct := fun c => c == '.' || c == ',' || c == '-' || c == '!' || c == ':'
  charName := fun c =>
    if isAsciiLetter c then some (c!"LATIN LETTER")
    else if isCyrLetter c then some (c!"CYRILLIC LETTER") else none
  isInt := fun s => !s.isEmpty && s.all (fun c => '0' ≤ c && c ≤ '9')
  isFloat := fun s => !s.isEmpty && s.all (fun c => ('0' ≤ c && c ≤ '9') || c == '.') && s.any (fun c => '0' ≤ c && c ≤ '9')
  reFold := fun c => if 97 ≤ c.toNat ∧ c.toNat ≤ 122 then Char.ofNat (c.toNat - 32) else c

end Verif
