/-
Model of /repo/pymorphy2/shapes.py:102-165 `restore_capitalization`.
-/
import Verif.Base
import Verif.Model.Env

namespace Verif

/-- The case methods of Python strings. -/
structure CaseEnv where
  lower : Str → Str
  upper : Str → Str
  title : Str → Str
  isLower : Str → Bool
  isUpper : Str → Bool
  isTitle : Str → Bool

/-- shapes.py:157-165 `_make_the_same_case` -/
def CaseEnv.sameCase (c : CaseEnv) (word example_ : Str) : Str :=
  if c.isLower example_ then c.lower word
  else if c.isUpper example_ then c.upper word
  else if c.isTitle example_ then c.title word
  else c.lower word

/-- shapes.py:137-141: the loop over the parts of the word. -/
def CaseEnv.restoreParts (c : CaseEnv) : List Str → List Str → List Str
  | [], _ => []
  | p :: ps, [] => c.lower p :: c.restoreParts ps []
  | p :: ps, e :: es => c.sameCase p e :: c.restoreParts ps es

/-- shapes.py:102-145 `restore_capitalization` -/
def CaseEnv.restore (c : CaseEnv) (word example_ : Str) : Str :=
  if '-' ∈ example_ then joinC '-' (c.restoreParts (splitC '-' word) (splitC '-' example_))
  else c.sameCase word example_

/-- Upper case of an ASCII or Russian letter; the identity otherwise (for examples). -/
def upperChar (c : Char) : Char :=
  let n := c.toNat
  if 97 ≤ n ∧ n ≤ 122 then Char.ofNat (n - 32)
  else if 1072 ≤ n ∧ n ≤ 1103 then Char.ofNat (n - 32)
  else if 1104 ≤ n ∧ n ≤ 1119 then Char.ofNat (n - 80)
  else if c = 'ґ' then 'Ґ' else c

def isCased (c : Char) : Bool := lowerChar c != c || upperChar c != c

/-- `str.title()`: a letter after a letter is lower-cased, any other letter upper-cased. -/
def titleFrom : Bool → Str → Str
  | _, [] => []
  | afterLetter, c :: s => (if afterLetter then lowerChar c else upperChar c) :: titleFrom (isCased c) s

/-- `str.istitle()` -/
def titleOk : Bool → Bool → Str → Bool
  | _, found, [] => found
  | afterLetter, found, c :: s =>
    if isCased c then (if afterLetter then decide (lowerChar c = c) else decide (upperChar c = c)) && titleOk true true s
    else titleOk false found s

/-- Case methods for ASCII and Russian letters (for examples). -/
def demoCase : CaseEnv where
  lower := fun s => s.map lowerChar
  upper := fun s => s.map upperChar
  title := titleFrom false
  isLower := fun s => s.any isCased && s.all fun c => lowerChar c = c
  isUpper := fun s => s.any isCased && s.all fun c => upperChar c = c
  isTitle := titleOk false false

end Verif
