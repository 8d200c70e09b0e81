/-
Model of /repo/pymorphy2/shapes.py: `is_latin`, `is_punctuation`, `is_roman_number`.
-/
import Verif.Model.Env

namespace Verif

/-- shapes.py:10-18 `is_latin_char` (the cache is transparent, see C51).  `unicodedata.name` raises
`ValueError` for a character without a name. -/
def isLatinChar (e : Env) (c : Char) : Except PyErr Bool :=
  match e.charName c with
  | some n => .ok (isSub (c!"LATIN") n)
  | none => .error .valueError

/-- shapes.py:40 `all(is_latin_char(ch) for ch in token if ch.isalpha())`, left to right, stopping at the
first non-Latin letter. -/
def allLatin (e : Env) : Str → Except PyErr Bool
  | [] => .ok true
  | c :: cs =>
    if e.isAlpha c then do
      let b ← isLatinChar e c
      if b then allLatin e cs else pure false
    else allLatin e cs

/-- shapes.py:21-41 `is_latin` -/
def isLatin (e : Env) (token : Str) : Except PyErr Bool :=
  if token.any e.isAlpha then allLatin e token else .ok false

/-- `str.isspace` of a string: non-empty and all characters are spaces. -/
def isSpaceStr (e : Env) (s : Str) : Bool := !s.isEmpty && s.all e.isSpace

/-- shapes.py:44-68 `is_punctuation` -/
def isPunctuation (e : Env) (token : Str) : Bool :=
  !token.isEmpty && !isSpaceStr e token && token.all (fun c => e.isSpace c || e.isPunct c)

/-- A regular expression alternative `(a1|a2|..)` followed by the rest of the pattern (with backtracking):
some alternative is a prefix of the input and the rest of the pattern matches what follows. -/
def reAlt (alts : List Str) (k : Str → Bool) (s : Str) : Bool :=
  alts.any fun a => a.isPrefixOf s && k (s.drop a.length)

/-- `$` without MULTILINE: at the end, or just before a final newline. -/
def reEnd (s : Str) : Bool := s == [] || s == ['\n']

/-- shapes.py:73 `M{0,4}` -/
def romanThousands : List Str := [c!"MMMM", c!"MMM", c!"MM", c!"M", c!""]
/-- shapes.py:74 `(CM|CD|D?C{0,3})` -/
def romanHundreds : List Str := [c!"CM", c!"CD", c!"DCCC", c!"DCC", c!"DC", c!"D", c!"CCC", c!"CC", c!"C", c!""]
/-- shapes.py:76 `(XC|XL|L?X{0,3})` -/
def romanTens : List Str := [c!"XC", c!"XL", c!"LXXX", c!"LXX", c!"LX", c!"L", c!"XXX", c!"XX", c!"X", c!""]
/-- shapes.py:78 `(IX|IV|V?I{0,3})` -/
def romanOnes : List Str := [c!"IX", c!"IV", c!"VIII", c!"VII", c!"VI", c!"V", c!"III", c!"II", c!"I", c!""]

/-- shapes.py:72-81 `ROMAN_NUMBERS_RE.match(token) is not None`; each `X?`/`X{0,n}` is expanded into its
finitely many alternatives in greedy order; `re.IGNORECASE` is the character folding `reFold`. -/
def romanMatch (s : Str) : Bool :=
  reAlt romanThousands (reAlt romanHundreds (reAlt romanTens (reAlt romanOnes reEnd))) s

/-- shapes.py:83-99 `is_roman_number` -/
def isRomanNumber (e : Env) (token : Str) : Bool :=
  if token.isEmpty then false else romanMatch (token.map e.reFold)

end Verif
