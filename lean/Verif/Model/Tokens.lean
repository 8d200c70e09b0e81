/-
Model of /repo/pymorphy2/tokenizers.py.
-/
import Verif.Model.Shapes

namespace Verif

/-- tokenizers.py:6: the characters `([^\w_-]|[+])` matches; `isWord` is `\w`. -/
def isSepChar (isWord : Char → Bool) (c : Char) : Bool := !(isWord c || c == '_' || c == '-') || c == '+'

/-- `re.split` with a capturing group around a one-character pattern: the pieces between the matches (possibly empty) and the matches
themselves, in order. -/
def reSplit (sep : Char → Bool) : Str → List Str
  | [] => [[]]
  | c :: cs => if sep c then [] :: [c] :: reSplit sep cs else consHead c (reSplit sep cs)

/-- tokenizers.py:8-13 `simple_word_tokenize` -/
def simpleWordTokenize (isWord : Char → Bool) (e : Env) (text : Str) : List Str :=
  (reSplit (isSepChar isWord) text).filter fun t => !t.isEmpty && !isSpaceStr e t

end Verif
