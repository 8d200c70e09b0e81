/-
`\w` of CPython 3.11 for /repo/pymorphy2/tokenizers.py:6.
-/
import Verif.Model.Cpython
import Verif.Model.Tokens
import Verif.Model.UnicodeWord

namespace Verif.Cpython

open Verif.Unicode

/-- `\w` with `re.UNICODE`, tokenizers.py:6 (`sre_category_to_unicode`: alphanumeric characters and the underscore). -/
def isWord (c : Char) : Bool := inTable wordTable c

/-- tokenizers.py:8-13 `simple_word_tokenize` on CPython -/
def tokenize (text : Str) : List Str := simpleWordTokenize isWord cpython text

end Verif.Cpython
