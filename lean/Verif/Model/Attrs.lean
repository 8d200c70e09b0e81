/-
The grammeme attributes of a tag: tagset.py:286-298.
-/
import Verif.Model.Inflect
import Verif.Model.TagInit

namespace Verif

/-- The attributes of a tag for grammeme categories, tagset.py:287-298. -/
inductive Attr
  | pos | animacy | aspect | case | gender | involvement | mood | number | person | tense | transitivity | voice
  deriving DecidableEq

/-- tagset.py:287-298: the category each attribute selects from. -/
def Attr.cat : Attr → Grams
  | .pos => PARTS_OF_SPEECH
  | .animacy => ANIMACY
  | .aspect => ASPECTS
  | .case => CASES
  | .gender => GENDERS
  | .involvement => INVOLVEMENT
  | .mood => MOODS
  | .number => NUMBERS
  | .person => PERSONS
  | .tense => TENSES
  | .transitivity => TRANSITIVITY
  | .voice => VOICES

/-- tagset.py:46-54: `getattr(tag, name)`. -/
def Tag.attr (pick : Grams → Option Str) (t : Tag) (a : Attr) : Option Str := t.category pick a.cat

/-- `getattr(tag, name) == other`, tagset.py:30-36 (with `typed_grammemes`, the default, tagset.py:221). -/
def Tag.attrIs (pick : Grams → Option Str) (t : Tag) (a : Attr) (other : Option Str) : Except PyErr Bool := attrEq a.cat (t.attr pick a) other

/-- `getattr(tag, name) != other`: tagset.py:38-39; for `None` it is Python's own. -/
def Tag.attrIsNot (pick : Grams → Option Str) (t : Tag) (a : Attr) (other : Option Str) : Except PyErr Bool := do
  let b ← t.attrIs pick a other
  pure !b

/-- `getattr(tag, name) in l` for a list or tuple `l` of strings: compared one after another, up to the first equal one. -/
def Tag.attrIn (pick : Grams → Option Str) (t : Tag) (a : Attr) : List Str → Except PyErr Bool
  | [] => .ok false
  | o :: os => do
    let b ← t.attrIs pick a (some o)
    if b then pure true else t.attrIn pick a os

/-- tagset.py:373-374 `__len__` -/
def Tag.len (t : Tag) : Nat := t.tuple.length

/-- tagset.py:354-355 `__repr__` -/
def Tag.repr (t : Tag) : Str := c!"OpencorporaTag('" ++ t.str ++ c!"')"

end Verif
