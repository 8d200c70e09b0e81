/-
Model of the rest of /repo/pymorphy2/tagset.py: initialisation of the tag class, translation of tags, category attributes.
-/
import Verif.Model.Inflect
import Mathlib.Data.Finset.Union

namespace Verif

/-! ### Initialisation -/

/-- One entry of a grammeme table, `(name, parent, alias, description)`; the description is not used by the modelled code.
A missing parent is `None` or `''`. -/
structure GramRow where
  name : Str
  parent : Option Str
  alias_ : Str
  deriving DecidableEq

/-- Python truthiness of a parent. -/
def truthy : Option Str → Option Str
  | some (c :: s) => some (c :: s)
  | _ => none

/-- tagset.py:452 `gr = dict((name, parent) ...)` (later entries win), then `gr.get(n)` if it is true. -/
def parentOf (rows : List GramRow) (n : Str) : Option Str :=
  truthy ((rows.reverse.find? fun r => r.name = n).bind GramRow.parent)

/-- tagset.py:455-460: `children[g]`, the grammemes whose parent or grandparent is `g`. -/
def kids (rows : List GramRow) (g : Str) : Grams :=
  ((rows.filter fun r => truthy r.parent = some g ∨ r.parent.bind (parentOf rows) = some g).map GramRow.name).toFinset

/-- `children[parent]`; there are no entries under `None`. -/
def kidsOf (rows : List GramRow) : Option Str → Grams
  | some g => kids rows g
  | none => ∅

/-- tagset.py:446-450: the known grammemes and the translation tables are rebuilt from scratch. -/
def TagCls.initKnown (c : TagCls) (rows : List GramRow) : TagCls :=
  rows.foldl (fun c r => c.addKnown r.name r.alias_) { c with known := ∅, lat2cyr := [], cyr2lat := [] }

/-- tagset.py:463-465: every member of the set is replaced by itself and its children (the set iterated over is a copy). -/
def TagCls.expandExtra (c : TagCls) (rows : List GramRow) : TagCls :=
  { c with extraPlur := c.extraPlur ∪ c.extraPlur.biUnion (kids rows) }

/-- tagset.py:470-473: `(extra | children[parent]) - {name}` -/
def incompatRow (extra : Grams) (rows : List GramRow) (r : GramRow) : Grams :=
  ((if r.name = c!"plur" then extra else ∅) ∪ kidsOf rows r.parent).erase r.name

/-- tagset.py:468-473, the loop over the table. -/
def TagCls.fillRows (rows : List GramRow) : List (GramRow × Nat) → TagCls → TagCls
  | [], c => c
  | (r, i) :: rest, c => TagCls.fillRows rows rest
    { c with
      indices := fun g => if g = r.name then i else c.indices g
      incompat := fun g => if g = r.name then incompatRow c.extraPlur rows r else c.incompat g }

/-- tagset.py:433-473 `_init_grammemes` -/
def TagCls.init (c : TagCls) (rows : List GramRow) : TagCls :=
  TagCls.fillRows rows rows.zipIdx ((c.initKnown rows).expandExtra rows)

/-- The class after a sequence of loads. -/
def TagCls.loads (c : TagCls) (history : List (List GramRow)) : TagCls := history.foldl TagCls.init c

/-! ### Translation -/

/-- `s.split()`: the maximal runs of characters that are not white space. -/
def splitWs (isSpace : Char → Bool) : Str → List Str
  | [] => []
  | c :: cs =>
    if isSpace c then splitWs isSpace cs
    else match cs with
      | [] => [[c]]
      | d :: _ => if isSpace d then [c] :: splitWs isSpace cs else consHead c (splitWs isSpace cs)

/-- tagset.py:594-596 `_translate_comma_separated` -/
def translateComma (mapping : List (Str × Str)) (part : Str) : Str :=
  joinC ',' ((splitC ',' part).map fun tok => (dictGet tok mapping).getD tok)

/-- tagset.py:580-591 `_translate_tag` -/
def translateTag (isSpace : Char → Bool) (mapping : List (Str × Str)) (tag : Str) : Str :=
  joinC ' ' ((splitWs isSpace tag).map (translateComma mapping))

/-- tagset.py:322-325 `cyr2lat` -/
def TagCls.toLat (c : TagCls) (isSpace : Char → Bool) (tag : Str) : Str := translateTag isSpace c.cyr2lat tag

/-- tagset.py:327-330 `lat2cyr` -/
def TagCls.toCyr (c : TagCls) (isSpace : Char → Bool) (tag : Str) : Str := translateTag isSpace c.lat2cyr tag

/-- tagset.py:311 `self._LAT2CYR[g]` -/
def TagCls.cyrOf (c : TagCls) (g : Str) : Except PyErr Str :=
  match dictGet g c.lat2cyr with
  | some a => .ok a
  | none => .error .keyError

/-- tagset.py:307-313 `grammemes_cyr` -/
def TagCls.grammemesCyr (c : TagCls) (t : Tag) : Except PyErr Grams := do
  let l ← mapE c.cyrOf t.tuple
  pure l.toFinset

/-! ### Category attributes -/

/-- tagset.py:29-42: `tag.<category> == other` with `typed_grammemes`; `none` stands for `None`. -/
def attrEq (cat : Grams) (value other : Option Str) : Except PyErr Bool :=
  match value with
  | none => .ok (decide (other = none))
  | some g => match other with
    | none => .ok false
    | some o => if o ∈ cat then .ok (decide (g = o)) else .error .valueError

end Verif
