/-
Model of /repo/pymorphy2/tagset.py: the class `OpencorporaTag` and its mutable class state.
-/
import Verif.Base
import Mathlib.Data.Finset.Dedup
import Mathlib.Data.Finset.Basic
import Mathlib.Data.Finset.Lattice.Basic
import Mathlib.Data.Finset.SymmDiff

namespace Verif

/-- A set of grammemes (Python `set`/`frozenset` of strings). -/
abbrev Grams := Finset Str

/-- A tag object.  tagset.py:58-284.  Only `_str` is stored; `_grammemes_tuple`, `_POS` and the
lazy caches are functions of it (the caches are the subject of C51). -/
structure Tag where
  str : Str
  deriving DecidableEq, Repr

/-- tagset.py:275-276 `tag.replace(' ', ',', 1).split(',')` (also preprocess.py:69). -/
def splitTag (s : Str) : List Str := splitC ',' (replaceFirst ' ' ',' s)

/-- tagset.py:276-280 `_grammemes_tuple`. -/
def Tag.tuple (t : Tag) : List Str := splitTag t.str

/-- tagset.py:300-305 `grammemes`. -/
def Tag.grammemes (t : Tag) : Grams := t.tuple.toFinset

/-- tagset.py:281 `_POS` (the tuple is never empty, `str.split` returns at least one piece). -/
def Tag.pos0 (t : Tag) : Str := t.tuple.headD []

/-- tagset.py:358-359, 370-371 `__eq__` / `__hash__`: tags are compared by their grammeme tuples. -/
def Tag.eqv (a b : Tag) : Bool := a.tuple == b.tuple

/-- Lexicographic `<` on Python tuples/strings: tagset.py:364-368 (`__lt__`, `__gt__`). -/
def listLt {α : Type} [DecidableEq α] (lt : α → α → Bool) : List α → List α → Bool
  | [], [] => false
  | [], _ :: _ => true
  | _ :: _, [] => false
  | a :: as, b :: bs => if a = b then listLt lt as bs else lt a b

/-- `str` comparison: by code points. -/
def strLt (a b : Str) : Bool := listLt (fun x y => decide (x.toNat < y.toNat)) a b

/-- tagset.py:364-365 -/
def Tag.lt (a b : Tag) : Bool := listLt strLt a.tuple b.tuple

/-- tagset.py:367-368 -/
def Tag.gt (a b : Tag) : Bool := b.lt a

/-! ### Category constants -/

/-- tagset.py:130-148 -/
def PARTS_OF_SPEECH : Grams := [c!"NOUN", c!"ADJF", c!"ADJS", c!"COMP", c!"VERB", c!"INFN", c!"PRTF",
  c!"PRTS", c!"GRND", c!"NUMR", c!"ADVB", c!"NPRO", c!"PRED", c!"PREP", c!"CONJ", c!"PRCL", c!"INTJ"].toFinset
/-- tagset.py:150-153 -/
def ANIMACY : Grams := [c!"anim", c!"inan"].toFinset
/-- tagset.py:155-159 -/
def GENDERS : Grams := [c!"masc", c!"femn", c!"neut"].toFinset
/-- tagset.py:161-164 -/
def NUMBERS : Grams := [c!"sing", c!"plur"].toFinset
/-- tagset.py:166-179 -/
def CASES : Grams := [c!"nomn", c!"gent", c!"datv", c!"accs", c!"ablt", c!"loct", c!"voct", c!"gen1",
  c!"gen2", c!"acc2", c!"loc1", c!"loc2"].toFinset
/-- tagset.py:181-184 -/
def ASPECTS : Grams := [c!"perf", c!"impf"].toFinset
/-- tagset.py:186-189 -/
def TRANSITIVITY : Grams := [c!"tran", c!"intr"].toFinset
/-- tagset.py:191-195 -/
def PERSONS : Grams := [c!"1per", c!"2per", c!"3per"].toFinset
/-- tagset.py:197-201 -/
def TENSES : Grams := [c!"pres", c!"past", c!"futr"].toFinset
/-- tagset.py:203-206 -/
def MOODS : Grams := [c!"indc", c!"impr"].toFinset
/-- tagset.py:208-211 -/
def VOICES : Grams := [c!"actv", c!"pssv"].toFinset
/-- tagset.py:213-216 -/
def INVOLVEMENT : Grams := [c!"incl", c!"excl"].toFinset

/-- tagset.py:231-232 -/
def NON_PRODUCTIVE : Grams := [c!"NUMR", c!"NPRO", c!"PRED", c!"PREP", c!"CONJ", c!"PRCL", c!"INTJ",
  c!"Apro"].toFinset

/-- tagset.py:252-260 `RARE_CASES` -/
def RARE_CASES : List (Str × Str) := [(c!"gen1", c!"gent"), (c!"gen2", c!"gent"), (c!"acc1", c!"accs"),
  (c!"acc2", c!"accs"), (c!"loc1", c!"loct"), (c!"loc2", c!"loct"), (c!"voct", c!"nomn")]

/-- tagset.py:380-381 `is_productive` -/
def Tag.isProductive (t : Tag) : Bool := decide (t.grammemes ∩ NON_PRODUCTIVE = ∅)

/-- tagset.py:383-384 `_is_unknown` -/
def Tag.isUnknown (t : Tag) : Bool := decide (t.pos0 ∉ PARTS_OF_SPEECH)

/-! ### Class state -/

/-- Association list with Python `dict` assignment: an existing key keeps its place. -/
def dictSet {α β : Type} [DecidableEq α] (k : α) (v : β) : List (α × β) → List (α × β)
  | [] => [(k, v)]
  | (k', v') :: r => if k' = k then (k', v) :: r else (k', v') :: dictSet k v r

/-- `dict.get(k)` -/
def dictGet {α β : Type} [DecidableEq α] (k : α) : List (α × β) → Option β
  | [] => none
  | (k', v') :: r => if k' = k then some v' else dictGet k r

/-- The mutable attributes of the tag class, tagset.py:233-242.  Maps that are only read through
`d[g]` of a `defaultdict(set)` are functions; `_EXTRA_INCOMPATIBLE` has the single key `'plur'`
(tagset.py:233-237), so only that set is stored. -/
structure TagCls where
  known : Grams
  lat2cyr : List (Str × Str)
  cyr2lat : List (Str × Str)
  /-- `_EXTRA_INCOMPATIBLE['plur']` -/
  extraPlur : Grams
  /-- `_GRAMMEME_INCOMPATIBLE` -/
  incompat : Str → Grams
  /-- `_GRAMMEME_INDICES` -/
  indices : Str → Nat

/-- The class as Python creates it at import time: tagset.py:233-242. (`_LAT2CYR` and `_CYR2LAT`
are `None` until the first load; `init` replaces them before any use.) -/
def TagCls.initial : TagCls where
  known := ∅
  lat2cyr := []
  cyr2lat := []
  extraPlur := {c!"GNdr"}
  incompat := fun _ => ∅
  indices := fun _ => 0

/-- tagset.py:399-403 `_assert_grammemes_initialized` -/
def TagCls.assertInit (c : TagCls) : Except PyErr Unit :=
  if c.known = ∅ then .error .runtimeError else .ok ()

/-- tagset.py:386-389 `grammeme_is_known` -/
def TagCls.isKnown (c : TagCls) (g : Str) : Except PyErr Bool := do
  c.assertInit
  pure (decide (g ∈ c.known))

/-- tagset.py:391-397 `_assert_grammemes_are_known` -/
def TagCls.assertKnown (c : TagCls) (gs : Grams) : Except PyErr Unit :=
  if gs ⊆ c.known then .ok () else do
    c.assertInit
    .error .valueError

/-- tagset.py:265-284 `OpencorporaTag.__init__` -/
def TagCls.mkTag (c : TagCls) (s : Str) : Except PyErr Tag := do
  c.assertKnown (splitTag s).toFinset
  pure ⟨s⟩

/-- tagset.py:332-339 `set in tag` -/
def TagCls.containsSet (c : TagCls) (t : Tag) (gs : Grams) : Except PyErr Bool :=
  if gs ⊆ t.grammemes then .ok true else do
    c.assertKnown gs
    pure false

/-- tagset.py:341-347 `'g' in tag` -/
def TagCls.contains (c : TagCls) (t : Tag) (g : Str) : Except PyErr Bool :=
  if g ∈ t.grammemes then .ok true else do
    let k ← c.isKnown g
    if k then pure false else .error .valueError

/-- tagset.py:424-430 `add_grammemes_to_known` -/
def TagCls.addKnown (c : TagCls) (lat cyr : Str) (overwrite : Bool := true) : TagCls :=
  if !overwrite && decide (lat ∈ c.known) then c else
    { c with
      known := insert lat c.known
      lat2cyr := dictSet lat cyr c.lat2cyr
      cyr2lat := dictSet cyr lat c.cyr2lat }

/-- tagset.py:417-422 `fix_rare_cases` on one grammeme. -/
def fixRare1 (g : Str) : Str := (dictGet g RARE_CASES).getD g

/-- tagset.py:417-422 `fix_rare_cases` -/
def fixRareCases (gs : Grams) : Grams := gs.image fixRare1

end Verif
