/-
Strings with their Python types: the values of grammeme attributes are instances of `TypedGrammeme` (tagset.py:15-54), a subclass of
`str` whose `__eq__` raises `ValueError` for strings outside the category.  They get into Python's sets and dicts: `inflect({tag.case})`,
and inside the package `set(['sing', self.case])` (tagset.py:497-500).
-/
import Verif.Model.Attrs
import Verif.Model.Config

namespace Verif

variable {S : Type} [Score S]

/-- A `str`, or a `TypedGrammeme` of the class made for a category, tagset.py:29-44. -/
inductive GStr
  | plain (s : Str)
  | typed (cat : Grams) (s : Str)
  deriving DecidableEq

/-- The characters. -/
def GStr.str : GStr → Str
  | .plain s => s
  | .typed _ s => s

/-- CPython's hash tables: `hash` is `hash(str)` (`TypedGrammeme.__hash__` is `str.__hash__`, tagset.py:41-42); `arr s` are the entries of a
set of plain strings in the order in which a lookup meets them (any order; entries with different hashes do not matter). -/
structure HashTables where
  hash : Str → Int
  arr : Grams → List Str

/-- A set of plain strings. -/
def HashTables.set (T : HashTables) (s : Grams) : List GStr := (T.arr s).map .plain

/-- tagset.py:30-36 `TypedGrammeme.__eq__(self, other)` for a plain `other`; `other not in grammeme_set` compares plain strings. -/
def typedEqPlain (cat : Grams) (s other : Str) : Except PyErr Bool :=
  if other ∈ cat then .ok (decide (s = other)) else .error .valueError

/-- tagset.py:33: `other in grammeme_set` for a typed `other` (of the category `cat'`): each entry with the same hash is compared, and
Python lets the operand of the more special type, `other`, compare itself. -/
def inCatLoop (T : HashTables) (cat' : Grams) (s : Str) : List Str → Except PyErr Bool
  | [] => .ok false
  | e :: es =>
    if T.hash e = T.hash s then do
      let b ← typedEqPlain cat' s e
      if b then pure true else inCatLoop T cat' s es
    else inCatLoop T cat' s es

/-- tagset.py:33 `other in grammeme_set` -/
def inCat (T : HashTables) (cat : Grams) : GStr → Except PyErr Bool
  | .plain s => .ok (decide (s ∈ cat))
  | .typed cat' s => inCatLoop T cat' s (T.arr cat)

/-- `x == y`.  A plain string compared with a `TypedGrammeme` is asked second, because the other operand is an instance of a subclass which
overrides `__eq__`; two typed operands: the left one is asked (tagset.py:30-36). -/
def gEq (T : HashTables) : GStr → GStr → Except PyErr Bool
  | .plain a, .plain b => .ok (decide (a = b))
  | .plain a, .typed cat s => typedEqPlain cat s a
  | .typed cat s, o => do
    let k ← inCat T cat o
    if k then pure (decide (s = o.str)) else .error .valueError

/-- `key in set`: entries with the hash of the key are compared with it, up to the first equal one (identical objects are not compared,
which makes no difference: they are equal). -/
def setHas (T : HashTables) : List GStr → GStr → Except PyErr Bool
  | [], _ => .ok false
  | e :: es, key =>
    if T.hash e.str = T.hash key.str then do
      let b ← gEq T e key
      if b then pure true else setHas T es key
    else setHas T es key

/-- `all(key in b for key in a)`, stopping at the first that is not. -/
def allIn (T : HashTables) (b : List GStr) : List GStr → Except PyErr Bool
  | [] => .ok true
  | k :: ks => do
    let r ← setHas T b k
    if r then allIn T b ks else pure false

/-- `a <= b` for sets: CPython compares the sizes first. -/
def subsetP (T : HashTables) (a b : List GStr) : Except PyErr Bool :=
  if a.length > b.length then .ok false else allIn T b a

/-- `set.add`: an equal entry stays. -/
def addP (T : HashTables) (s : List GStr) (k : GStr) : Except PyErr (List GStr) := do
  let b ← setHas T s k
  pure (if b then s else s ++ [k])

/-- `a | b`, `frozenset(b)` for `a = []`. -/
def unionP (T : HashTables) (a : List GStr) : List GStr → Except PyErr (List GStr)
  | [] => .ok a
  | k :: ks => do
    let a' ← addP T a k
    unionP T a' ks

/-- `a - b` -/
def diffP (T : HashTables) (a b : List GStr) : Except PyErr (List GStr) :=
  filterE (fun k => do let r ← setHas T b k; pure !r) a

/-- `a & b` -/
def interP (T : HashTables) (a b : List GStr) : Except PyErr (List GStr) := filterE (setHas T b) a

/-- `len(a ^ b)`, simplified: the entries of each that are not in the other. -/
def xorLenP (T : HashTables) (a b : List GStr) : Except PyErr Nat := do
  let x ← diffP T a b
  let y ← diffP T b a
  pure (x.length + y.length)

/-- `RARE_CASES.get(g, g)`, tagset.py:422: a dict lookup, like `setHas`. -/
def rareLoop (T : HashTables) (g : GStr) : List (Str × Str) → Except PyErr GStr
  | [] => .ok g
  | (k, v) :: ks =>
    if T.hash k = T.hash g.str then do
      let b ← gEq T (.plain k) g
      if b then pure (.plain v) else rareLoop T g ks
    else rareLoop T g ks

/-- tagset.py:417-422 `fix_rare_cases` -/
def fixRareP (T : HashTables) (req : List GStr) : Except PyErr (List GStr) := do
  let l ← mapE (fun g => rareLoop T g RARE_CASES) req
  unionP T [] l

/-- tagset.py:411-414: the loop of `updated_grammemes`.  Simplified: `_GRAMMEME_INCOMPATIBLE[grammeme]` is looked up by the characters. -/
def updatedLoopP (T : HashTables) (c : TagCls) : List GStr → List GStr → Except PyErr (List GStr)
  | [], g => .ok g
  | r :: rs, g => do
    c.assertInit
    let k ← setHas T (T.set c.known) r
    if k then do
      let g' ← diffP T g (T.set (c.incompat r.str))
      updatedLoopP T c rs g'
    else .error .valueError

/-- tagset.py:405-415 `updated_grammemes` -/
def updatedP (T : HashTables) (c : TagCls) (t : Tag) (req : List GStr) : Except PyErr (List GStr) := do
  let g ← unionP T (T.set t.grammemes) req
  updatedLoopP T c req g

/-- analyzer.py:381-383 `similarity` -/
def similarityP (T : HashTables) (sim : Sim) (g : List GStr) (t : Tag) : Except PyErr sim.K := do
  let i ← interP T g (T.set t.grammemes)
  let x ← xorLenP T g (T.set t.grammemes)
  pure (sim.key i.length x)

/-- analyzer.py:385: the keys are computed, then compared. -/
def nlargestP (T : HashTables) (sim : Sim) (g : List GStr) (poss : List (Parse S)) : Except PyErr (Option (Parse S)) := do
  let l ← mapE (fun f : Parse S => do let k ← similarityP T sim g f.tag; pure (f, k)) poss
  pure ((nlargest1 sim Prod.snd l).map Prod.fst)

/-- analyzer.py:372-373, 377-378: the forms carrying all required grammemes. -/
def matchingP (T : HashTables) (fs : List (Parse S)) (req : List GStr) : Except PyErr (List (Parse S)) :=
  filterE (fun f => subsetP T req (T.set f.tag.grammemes)) fs

/-- analyzer.py:34-36, 371-385 `Parse.inflect` with a set of strings of whatever types. -/
def Morph.inflectP (m : Morph S) (T : HashTables) (sim : Sim) (p : Parse S) (req : List GStr) : Except PyErr (Option (Parse S)) := do
  let fs ← m.lexeme p
  let poss ← matchingP T fs req
  if poss = [] then do
    let req' ← fixRareP T req
    let poss' ← matchingP T fs req'
    let g ← updatedP T m.cls p.tag req'
    nlargestP T sim g poss'
  else do
    let g ← updatedP T m.cls p.tag req
    nlargestP T sim g poss

/-! ### Attributes and agreement -/

/-- tagset.py:46-54: `getattr(tag, name)` when the class attribute `typed_grammemes` (tagset.py:221) is `on`. -/
def Tag.attrG (on : Bool) (pick : Grams → Option Str) (t : Tag) (a : Attr) : Option GStr :=
  (t.attr pick a).map fun s => if on then .typed a.cat s else .plain s

/-- `x == 'literal'` for an attribute value. -/
def isG (T : HashTables) (x : Option GStr) (o : Str) : Except PyErr Bool :=
  match x with
  | none => .ok false
  | some v => gEq T v (.plain o)

/-- `x in ('literal', …)` for an attribute value. -/
def inG (T : HashTables) (x : Option GStr) : List Str → Except PyErr Bool
  | [] => .ok false
  | o :: os => do
    let b ← isG T x o
    if b then pure true else inG T x os

/-- tagset.py:508: `self.POS in ('ADJF', 'PRTF') and self.gender == 'femn' and index == 1` -/
def femnTwo (T : HashTables) (pos gender : Option GStr) (index : Nat) : Except PyErr Bool := do
  let b ← inG T pos [c!"ADJF", c!"PRTF"]
  if b then do
    let f ← isG T gender (c!"femn")
    pure (f && decide (index = 1))
  else pure false

/-- tagset.py:496: `self.POS == 'NOUN' and self.case not in ('nomn', 'accs')` -/
def obliqueNoun (T : HashTables) (pos case : Option GStr) : Except PyErr Bool := do
  let b ← isG T pos (c!"NOUN")
  if b then do
    let c ← inG T case [c!"nomn", c!"accs"]
    pure !c
  else pure false

/-- tagset.py:485-512 `numeral_agreement_grammemes`, with the comparisons of the attributes as they are; a `None` case is kept as `none`. -/
def numeralAgreementG (T : HashTables) (on : Bool) (pick : Grams → Option Str) (t : Tag) (num : Int) : Except PyErr (List (Option GStr)) := do
  let index := numeralIndex num
  let pos := t.attrG on pick .pos
  let case := t.attrG on pick .case
  let inflected ← inG T pos [c!"NOUN", c!"ADJF", c!"PRTF"]
  if !inflected then pure [] else do
    let obl ← obliqueNoun T pos case
    if obl then
      pure [some (.plain (if index = 0 then c!"sing" else c!"plur")), case]
    else if index = 0 then do
      let n ← isG T case (c!"nomn")
      pure [some (.plain (c!"sing")), some (.plain (if n then c!"nomn" else c!"accs"))]
    else do
      let noun ← isG T pos (c!"NOUN")
      if noun && decide (index = 1) then pure [some (.plain (c!"sing")), some (.plain (c!"gent"))] else do
        let f ← femnTwo T pos (t.attrG on pick .gender) index
        pure [some (.plain (c!"plur")), some (.plain (if f then c!"nomn" else c!"gent"))]

/-- All members are strings (no `None`). -/
def allSomeG : List (Option GStr) → Option (List GStr)
  | [] => some []
  | none :: _ => none
  | some s :: r => (allSomeG r).map (s :: ·)

/-- analyzer.py:38-42 `make_agree_with_number`; see `Morph.makeAgree` for `None` in the required set. -/
def Morph.makeAgreeP (m : Morph S) (T : HashTables) (on : Bool) (sim : Sim) (pick : Grams → Option Str) (p : Parse S) (num : Int) :
    Except PyErr (Option (Parse S)) := do
  let l ← numeralAgreementG T on pick p.tag num
  match allSomeG l with
  | some req => m.inflectP T sim p req
  | none => do
    let _ ← m.lexeme p
    m.cls.assertInit
    .error .valueError

end Verif
