/-
Model of the other half of /repo/pymorphy2/dawg.py:69-90: when the C extension `dawg` is installed
(`EXTENSION_AVAILABLE`, dawg.py:4-10) `PrefixMatcher` is `DawgPrefixMatcher`, otherwise `PythonPrefixMatcher`
(`matchPrefixes`/`isPrefixed` of Model/Units.lean).  Only `HyphenatedWordsAnalyzer` and `KnownPrefixAnalyzer` use a
prefix matcher, so only their methods are repeated here; everything else is the code of Model/Units.lean.
-/
import Verif.Model.Analyzer

namespace Verif

variable {S : Type} [Score S]

/-- `DAWG.prefixes(word)` of the third-party package (trusted contract): the keys that are non-empty prefixes of the
word, shortest first, each once — the automaton is walked character by character and a key is reported when its last
character has been read, so the empty key is never reported. -/
def dawgPrefixes (prefixes : List Str) (w : Str) : List Str :=
  ((List.range w.length).map fun i => w.take (i + 1)).filter fun p => decide (p ∈ prefixes)

/-- dawg.py:70-71 `DawgPrefixMatcher.is_prefixed` -/
def isPrefixedX (prefixes : List Str) (w : Str) : Bool := decide (dawgPrefixes prefixes w ≠ [])

/-- by_hyphen.py:266-283 `_should_parse` with the extension. -/
def hyphenShouldX (skip : List Str) (w : Str) : Bool :=
  if '-' ∈ w then
    let s := stripC '-' w
    if s ≠ w then false
    else if s.count '-' ≠ 1 then false
    else if isPrefixedX skip w then false
    else true
  else false

/-- by_hyphen.py:171-187 with the extension. -/
def hyphenParseX (rec : Rec S) (u : UObj) (skip : List Str) (mult : S) (wl : Str) : Except PyErr (List (Parse S)) :=
  if hyphenShouldX skip wl then do
    let lr := splitHyphen wl
    let lp ← rec.parse lr.1
    let rp ← rec.parse lr.2
    pure (parseBoth u mult lp rp ++ parseFixed u mult lr.1 rp)
  else .ok []

/-- by_analogy.py:92-101 `possible_splits` with the extension. -/
def possibleSplitsX (prefixes : List Str) (minRemainder : Nat) (w : Str) : List (Str × Str) :=
  (((dawgPrefixes prefixes w).insertionSort (fun a b => b.length ≤ a.length)).map
    fun p => (p, w.drop p.length)).filter fun s => decide (minRemainder ≤ s.2.length)

/-- `unit.parse(...)` with the extension. -/
def unitParseX (m : Morph S) (rec : Rec S) (u : BUnit S) (word wl : Str) (seen : Seen) :
    Except PyErr (List (Parse S) × Seen) :=
  match u.cfg with
  | .hyphenated skip mult => do
    let ps ← hyphenParseX rec u.obj skip mult wl
    pure (ps, seen)
  | .knownPrefix prefixes mult minRem => do
    let ps ← prefixCands u.obj mult rec.parse (possibleSplitsX prefixes minRem wl)
    pure (addParses ps seen)
  | _ => unitParse m rec u word wl seen

/-- `unit.tag(...)` with the extension. -/
def unitTagX (m : Morph S) (rec : Rec S) (u : BUnit S) (word wl : Str) (seen : SeenTags) :
    Except PyErr (List Tag × SeenTags) :=
  match u.cfg with
  | .hyphenated skip mult => do
    let ps ← hyphenParseX rec u.obj skip mult wl
    pure (addTags (ps.map Parse.tag) seen)
  | .knownPrefix prefixes _ minRem => do
    let ts ← prefixTagCands rec.tag (possibleSplitsX prefixes minRem wl)
    pure (addTags ts seen)
  | _ => unitTag m rec u word wl seen

/-- analyzer.py:314-318 with the extension. -/
def runParseX (m : Morph S) (rec : Rec S) (word wl : Str) :
    List (BUnit S × Bool) → Seen → List (Parse S) → Except PyErr (List (Parse S))
  | [], _, res => .ok res
  | (u, terminal) :: us, seen, res => do
    let r ← unitParseX m rec u word wl seen
    let res' := res ++ r.1
    if terminal = true ∧ res' ≠ [] then pure res'
    else runParseX m rec word wl us r.2 res'

/-- analyzer.py:333-337 with the extension. -/
def runTagX (m : Morph S) (rec : Rec S) (word wl : Str) :
    List (BUnit S × Bool) → SeenTags → List Tag → Except PyErr (List Tag)
  | [], _, res => .ok res
  | (u, terminal) :: us, seen, res => do
    let r ← unitTagX m rec u word wl seen
    let res' := res ++ r.1
    if terminal = true ∧ res' ≠ [] then pure res'
    else runTagX m rec word wl us r.2 res'

/-- analyzer.py:301-326 with the extension. -/
def parseStepX (m : Morph S) (rec : Rec S) (word : Str) : Except PyErr (List (Parse S)) := do
  let wl := m.env.lower word
  let res ← runParseX m rec word wl m.units [] []
  match m.est with
  | some dawg => applyToParses dawg wl res
  | none => pure res

/-- analyzer.py:328-341 with the extension. -/
def tagStepX (m : Morph S) (rec : Rec S) (word : Str) : Except PyErr (List Tag) := do
  let wl := m.env.lower word
  let res ← runTagX m rec word wl m.units [] []
  match m.est with
  | some dawg => pure (applyToTags S dawg wl res)
  | none => pure res

/-- `morph.parse` / `morph.tag` with the extension and a budget of `n` nested calls. -/
def analyzeX (m : Morph S) : Nat → Rec S
  | 0 => ⟨fun _ => .error .recursionError, fun _ => .error .recursionError⟩
  | n + 1 => ⟨parseStepX m (analyzeX m n), tagStepX m (analyzeX m n)⟩

end Verif
