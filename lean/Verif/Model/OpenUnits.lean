/-
Analyzers whose `units` and `probability_estimator_cls` are classes written by the user: /repo/pymorphy2/analyzer.py:190-238,
301-341, /repo/pymorphy2/units/base.py:37-47, /repo/pymorphy2/units/by_shape.py:14-53.

Simplifications: the methods of the user's classes are functions of what they are called with (no state of their own, no
randomness); `seen_parses` and `seen_tags` hold the keys the library itself puts there; units are given already cloned and
bound (analyzer.py:245-248), so only the flattening of the `units` argument is modelled here.
-/
import Verif.Model.Inflect

namespace Verif

/-- What `MorphAnalyzer` asks of a bound unit (base.py:37-47): `parse(word, word_lower, seen_parses)` and
`tag(word, word_lower, seen_tags)`, with the calls back to `morph.parse`/`morph.tag` given by the first argument; the new
contents of the mutated set are returned. -/
structure OpenUnit (S : Type) where
  parse : Rec S → Str → Str → Seen → Except PyErr (List (Parse S) × Seen)
  tag : Rec S → Str → Str → SeenTags → Except PyErr (List Tag × SeenTags)

/-- What `MorphAnalyzer` asks of a probability estimator (analyzer.py:73, 95): `apply_to_parses(word, word_lower, parses)`
and `apply_to_tags(word, word_lower, tags)`. -/
structure OpenEst (S : Type) where
  parses : Str → Str → List (Parse S) → Except PyErr (List (Parse S))
  tags : Str → Str → List Tag → Except PyErr (List Tag)

/-- A `MorphAnalyzer` with such units and estimator. -/
structure OpenMorph (S : Type) where
  env : Env
  units : List (OpenUnit S × Bool)
  est : Option (OpenEst S)

/-- A class which defines `parse` and inherits `tag` from `BaseAnalyzerUnit` (base.py:40-47). -/
def OpenUnit.inherited {S : Type} (parse : Rec S → Str → Str → Seen → Except PyErr (List (Parse S) × Seen)) : OpenUnit S where
  parse := parse
  tag rec word wl seen := do
    let r ← parse rec word wl []
    pure (addTags (r.1.map Parse.tag) seen)

/-- A class which returns a list of parses computed from the word and nested calls, without looking at `seen_parses`, and
inherits `tag`. -/
def OpenUnit.listing {S : Type} (f : Rec S → Str → Str → Except PyErr (List (Parse S))) : OpenUnit S :=
  .inherited fun rec word wl seen => do
    let ps ← f rec word wl
    pure (ps, seen)

/-- A class which hands each of its candidates to `add_parse_if_not_seen` (units/utils.py:5-19), as the library's own
prediction units do, and inherits `tag`. -/
def OpenUnit.adding {S : Type} (f : Rec S → Str → Str → Except PyErr (List (Parse S))) : OpenUnit S :=
  .inherited fun rec word wl seen => do
    let ps ← f rec word wl
    pure (addParses ps seen)

/-- A subclass of `_ShapeAnalyzer` (by_shape.py:14-53) with its own `check_shape` and `get_tag`: `check word word_lower` is
the tag, if the word has the shape. -/
def OpenUnit.shaped {S : Type} (u : UObj) (score : S) (check : Str → Str → Option Tag) : OpenUnit S where
  parse _ word wl seen := .ok (shapeParse u score word wl (check word wl), seen)
  tag _ word wl seen := .ok ((check word wl).toList, seen)

variable {S : Type} [Score S]

/-- A unit of the library, bound to the analyzer `m`. -/
def OpenUnit.lib (m : Morph S) (u : BUnit S) : OpenUnit S where
  parse rec word wl seen := unitParse m rec u word wl seen
  tag rec word wl seen := unitTag m rec u word wl seen

/-- `ProbabilityEstimator` (analyzer.py:68-101). -/
def OpenEst.lib (dawg : List (Str × Nat)) : OpenEst S where
  parses _ wl ps := applyToParses dawg wl ps
  tags _ wl ts := .ok (applyToTags S dawg wl ts)

/-- analyzer.py:226-238 `_init_units`: the flags of the units; an empty group raises `IndexError` (`item[-1]`). -/
def openInit : List (List (OpenUnit S)) → Except PyErr (List (OpenUnit S × Bool))
  | [] => .ok []
  | g :: gs =>
    match g.getLast? with
    | none => .error .indexError
    | some l => do
      let rest ← openInit gs
      pure (g.dropLast.map (fun u => (u, false)) ++ (l, true) :: rest)

/-- analyzer.py:314-318: the loop of `parse` over the units. -/
def openRun (rec : Rec S) (word wl : Str) : List (OpenUnit S × Bool) → Seen → List (Parse S) → Except PyErr (List (Parse S))
  | [], _, res => .ok res
  | (u, terminal) :: us, seen, res => do
    let r ← u.parse rec word wl seen
    let res' := res ++ r.1
    if terminal = true ∧ res' ≠ [] then pure res'
    else openRun rec word wl us r.2 res'

/-- analyzer.py:333-337: the loop of `tag` over the units. -/
def openRunTag (rec : Rec S) (word wl : Str) : List (OpenUnit S × Bool) → SeenTags → List Tag → Except PyErr (List Tag)
  | [], _, res => .ok res
  | (u, terminal) :: us, seen, res => do
    let r ← u.tag rec word wl seen
    let res' := res ++ r.1
    if terminal = true ∧ res' ≠ [] then pure res'
    else openRunTag rec word wl us r.2 res'

/-- analyzer.py:301-326 `MorphAnalyzer.parse`, the nested calls of the units given by `rec`. -/
def OpenMorph.parseStep (o : OpenMorph S) (rec : Rec S) (word : Str) : Except PyErr (List (Parse S)) := do
  let wl := o.env.lower word
  let res ← openRun rec word wl o.units [] []
  match o.est with
  | some e => e.parses word wl res
  | none => pure res

/-- analyzer.py:328-341 `MorphAnalyzer.tag` -/
def OpenMorph.tagStep (o : OpenMorph S) (rec : Rec S) (word : Str) : Except PyErr (List Tag) := do
  let wl := o.env.lower word
  let res ← openRunTag rec word wl o.units [] []
  match o.est with
  | some e => e.tags word wl res
  | none => pure res

/-- `morph.parse` / `morph.tag` with a budget of `n` nested calls; `RecursionError` when it is exhausted. -/
def OpenMorph.analyze (o : OpenMorph S) : Nat → Rec S
  | 0 => ⟨fun _ => .error .recursionError, fun _ => .error .recursionError⟩
  | n + 1 => ⟨o.parseStep (o.analyze n), o.tagStep (o.analyze n)⟩

/-- `morph.parse(word)`, with one nested call more than the lower-cased word has characters. -/
def OpenMorph.parse (o : OpenMorph S) (word : Str) : Except PyErr (List (Parse S)) :=
  (o.analyze ((o.env.lower word).length + 1)).parse word

/-- `morph.tag(word)` -/
def OpenMorph.tag (o : OpenMorph S) (word : Str) : Except PyErr (List Tag) :=
  (o.analyze ((o.env.lower word).length + 1)).tag word

/-- The analyzer `m`, seen as such an analyzer. -/
def Morph.opened (m : Morph S) : OpenMorph S where
  env := m.env
  units := m.units.map fun u => (.lib m u.1, u.2)
  est := m.est.map OpenEst.lib

end Verif
