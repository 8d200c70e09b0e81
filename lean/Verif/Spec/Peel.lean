/-
Specification vocabulary for C98: taking known prefixes off a word.
-/
import Verif.Spec.Rules
import Verif.Model.Cost

namespace Verif

variable {S : Type} [Score S]

/-- `Peels P w qs`: the prefixes `qs` can be taken off the beginning of `w` one after the other, each being in the list `P` and
leaving at least three letters. -/
inductive Peels (P : List Str) : Str → List Str → Prop
  | none (w : Str) : Peels P w []
  | off (q r : Str) (qs : List Str) : q ∈ P → 3 ≤ r.length → Peels P r qs → Peels P (q ++ r) (q :: qs)

/-- What is left of `w` when the prefixes `qs` are taken off. -/
def afterPeeling (w : Str) (qs : List Str) : Str := w.drop qs.flatten.length

/-- `m` recognizes `w` neither as a word or an initial nor by its form (number, punctuation, Latin letters). -/
structure Obscure (m : Morph S) (D : RuleData) (w : Str) : Prop where
  unknown : m.wordIsKnown w = false
  noInitial : ¬ D.initial w
  noInt : m.env.isInt w = false
  noReal : ¬ SaysFloat m.env w
  noPunct : isPunctuation m.env w = false
  noRoman : isRomanNumber m.env w = false
  noLatin : isLatin m.env w = .ok false

/-- The calls that an analysis makes itself, in order, unless it ends before; `l` is the word in lower case, `own` is `.parse` for
`morph.parse` and `.tag` for `morph.tag`:
the word without its particle (the first in the list of particles that it ends with);
in Russian, `tag` of what follows по-;
`parse` of the two parts, if there is one hyphen, not at the beginning or the end, and the word does not begin with a known prefix;
what follows a known prefix, if that is three letters or more, the longest prefix first. -/
def directCalls (D : RuleData) (adverbs : Bool) (own : Str → Call) (l : Str) : List Call :=
  ((D.particles.find? fun p => decide (p <:+ l ∧ p ≠ l)).toList.map fun p => own (l.take (l.length - p.length))) ++
  (if adverbs = true ∧ c!"по-" <+: l ∧ 5 ≤ l.length then [.tag (l.drop 3)] else []) ++
  (if l.count '-' = 1 ∧ l.head? ≠ some '-' ∧ l.getLast? ≠ some '-' ∧ ∀ q ∈ D.prefixes, ¬ q <+: l
    then [.parse (l.takeWhile (· ≠ '-')), .parse ((l.dropWhile (· ≠ '-')).drop 1)] else []) ++
  ((List.range l.length).reverse.filter fun k => decide (l.take k ∈ D.prefixes ∧ k + 3 ≤ l.length)).map fun k => own (l.drop k)

end Verif
