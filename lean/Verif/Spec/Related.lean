/-
Specification vocabulary: two dictionaries that agree on what concerns a word.
-/
import Verif.Spec.Spells
import Verif.Model.Units

namespace Verif

mutual
/-- The paradigm numbers in a methods stack, replaced. -/
def Stack.renum (φ : Nat → Nat) : Stack → Stack
  | .nil => .nil
  | .push r x => .push (r.renum φ) (x.renum φ)
def Method.renum (φ : Nat → Nat) : Method → Method
  | .dict u w k i => .dict u w (φ k) i
  | .simple u a => .simple u a
  | .fixed u l r => .fixed u l (r.renum φ)
  | .both u l r => .both u (l.renum φ) (r.renum φ)
end

/-- A result with the paradigm numbers in its methods stack replaced; word, tag, normal form and score stay. -/
def Parse.renum (φ : Nat → Nat) {S : Type} (p : Parse S) : Parse S := { p with stack := p.stack.renum φ }

/-- `d.AgreeOn d' sub φ W`: all paradigms of `d` are in `d'` too, under the numbers `φ` gives them (with the same prefixes, tags and suffixes, however these are
numbered), and the two dictionaries have the same entries, so renumbered, under every key that is a spelling of a part of `W`: the same words, and the same
predictions for endings.  Under all other keys, both may have anything. -/
structure Dict.AgreeOn (d d' : Dict) (sub : Subst) (φ : Nat → Nat) (W : Str) : Prop where
  prefixes : d'.prefixes = d.prefixes
  maxSuffixLength : d'.maxSuffixLength = d.maxSuffixLength
  paradigms : ∀ (k : Nat) (p : List Nat), d.paradigms[k]? = some p → d'.paradigmInfo (φ k) = d.paradigmInfo k
  words : ∀ x v : Str, x <:+: W → Spells sub x v → d'.words.vals v = (d.words.vals v).map fun r => (φ r.1, r.2)
  pred : ∀ (j : Nat) (t : Dawg (Nat × Nat × Nat)), d.pred[j]? = some t → ∃ t', d'.pred[j]? = some t' ∧
    ∀ x v : Str, x <:+: W → Spells sub x v → t'.vals v = (t.vals v).map fun r => (r.1, φ r.2.1, r.2.2)

end Verif
