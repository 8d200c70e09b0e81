/-
Specification vocabulary: prediction by the ending of a word.
-/
import Verif.Spec.Spells
import Verif.Model.Units

namespace Verif

instance (sub : Subst) (a b : Str) : Decidable (Spells sub a b) := decidable_of_iff _ (mem_variants_iff sub a b)

/-- The word begins with paradigm prefix number `k`, and the prediction table of that prefix says `cnt` times that words with the ending
`sfx` are form `idx` of paradigm `para`, whose tag is productive; `sfx` may be written as the last `i` letters of the word. -/
structure Dict.Predicts (d : Dict) (sub : Subst) (wl : Str) (k i : Nat) (sfx : Str) (cnt para idx : Nat) (tag : Tag) : Prop where
  pre : ∃ pre, d.prefixes[k]? = some pre ∧ pre <+: wl
  stored : ∃ t, d.pred[k]? = some t ∧ (sfx, (cnt, para, idx)) ∈ t
  len : 1 ≤ i ∧ i ≤ d.maxSuffixLength
  spells : Spells sub (takeRight wl i) sfx
  hasTag : d.tagInfo para idx = .ok tag
  productive : tag.isProductive = true

/-- `i` is the length of the longest ending of the word known for paradigm prefix `k`. -/
def Dict.LongestEnding (d : Dict) (sub : Subst) (wl : Str) (k i : Nat) : Prop :=
  (∃ sfx cnt para idx tag, d.Predicts sub wl k i sfx cnt para idx tag) ∧
  ∀ j, i < j → ¬ ∃ sfx cnt para idx tag, d.Predicts sub wl k j sfx cnt para idx tag

/-- How often, in all, the prediction table of prefix `k` says something productive about the last `i` letters of the word. -/
def Dict.endingCount (d : Dict) (sub : Subst) (wl : Str) (k i : Nat) : Nat :=
  (((d.pred[k]?.getD []).filter fun e => decide (Spells sub (takeRight wl i) e.1) &&
    (match d.tagInfo e.2.2.1 e.2.2.2 with
      | .ok t => t.isProductive
      | .error _ => false)).map fun e => e.2.1).sum

end Verif
