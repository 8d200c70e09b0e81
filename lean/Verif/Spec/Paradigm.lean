/-
Specification vocabulary: the stem and the paradigm of a lexeme.
-/
import Verif.Base
import Mathlib.Data.List.Forall2

namespace Verif

/-- A part of every one of the strings. -/
def PartOfAll (t : Str) (forms : List Str) : Prop := ∀ f ∈ forms, t <:+: f

/-- The longest string that is a part of all forms; if there are several, the one that occurs first in the first form. -/
structure CoreOf (forms : List Str) (core : Str) : Prop where
  common : PartOfAll core forms
  longest : ∀ t, PartOfAll t forms → t.length ≤ core.length
  first : ∀ t, PartOfAll t forms → t.length = core.length → ∀ u v, forms.head? = some (u ++ t ++ v) →
    ∃ u' v', forms.head? = some (u' ++ core ++ v') ∧ u'.length ≤ u.length

/-- `b` is what stands before the first occurrence of `core` in `f`. -/
structure Before (core f b : Str) : Prop where
  occurs : ∃ r, f = b ++ core ++ r
  first : ∀ b' r', f = b' ++ core ++ r' → b.length ≤ b'.length

/-- Rows `(suffix, tag, prefix)` that together with the stem spell the lexeme (a list of forms with tags), the prefixes being given. -/
structure SplitInto (lex : List (Str × Str)) (stem : Str) (prefixes : List Str) (rows : List (Str × Str × Str)) : Prop where
  spell : rows.map (fun r => (r.2.2 ++ stem ++ r.1, r.2.1)) = lex
  pre : rows.map (·.2.2) = prefixes

/-- The stem and the paradigm of a lexeme.  With one form the stem is the form.  Otherwise it is the longest common part of the forms, provided
that what stands before it is always one of the allowed prefixes; if not, there is no stem and the forms are suffixes. -/
inductive Extracts (allowed : List Str) : List (Str × Str) → Str → List (Str × Str × Str) → Prop
  | single (w t : Str) : Extracts allowed [(w, t)] w [([], t, [])]
  | common (lex : List (Str × Str)) (core : Str) (befores : List Str) (rows : List (Str × Str × Str)) (hlen : 2 ≤ lex.length)
      (hcore : CoreOf (lex.map Prod.fst) core) (hb : List.Forall₂ (Before core) (lex.map Prod.fst) befores)
      (hok : ∀ b ∈ befores, b ∈ allowed) (hrows : SplitInto lex core befores rows) : Extracts allowed lex core rows
  | whole (lex : List (Str × Str)) (core : Str) (befores : List Str) (rows : List (Str × Str × Str)) (hlen : 2 ≤ lex.length)
      (hcore : CoreOf (lex.map Prod.fst) core) (hb : List.Forall₂ (Before core) (lex.map Prod.fst) befores)
      (hbad : ∃ b ∈ befores, b ∉ allowed) (hrows : SplitInto lex [] (lex.map fun _ => []) rows) : Extracts allowed lex [] rows

end Verif
