/-
Specification vocabulary: analyzers constructed with a `units` argument.
-/
import Verif.Spec.Default

namespace Verif

variable {S : Type} [Score S]

/-- `m` is what `MorphAnalyzer(units=items)` constructs from some dictionary, tag class state, character substitutes and P(t|w) data: any number of the
built-in units, with any parameters, in any order and in any groups. -/
def Morph.Configured (m : Morph S) (items : List (List (UnitSpec S))) : Prop := ∃ cls, mkMorph m.env m.dict cls m.sub items m.est = .ok m

/-- The letters a unit takes for initials. -/
def UnitSpec.initials : UnitSpec S → List Str
  | .firstName letters _ _ | .patronymic letters _ _ => letters
  | _ => []

/-- The tags a unit may give of its own, not taken from the dictionary. -/
def UnitSpec.tagPatterns : UnitSpec S → List Tag
  | .firstName _ pattern _ | .patronymic _ pattern _ => GENDERS2.flatMap fun g => CASES6.map fun c => Tag.mk (pattern g c)
  | _ => []

end Verif
