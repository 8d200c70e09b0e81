/-
Specification vocabulary: the default analyzers.
-/
import Verif.Spec.Groups

namespace Verif

variable {S : Type} [Score S]

/-- `m` is what `MorphAnalyzer(lang='ru')` constructs from some dictionary, tag class state, character substitutes and
P(t|w) data. -/
def IsRu (m : Morph S) : Prop := ∃ cls, mkMorph m.env m.dict cls m.sub ruUnits m.est = .ok m

/-- The same for `MorphAnalyzer(lang='uk')`. -/
def IsUk (m : Morph S) : Prop := ∃ cls, mkMorph m.env m.dict cls m.sub ukUnits m.est = .ok m

end Verif
