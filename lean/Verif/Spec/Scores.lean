/-
Specification vocabulary: well-behaved inputs of `parse`.
-/
import Verif.Model.Analyzer

namespace Verif

/-- Every alphabetic character of the string has a Unicode name. -/
def Env.Named (e : Env) (w : Str) : Prop := ∀ c ∈ w, e.isAlpha c = true → (e.charName c).isSome

/-- The analyses the units collect for a word, before `ProbabilityEstimator` scores them (C06 describes them as the
answer of the first answering unit group). -/
def Morph.collected {S : Type} [Score S] (m : Morph S) (w : Str) : Except PyErr (List (Parse S)) :=
  runParse m ⟨m.parse, m.tag⟩ w (m.env.lower w) m.units [] []

/-- The P(t|w) data is complete: for every word either all the analyses collected for it have a positive stored
probability, or none has. -/
def Morph.DataComplete (m : Morph Rat) : Prop :=
  ∀ dawg, m.est = some dawg → ∀ w res, m.collected w = .ok res → ∀ p ∈ res, ∀ q ∈ res,
    (0 : Rat) < prob dawg (m.env.lower w) p.tag → (0 : Rat) < prob dawg (m.env.lower w) q.tag

/-- Unit parameters are positive numbers (they are 0.1 … 1 by default). -/
def UnitCfg.posScores : UnitCfg Rat → Prop
  | .firstName _ _ _ s | .patronymic _ _ s | .number _ _ s | .punct _ s | .latin _ s | .roman _ s => 0 < s
  | .particle _ s | .adverb _ s | .hyphenated _ s | .knownPrefix _ s _ | .unknownPrefix s | .knownSuffix s _ => 0 < s
  | .dictionary | .unkn _ => True

end Verif
