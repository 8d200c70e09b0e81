/-
Estimation of P(t|w) in double precision: /repo/pymorphy2/opencorpora_dict/probability.py and the constructor of `ConditionalProbDistDAWG`
(/repo/pymorphy2/dawg.py:48-62) as CPython computes them.  The functions of `Model/Prob` that do no arithmetic are used as they are.
-/
import Verif.Model.Prob
import Verif.Model.Dbl

namespace Verif

/-- `nltk.LaplaceProbDist(fd, bins).prob(sample)`: the quotient of two ints, which Python rounds to the nearest double. -/
def laplaceD (fd : FreqDist) (bins : Nat) (g : Grams) : Dbl := toDbl ((((dictGet g fd).getD 0 : Nat) + 1) / ((fd.n : Rat) + bins))

/-- dawg.py:58-62: `int(prob*MULTIPLIER)`, a float times an int, truncated (probabilities are not negative). -/
def cpdDawgD (data : List ((Str × Tag) × Dbl)) : List (Str × Nat) :=
  data.map fun e => (probKey e.1.1 e.1.2, ⌊(Score.mul e.2 (Score.ofNat 1000000) : Dbl).val⌋.toNat)

/-- probability.py:134-148 `_parse_probabilities`, `_tag_probabilities` -/
def tagProbabilitiesD (m : Morph Dbl) (w : Str) (fd : FreqDist) (bins : Nat) : Except PyErr (List (Tag × Dbl)) := do
  let ps ← m.parse w
  pure (ps.foldl (fun d p => tagSet p.tag (laplaceD fd bins p.tag.grammemes) d) [])

/-- probability.py:100-119 `build_cpd_dawg`: the table that is handed to `ConditionalProbDistDAWG`; `_all_the_same` (130-131) compares floats. -/
def cpdDataD (m : Morph Dbl) (cpd : List (Str × FreqDist × Nat)) (minFreq : Int) : Except PyErr (List ((Str × Tag) × Dbl)) := do
  let recs ← mapE (fun e => do
    let probs ← tagProbabilitiesD m e.1 e.2.1 e.2.2
    pure (e.1, probs)) (cpd.filter fun e => decide (minFreq ≤ (e.2.1.n : Int)))
  pure ((recs.filter fun r => !allTheSame r.2).flatMap fun r => r.2.map fun tp => ((r.1, tp.1), tp.2))

/-- probability.py:19-33 `add_conditional_tag_probability`, up to the table. -/
def estimateD (m : Morph Dbl) (corpus : List (Str × List (Str × Str))) (minFreq : Int) : Except PyErr (List ((Str × Tag) × Dbl)) := do
  let obs ← ambiguousWords m (disambiguated corpus)
  let cpd ← condProb m (condFreq obs)
  cpdDataD m cpd minFreq

end Verif
