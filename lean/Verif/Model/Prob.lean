/-
Model of /repo/pymorphy2/opencorpora_dict/probability.py (estimation of P(t|w)) and of the constructor of
`ConditionalProbDistDAWG` (/repo/pymorphy2/dawg.py:48-62).  Arithmetic is exact (`Rat`); the real code uses floats.
NLTK (`FreqDist`, `ConditionalFreqDist`, `LaplaceProbDist`) and opencorpora-tools (`CorpusReader`) are third-party: the model
states their contract.
-/
import Verif.Model.Analyzer
import Verif.Model.Preprocess
import Mathlib.Data.Rat.Floor
import Mathlib.Data.Finset.Card

namespace Verif

/-- dawg.py:58-62: `("%s:%s" % (word, tag), int(prob*MULTIPLIER))` for every item; `int` truncates, and probabilities are not negative. -/
def cpdDawg (data : List ((Str × Tag) × Rat)) : List (Str × Nat) :=
  data.map fun e => (probKey e.1.1 e.1.2, ⌊e.2 * 1000000⌋.toNat)

/-- probability.py:122-127 `_disambiguated_words`: a corpus is a list of words with their parses (lemma, tag). -/
def disambiguated (corpus : List (Str × List (Str × Str))) : List (Str × Str) :=
  (corpus.filter fun e => e.2.length == 1).filterMap fun e => (e.2.head?).map fun p => (e.1, p.2)

/-- probability.py:81-87 `ambiguous_words` -/
def ambiguousWords {S : Type} [Score S] (m : Morph S) (words : List (Str × Str)) : Except PyErr (List (Str × Grams)) := do
  let l ← mapE (fun e => do
    let ts ← m.tag e.1
    pure (if 1 < ts.length then [(m.env.lower e.1, tag2grammemes e.2)] else [])) words
  pure (l.flatten.filter fun e => e.2 != {c!"UNKN"})

/-- `nltk.FreqDist`: a counter. -/
abbrev FreqDist := List (Grams × Nat)

/-- `fd.N()`: the number of counted samples. -/
def FreqDist.n (fd : FreqDist) : Nat := (fd.map Prod.snd).sum

/-- `nltk.ConditionalFreqDist(samples)`, probability.py:95: `self[condition][sample] += 1` -/
def condFreq (samples : List (Str × Grams)) : List (Str × FreqDist) :=
  samples.foldl (fun cfd e =>
    let fd := (dictGet e.1 cfd).getD []
    dictSet e.1 (dictSet e.2 ((dictGet e.2 fd).getD 0 + 1) fd) cfd) []

/-- `nltk.LaplaceProbDist(fd, bins).prob(sample)` -/
def laplace (fd : FreqDist) (bins : Nat) (g : Grams) : Rat := (((dictGet g fd).getD 0 : Nat) + 1) / ((fd.n : Rat) + bins)

/-- probability.py:61-69, 91-96: the distribution of every observed word, `bins = max(len(morph.tag(condition)), fd.B())` (`fd.B()` is the
number of different samples). -/
def condProb {S : Type} [Score S] (m : Morph S) (cfd : List (Str × FreqDist)) : Except PyErr (List (Str × FreqDist × Nat)) :=
  mapE (fun e => do
    let ts ← m.tag e.1
    pure (e.1, e.2, max ts.length e.2.length)) cfd

/-- `d[tag] = v` in a Python dict with tag keys: tags are the same key when their grammeme tuples are equal; the first key object stays. -/
def tagSet {V : Type} (t : Tag) (v : V) : List (Tag × V) → List (Tag × V)
  | [] => [(t, v)]
  | (t', v') :: r => if t'.eqv t then (t', v) :: r else (t', v') :: tagSet t v r

/-- probability.py:134-148 `_parse_probabilities`, `_tag_probabilities` -/
def tagProbabilities (m : Morph Rat) (w : Str) (fd : FreqDist) (bins : Nat) : Except PyErr (List (Tag × Rat)) := do
  let ps ← m.parse w
  pure (ps.foldl (fun d p => tagSet p.tag (laplace fd bins p.tag.grammemes) d) [])

/-- probability.py:130-131 `_all_the_same` -/
def allTheSame {V : Type} [DecidableEq V] (probs : List (Tag × V)) : Bool := decide ((probs.map Prod.snd).toFinset.card ≤ 1)

/-- probability.py:100-119 `build_cpd_dawg`: the table that is handed to `ConditionalProbDistDAWG`. -/
def cpdData (m : Morph Rat) (cpd : List (Str × FreqDist × Nat)) (minFreq : Int) : Except PyErr (List ((Str × Tag) × Rat)) := do
  let recs ← mapE (fun e => do
    let probs ← tagProbabilities m e.1 e.2.1 e.2.2
    pure (e.1, probs)) (cpd.filter fun e => decide (minFreq ≤ (e.2.1.n : Int)))
  pure ((recs.filter fun r => !allTheSame r.2).flatMap fun r => r.2.map fun tp => ((r.1, tp.1), tp.2))

/-- probability.py:19-33 `add_conditional_tag_probability`, up to the table (`morph` has no probability estimator); saving it and updating the
meta data is in `Verif.Model.Storage`. -/
def estimate (m : Morph Rat) (corpus : List (Str × List (Str × Str))) (minFreq : Int) : Except PyErr (List ((Str × Tag) × Rat)) := do
  let obs ← ambiguousWords m (disambiguated corpus)
  let cpd ← condProb m (condFreq obs)
  cpdData m cpd minFreq

end Verif
