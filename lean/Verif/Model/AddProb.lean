/-
Model of /repo/pymorphy2/opencorpora_dict/probability.py:19-45 `add_conditional_tag_probability`, in double precision: the analyzer it constructs, the files
it writes.  The corpus reader is third party: a corpus is the list of its words with their parses.
-/
import Verif.Model.ProbDbl
import Verif.Model.Construct

namespace Verif

/-- probability.py:39-44: what is put in the metadata; `cpd.conditions()` are the observed words, `cfd.N()` is the number of observations. -/
def probMeta (cfd : List (Str × FreqDist)) (cpd : List (Str × FreqDist × Nat)) (minFreq : Int) : List (Str × Json) :=
  [(c!"P(t|w)", .bool true), (c!"P(t|w)_unique_words", .num cpd.length), (c!"P(t|w)_outcomes", .num ((cfd.map fun e => e.2.n).sum : Nat)),
    (c!"P(t|w)_min_word_freq", .num minFreq)]

/-- probability.py:23-24: the analyzer given, or one without probabilities made of the dictionary. -/
def probMorph (s : Sys) (cls : TagCls) (path : Str) : Option (Morph Dbl) → Except PyErr (Morph Dbl)
  | some m => .ok m
  | none => (construct s cls { path := some path, est := .off }).map Analyzer.morph

/-- probability.py:29-33: the table and the metadata. -/
def probTable (s : Sys) (cls : TagCls) (path : Str) (given : Option (Morph Dbl)) (corpus : List (Str × List (Str × Str))) (minFreq : Int) :
    Except PyErr (List (Str × Nat) × List (Str × Json)) := do
  let m ← probMorph s cls path given
  let obs ← ambiguousWords m (disambiguated corpus)
  let cfd := condFreq obs
  let cpd ← condProb m cfd
  let data ← cpdDataD m cpd minFreq
  pure (cpdDawgD data, probMeta cfd cpd minFreq)

/-- probability.py:19-45 `add_conditional_tag_probability`: the writes it does in the folder of the dictionary, and how it ends.  The metadata is read after
the table has been written. -/
def addProb (s : Sys) (cls : TagCls) (path : Str) (given : Option (Morph Dbl)) (corpus : List (Str × List (Str × Str))) (minFreq : Int) :
    List (FName × File) × Except PyErr Unit :=
  match probTable s cls path given corpus minFreq with
  | .error e => ([], .error e)
  | .ok (t, extra) =>
    match updateMeta ((s.disk path).set .probs (.intDawg t)) extra with
    | .error e => ([(.probs, .intDawg t)], .error e)
    | .ok ops => ((.probs, .intDawg t) :: ops, .ok ())

/-- The machine with another folder at a path. -/
def Sys.withDisk (s : Sys) (path : Str) (d : Disk) : Sys := { s with disk := fun p => if p = path then d else s.disk p }

end Verif
