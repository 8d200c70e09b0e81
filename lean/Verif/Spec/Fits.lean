/-
Specification vocabulary: the sizes the 16-bit numbers of a dictionary allow.
-/
import Verif.Spec.Evidence
import Mathlib.Data.Finset.Card

namespace Verif

/-- The (linked) lexemes `ls`, with stems and paradigms given by `par`, can be compiled with the options `o`: ids, form numbers and
counts are at most 65535. -/
structure Fits (o : COptions) (par : Lexeme → Str × StrPara) (ls : List Lexeme) : Prop where
  /-- every prefix of a form is an allowed one, and its (last) position in the list is an id -/
  prefixes : ∀ L ∈ ls, ∀ r ∈ (par L).2, ∃ k, k ≤ 65535 ∧ o.paradigmPrefixes[k]? = some r.2.2 ∧ ∀ j, k < j → o.paradigmPrefixes[j]? ≠ some r.2.2
  /-- number of different suffixes -/
  suffixes : (ls.flatMap fun L => (par L).2.map (·.1)).toFinset.card ≤ 65536
  /-- number of different tags -/
  tags : (ls.flatMap fun L => L.map Prod.snd).toFinset.card ≤ 65536
  /-- number of different paradigms -/
  paradigms : (ls.map fun L => (par L).2).toFinset.card ≤ 65536
  /-- number of forms of a lexeme -/
  forms : ∀ L ∈ ls, L.length ≤ 65536
  /-- how often the forms that win were observed with an ending -/
  guesses : ∀ pre e cnt P idx,
    BestGuess (observations par o.minParadigmPopularity o.maxSuffixLength ls) o.minEndingFreq pre e cnt P idx → cnt ≤ 65535

/-- The compiled lexemes can also be saved: the number of paradigms and three times the number of forms of each are written as 16-bit numbers. -/
structure FitsFile (par : Lexeme → Str × StrPara) (ls : List Lexeme) : Prop where
  paradigms : (ls.map fun L => (par L).2).toFinset.card ≤ 65535
  forms : ∀ L ∈ ls, 3 * L.length ≤ 65535

end Verif
