/-
Specification vocabulary: what a compiled dictionary's prediction tables should contain.
-/
import Verif.Model.Compile
import Verif.Spec.Paradigm

namespace Verif

/-- The last `n` letters of a word (all of it if it is shorter). -/
def lastLetters (n : Nat) (w : Str) : Str := w.drop (w.length - n)

/-- The part of speech of a tag: what stands before the first comma or space. -/
def partOfSpeech (tag : Str) : Str := tag.takeWhile fun c => c ≠ ',' ∧ c ≠ ' '

/-- How many of the lexemes have paradigm `P`; `par` gives the stem and the paradigm of a lexeme. -/
def popularityOf (par : Lexeme → Str × StrPara) (ls : List Lexeme) (P : StrPara) : Nat := ls.countP fun L => (par L).2 = P

/-- An observation: a word that is form `idx` of a lexeme with paradigm `para` has the ending `ending`. -/
structure Obs where
  para : StrPara
  idx : Nat
  ending : Str
  deriving DecidableEq

/-- The observations made on one form `(row, idx)`: one for each length from that of its suffix (at least 1) to `maxLen`. -/
def formObs (maxLen : Nat) (stem : Str) (P : StrPara) (ri : (Str × Str × Str) × Nat) : List Obs :=
  ((List.range (maxLen + 1)).filter fun n => 1 ≤ n ∧ ri.1.1.length ≤ n).map fun n => ⟨P, ri.2, lastLetters n (ri.1.2.2 ++ stem ++ ri.1.1)⟩

/-- All observations: those on the forms of the lexemes that have a stem and a paradigm shared by at least `minPopularity` lexemes. -/
def observations (par : Lexeme → Str × StrPara) (minPopularity maxLen : Nat) (ls : List Lexeme) : List Obs :=
  ls.flatMap fun L =>
    if (par L).1 = [] ∨ popularityOf par ls (par L).2 < minPopularity then []
    else (par L).2.zipIdx.flatMap (formObs maxLen (par L).1 (par L).2)

/-- The record `(ending, count, paradigm, form)` belongs to the prediction table of the paradigm prefix `pre`: the ending has been observed at
least `minFreq` times in all, the form has the prefix, `cnt` is the number of times this form has been observed with the ending, and no
form of the same part of speech with the prefix has been observed with it more often. -/
structure BestGuess (obs : List Obs) (minFreq : Nat) (pre : Str) (e : Str) (cnt : Nat) (P : StrPara) (idx : Nat) : Prop where
  frequent : minFreq ≤ obs.countP fun x => x.ending = e
  count : cnt = obs.count ⟨P, idx, e⟩
  pos : 1 ≤ cnt
  row : ∃ r, P[idx]? = some r ∧ r.2.2 = pre ∧ ∀ P' idx' r', P'[idx']? = some r' → r'.2.2 = pre → partOfSpeech r'.2.1 = partOfSpeech r.2.1 →
    obs.count ⟨P', idx', e⟩ ≤ cnt

end Verif
