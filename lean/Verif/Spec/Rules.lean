/-
Specification vocabulary for C71: the rules of the default analyzers.
-/
import Verif.Props.C06
import Verif.Props.C52
import Verif.Props.C60
import Verif.Props.C61

namespace Verif

variable {S : Type} [Score S]

/-- The rules by which a word can be analyzed. -/
inductive Rule
  /-- dictionary words and initials -/
  | word
  /-- the same, and words in Latin letters (Ukrainian) -/
  | wordOrForeign
  /-- integers and decimal fractions -/
  | number
  /-- punctuation -/
  | punct
  /-- Roman numbers and words in Latin letters -/
  | foreign
  /-- a word and a particle -/
  | particle
  /-- "по-" and an adjective -/
  | adverb
  /-- two words joined with a hyphen -/
  | compound
  /-- a known prefix and a word -/
  | prefixed
  /-- everything else -/
  | guess

/-- What depends on the language: which words are initials, the particles and the known prefixes. -/
structure RuleData where
  initial : Str → Prop
  particles : List Str
  prefixes : List Str

/-- The word with commas replaced by points is a number for Python. -/
def SaysFloat (e : Env) (w : Str) : Prop := e.isFloat (w.map fun c => if c = ',' then '.' else c) = true

/-- When a rule applies to the word `w`. -/
def Rule.applies (m : Morph S) (D : RuleData) (w : Str) : Rule → Prop
  | .word => m.wordIsKnown w = true ∨ D.initial w
  | .wordOrForeign => m.wordIsKnown w = true ∨ D.initial w ∨ isRomanNumber m.env w = true ∨ isLatin m.env w = .ok true
  | .number => m.env.isInt w = true ∨ SaysFloat m.env w
  | .punct => isPunctuation m.env w = true
  | .foreign => isRomanNumber m.env w = true ∨ isLatin m.env w = .ok true
  | .particle => ∃ rest, ∃ part ∈ D.particles, rest ≠ [] ∧ m.env.lower w = rest ++ part
  | .adverb => ∃ rest, m.env.lower w = c!"по-" ++ rest ∧ 2 ≤ rest.length ∧
      ∃ ts, m.tag rest = .ok ts ∧ ∃ t ∈ ts, c!"ADJF" ∈ t.tuple ∧ c!"sing" ∈ t.tuple ∧ c!"datv" ∈ t.tuple
  | .compound => ∃ a b, m.env.lower w = a ++ '-' :: b ∧ a ≠ [] ∧ b ≠ [] ∧ '-' ∉ a ∧ '-' ∉ b ∧ (∀ q ∈ D.prefixes, ¬ q <+: m.env.lower w) ∧
      ∃ lp rp, m.parse a = .ok lp ∧ m.parse b = .ok rp ∧ ∃ r ∈ rp, ¬ noPos r.tag ∨ ∃ l ∈ lp, ¬ noPos l.tag ∧ SameForm l.tag r.tag
  | .prefixed => ∃ pre ∈ D.prefixes, ∃ rest, m.env.lower w = pre ++ rest ∧ 3 ≤ rest.length ∧
      ∃ qs, m.parse rest = .ok qs ∧ ∃ q ∈ qs, q.tag.isProductive = true
  | .guess => True

/-- The only result is the word itself in lower case, with the tag `t`. -/
def Only (m : Morph S) (w : Str) (t : Str) (ps : List (Parse S)) : Prop :=
  ∃ u, ps.map Parse.core = [(m.env.lower w, ⟨t⟩, m.env.lower w, .single (.simple u w))]

/-- The result says that `w` is a Roman number, or written in Latin letters. -/
def Parse.ForeignTo (p : Parse S) (m : Morph S) (w : Str) : Prop :=
  p.word = m.env.lower w ∧ p.nf = m.env.lower w ∧
    ((p.tag.str = c!"ROMN" ∧ isRomanNumber m.env w = true) ∨ (p.tag.str = c!"LATN" ∧ isLatin m.env w = .ok true))

/-- The kind of the last method that made the result. -/
def Parse.madeBy (p : Parse S) (k : UKind) : Prop := ∃ u, p.outer = some u ∧ u.kind = k

/-- What the answer is when a rule is the first that applies. -/
def Rule.answers (m : Morph S) (D : RuleData) (w : Str) (ps : List (Parse S)) : Rule → Prop
  | .word => ∀ p ∈ ps, (p.dictEntry.isSome = true ∧ m.wordIsKnown w = true) ∨ (p.isInitial = true ∧ D.initial w)
  | .wordOrForeign => ∀ p ∈ ps, (p.dictEntry.isSome = true ∧ m.wordIsKnown w = true) ∨ (p.isInitial = true ∧ D.initial w) ∨ p.ForeignTo m w
  | .number => (m.env.isInt w = true → Only m w (c!"NUMB,intg") ps) ∧ (m.env.isInt w = false → Only m w (c!"NUMB,real") ps)
  | .punct => Only m w (c!"PNCT") ps
  | .foreign => (∀ p ∈ ps, p.ForeignTo m w) ∧ (isRomanNumber m.env w = true → ∃ p ∈ ps, p.tag.str = c!"ROMN") ∧
      (isLatin m.env w = .ok true → ∃ p ∈ ps, p.tag.str = c!"LATN")
  | .particle => ∃ rest, ∃ part ∈ D.particles, rest ≠ [] ∧ m.env.lower w = rest ++ part ∧
      ∃ qs, m.parse rest = .ok qs ∧ ∀ p ∈ ps, ∃ q ∈ qs, ∃ u, u.kind = .particle ∧ p.followedBy q u part
  | .adverb => Only m w (c!"ADVB") ps
  | .compound => ∀ p ∈ ps, p.madeBy .hyphenated
  | .prefixed => ∀ p ∈ ps, ∃ pre ∈ D.prefixes, ∃ rest, m.env.lower w = pre ++ rest ∧
      ∃ qs, m.parse rest = .ok qs ∧ ∃ q ∈ qs, q.tag.isProductive = true ∧ ∃ u, u.kind = .pref ∧ p.prefixedBy q u pre
  | .guess => Only m w (c!"UNKN") ps ∨
      ∀ p ∈ ps, (p.madeBy .pref ∧ 4 ≤ (m.env.lower w).length) ∨ (p.madeBy .suff ∧ 4 ≤ w.length)

/-- A letter a Russian name can begin with: the capitals, except the signs and ы. -/
def RuInitial (w : Str) : Prop := ∃ c : Char, w = [c] ∧ (c = 'Ё' ∨ ('А' ≤ c ∧ c ≤ 'Я' ∧ c ≠ 'Ъ' ∧ c ≠ 'Ы' ∧ c ≠ 'Ь'))

/-- A letter a Ukrainian name can begin with. -/
def UkInitial (w : Str) : Prop :=
  ∃ c : Char, w = [c] ∧ (c = 'Ґ' ∨ c = 'Є' ∨ c = 'І' ∨ c = 'Ї' ∨ ('А' ≤ c ∧ c ≤ 'Я' ∧ c ≠ 'И' ∧ c ≠ 'Ъ' ∧ c ≠ 'Ы' ∧ c ≠ 'Ь' ∧ c ≠ 'Э'))

/-- Russian. -/
def ruData : RuleData := ⟨RuInitial, [c!"-то", c!"-ка", c!"-таки", c!"-де", c!"-тко", c!"-тка", c!"-с", c!"-ста"], ruKnownPrefixes⟩

/-- Ukrainian. -/
def ukData : RuleData := ⟨UkInitial, [c!"-но", c!"-таки", c!"-бо", c!"-от"], ukKnownPrefixes⟩

/-- The rules in the order in which they are tried. -/
def ruRules : List Rule := [.word, .number, .punct, .foreign, .particle, .adverb, .compound, .prefixed, .guess]
def ukRules : List Rule := [.wordOrForeign, .number, .punct, .particle, .compound, .prefixed, .guess]

end Verif
