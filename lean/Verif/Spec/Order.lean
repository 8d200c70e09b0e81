/-
Specification vocabulary for C74: the order of results.
-/
import Verif.Spec.Rules
import Verif.Spec.Predict

namespace Verif

/-- `l` is `l₀` sorted by non-increasing key; elements with equal keys keep their order. -/
structure StableBy {α : Type} (key : α → Rat) (l₀ l : List α) : Prop where
  perm : l.Perm l₀
  sorted : l.Pairwise fun a b => key b ≤ key a
  stable : ∀ s : Rat, l.filter (fun a => decide (key a = s)) = l₀.filter fun a => decide (key a = s)

/-- The stored P(t|w), 0 if there is none. -/
def Morph.prior (m : Morph Rat) (wl : Str) (t : Tag) : Rat :=
  match m.est with
  | none => 0
  | some dawg => ((dictGet (probKey wl t) dawg).getD 0 : Nat) / 1000000

/-- What a table has for the spellings of `x`, one spelling after another; the same spelling in the order of the table. -/
def Dawg.inOrder {V : Type} (d : Dawg V) (sub : Subst) (x : Str) : List (Str × V) :=
  (variants sub x).flatMap fun v => d.filter fun e => decide (e.1 = v)

/-- The form with this number is known and its tag is productive. -/
def Dict.productiveForm (d : Dict) (para idx : Nat) : Bool :=
  match d.tagInfo para idx with
  | .ok t => t.isProductive
  | .error _ => false

/-- A line of a prediction table that fits a word: the number of the paradigm prefix, the length of the ending, and the line. -/
structure Ending where
  k : Nat
  i : Nat
  sfx : Str
  cnt : Nat
  para : Nat
  idx : Nat
  tag : Tag

/-- All productive lines of the prediction tables for the longest known endings of the word: the tables in reverse order, each in its
own order. -/
structure Dict.EndingsOf (d : Dict) (sub : Subst) (wl : Str) (E : List Ending) : Prop where
  sound : ∀ e ∈ E, d.LongestEnding sub wl e.k e.i ∧ d.Predicts sub wl e.k e.i e.sfx e.cnt e.para e.idx e.tag
  tables : E.Pairwise fun e f => f.k ≤ e.k
  lines : ∀ (k i : Nat) (t : Dawg (Nat × Nat × Nat)), d.LongestEnding sub wl k i → d.pred[k]? = some t →
    (E.filter fun e => decide (e.k = k)).map (fun e => (e.sfx, (e.cnt, e.para, e.idx))) =
      (t.inOrder sub (takeRight wl i)).filter fun x => d.productiveForm x.2.2.1 x.2.2.2

/-- The share of a line among all lines for the same ending. -/
def Dict.share (d : Dict) (sub : Subst) (wl : Str) (e : Ending) : Rat := (e.cnt : Rat) / ((1 + d.endingCount sub wl e.k e.i : Nat) : Rat)

/-- Where the results come from when the rule answers: `ps` are the results of `parse`, `ts` those of `tag`, both before P(t|w) is looked at. -/
def Rule.ordered {S : Type} [Score S] (m : Morph S) (D : RuleData) (w : Str) (ps : List (Parse S)) (ts : List Tag) : Rule → Prop
  | .word => ts = ps.map Parse.tag ∧ ∃ ds is, ps = ds ++ is ∧
      ds.map Parse.dictEntry = (m.dict.words.inOrder m.sub (m.env.lower w)).map some ∧ ∀ p ∈ is, p.isInitial = true
  | .wordOrForeign => ts = ps.map Parse.tag ∧ ∃ ds is fs, ps = ds ++ is ++ fs ∧
      ds.map Parse.dictEntry = (m.dict.words.inOrder m.sub (m.env.lower w)).map some ∧ (∀ p ∈ is, p.isInitial = true) ∧
      (fs.map fun p => p.tag.str).Sublist [c!"ROMN", c!"LATN"]
  | .foreign => ts = ps.map Parse.tag ∧ (ps.map fun p => p.tag.str).Sublist [c!"ROMN", c!"LATN"]
  | .number | .punct | .adverb => ts = ps.map Parse.tag ∧ ps.length = 1
  | .particle => ∃ rest part, FirstParticle D.particles (m.env.lower w) rest part ∧ m.tag rest = .ok ts ∧ ∃ qs, m.parse rest = .ok qs ∧ ∃ u,
      (ps.map Parse.core).Sublist (qs.map fun q => (q.word ++ part, q.tag, q.nf ++ part, .push q.stack (.simple u part)))
  | .compound => ts.Sublist (ps.map Parse.tag) ∧ ∃ a b, m.env.lower w = a ++ '-' :: b ∧ '-' ∉ a ∧ ∃ lp rp, m.parse a = .ok lp ∧ m.parse b = .ok rp ∧
      ∃ u both fixed, ps = both ++ fixed ∧
        (both.map Parse.core).Sublist (lp.flatMap fun l => rp.map fun r =>
          (l.word ++ '-' :: r.word, l.tag, l.nf ++ '-' :: r.nf, .single (.both u l.stack r.stack))) ∧
        (fixed.map Parse.core).Sublist (rp.map fun r => (a ++ '-' :: r.word, r.tag, a ++ '-' :: r.nf, .single (.fixed u a r.stack)))
  | .prefixed => ∃ L : List (Str × Str), (L.Pairwise fun s t => t.1.length < s.1.length) ∧
      (∀ s ∈ L, s.1 ∈ D.prefixes ∧ m.env.lower w = s.1 ++ s.2) ∧
      (∃ Q : List (List (Parse S)), List.Forall₂ (fun s qs => m.parse s.2 = .ok qs) L Q ∧ ∃ u,
        (ps.map Parse.core).Sublist ((L.zip Q).flatMap fun x => x.2.map fun q => (x.1.1 ++ q.word, q.tag, x.1.1 ++ q.nf, .push q.stack (.simple u x.1.1)))) ∧
      ∃ T : List (List Tag), List.Forall₂ (fun s ts => m.tag s.2 = .ok ts) L T ∧ ts.Sublist T.flatten
  | .guess => (Only m w (c!"UNKN") ps ∧ ts = [⟨c!"UNKN"⟩]) ∨
      ∃ pre sfx preT sfxT, ps = pre ++ sfx ∧ ts = preT ++ sfxT ∧
        -- first the words with a prefix cut off, the shortest prefixes first
        (∃ L : List (Str × Str), (L.Pairwise fun s t => s.1.length < t.1.length) ∧ (∀ s ∈ L, m.env.lower w = s.1 ++ s.2) ∧
          (∃ u v, (pre.map Parse.stack).Sublist (L.flatMap fun s => (m.dict.words.inOrder m.sub s.2).map fun e =>
            .push (.single (.dict v e.1 e.2.1 e.2.2)) (.simple u s.1))) ∧
          ∃ T, List.Forall₂ (fun (e : Str × Nat × Nat) t => m.dict.tagInfo e.2.1 e.2.2 = .ok t) (L.flatMap fun s => m.dict.words.inOrder m.sub s.2) T ∧
            preT.Sublist T) ∧
        -- then the predictions (for words of four letters and more)
        ((w.length < 4 ∧ sfx = [] ∧ sfxT = []) ∨ ∃ E, m.dict.EndingsOf m.sub (m.env.lower w) E ∧
          (∃ E₀ E₁ u v, E₀.Sublist E ∧ StableBy (m.dict.share m.sub (m.env.lower w)) E₀ E₁ ∧
            sfx.map Parse.stack = E₁.map fun e => .push (.single (.dict v (dropRight (m.env.lower w) e.i ++ e.sfx) e.para e.idx)) (.simple u e.sfx)) ∧
          ∃ B : List (Nat × Tag), sfxT = B.map Prod.snd ∧
            (∀ x ∈ B, ∃ before e after, E = before ++ e :: after ∧ x = (e.cnt, e.tag) ∧ ∀ f ∈ before, f.tag.eqv e.tag = false) ∧
            B.Pairwise fun x y => y.1 < x.1 ∨ (x.1 = y.1 ∧ y.2.lt x.2 = true))

end Verif
