/-
Specification vocabulary: what `pymorphy parse` prints for a token.
-/
import Verif.Model.Cli
import Verif.Demo

namespace Verif

/-- The scores of the parses with normal form `l`, added up. -/
def lemmaTotal (ps : List (Parse Rat)) (l : Str) : Rat := ((ps.filter fun p => p.nf = l).map Parse.score).sum

/-- The table of lemmas of a token: each normal form of its parses that reaches the threshold, once, with its total score; higher
scores first, and of equal ones the one that occurs first among the parses. -/
structure LemmaTable (thresh : Rat) (ps : List (Parse Rat)) (t : List (Str × Rat)) : Prop where
  once : (t.map Prod.fst).Nodup
  entries : ∀ l w, (l, w) ∈ t ↔ (∃ p ∈ ps, p.nf = l) ∧ w = lemmaTotal ps l ∧ thresh ≤ w
  order : t.Pairwise fun a b => b.2 < a.2 ∨ (a.2 = b.2 ∧ (ps.map Parse.nf).idxOf a.1 < (ps.map Parse.nf).idxOf b.1)

/-- One analysis: normal form (with `-l`), score (with `-s`), tag, as in `кошка:0.250=NOUN,anim,femn sing,nomn`. -/
def analysis (fmt : Rat → Str) (o : CliOpts Rat) (p : Parse Rat) : Str :=
  (if o.normalForm then p.nf ++ c!":" else []) ++ (if o.score then fmt p.score ++ c!"=" else []) ++ p.tag.str

/-- What stands between the braces: the tags alone are those `tag()` gives if there is no threshold; with lemmas and without tags it is the table
of lemmas; otherwise the parses that reach the threshold are printed one by one. -/
inductive Printed (fmt : Rat → Str) (m : Morph Rat) (o : CliOpts Rat) (tok : Str) : List Str → Prop
  | tags (ts : List Tag) (hn : o.normalForm = false) (ht : o.tag = true) (hs : o.score = false) (h0 : o.thresh = 0) (h : m.tag tok = .ok ts) :
      Printed fmt m o tok (ts.map Tag.str)
  | analyses (ps : List (Parse Rat)) (ht : o.tag = true) (hx : o.normalForm = true ∨ o.score = true ∨ o.thresh ≠ 0) (h : m.parse tok = .ok ps) :
      Printed fmt m o tok ((ps.filter fun p => o.thresh ≤ p.score).map (analysis fmt o))
  | lemmas (ps : List (Parse Rat)) (t : List (Str × Rat)) (hn : o.normalForm = true) (ht : o.tag = false) (h : m.parse tok = .ok ps)
      (hl : LemmaTable o.thresh ps t) : Printed fmt m o tok (t.map fun e => e.1 ++ if o.score then c!":" ++ fmt e.2 else [])

end Verif
