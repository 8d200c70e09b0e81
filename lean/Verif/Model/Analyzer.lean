/-
Model of /repo/pymorphy2/analyzer.py: `ProbabilityEstimator`, `MorphAnalyzer.parse/tag/normal_forms/
iter_known_word_parses/word_is_known`, `Parse.is_known`.
-/
import Verif.Model.Units

namespace Verif

variable {S : Type} [Score S]

/-! ### P(t|w) -/

/-- dawg.py:65 `"%s:%s" % (word, tag)`; `str(tag)` is the original tag string (tagset.py:351-352). -/
def probKey (word : Str) (t : Tag) : Str := word ++ ':' :: t.str

/-- dawg.py:64-66 `ConditionalProbDistDAWG.prob` (`/` is true division; `MULTIPLIER` = 1000000). -/
def prob (dawg : List (Str × Nat)) (word : Str) (t : Tag) : S :=
  Score.div (Score.ofNat ((dictGet (probKey word t) dawg).getD 0)) (Score.ofNat 1000000)

/-- `sum(xs)`: left to right, starting with 0. -/
def sumS (xs : List S) : S := xs.foldl Score.add Score.zero

/-- analyzer.py:73-93 `ProbabilityEstimator.apply_to_parses` -/
def applyToParses (dawg : List (Str × Nat)) (wl : Str) (ps : List (Parse S)) : Except PyErr (List (Parse S)) :=
  if ps = [] then .ok [] else
    let probs : List S := ps.map fun p => prob dawg wl p.tag
    if Score.isZero (sumS probs) then
      let total := sumS (ps.map Parse.score)
      if Score.isZero total then .error .zeroDivisionError
      else
        let k := Score.div Score.one total
        .ok (ps.map fun p => { p with score := Score.mul p.score k })
    else
      .ok (sortByScore (ps.map fun p => { p with score := prob dawg wl p.tag }))

/-- analyzer.py:95-101 `ProbabilityEstimator.apply_to_tags` -/
def applyToTags (S : Type) [Score S] (dawg : List (Str × Nat)) (wl : Str) (ts : List Tag) : List Tag :=
  ts.insertionSort (fun a b => Score.le (prob dawg wl b : S) (prob dawg wl a) = true)

/-! ### The unit loop -/

/-- analyzer.py:314-318: the loop of `parse` over the units. -/
def runParse (m : Morph S) (rec : Rec S) (word wl : Str) :
    List (BUnit S × Bool) → Seen → List (Parse S) → Except PyErr (List (Parse S))
  | [], _, res => .ok res
  | (u, terminal) :: us, seen, res => do
    let r ← unitParse m rec u word wl seen
    let res' := res ++ r.1
    if terminal = true ∧ res' ≠ [] then pure res'
    else runParse m rec word wl us r.2 res'

/-- analyzer.py:333-337: the loop of `tag` over the units. -/
def runTag (m : Morph S) (rec : Rec S) (word wl : Str) :
    List (BUnit S × Bool) → SeenTags → List Tag → Except PyErr (List Tag)
  | [], _, res => .ok res
  | (u, terminal) :: us, seen, res => do
    let r ← unitTag m rec u word wl seen
    let res' := res ++ r.1
    if terminal = true ∧ res' ≠ [] then pure res'
    else runTag m rec word wl us r.2 res'

/-- analyzer.py:301-326 `MorphAnalyzer.parse`, with the nested calls of the units given by `rec`.
(`result_type` only wraps the tuples.) -/
def parseStep (m : Morph S) (rec : Rec S) (word : Str) : Except PyErr (List (Parse S)) := do
  let wl := m.env.lower word
  let res ← runParse m rec word wl m.units [] []
  match m.est with
  | some dawg => applyToParses dawg wl res
  | none => pure res

/-- analyzer.py:328-341 `MorphAnalyzer.tag` -/
def tagStep (m : Morph S) (rec : Rec S) (word : Str) : Except PyErr (List Tag) := do
  let wl := m.env.lower word
  let res ← runTag m rec word wl m.units [] []
  match m.est with
  | some dawg => pure (applyToTags S dawg wl res)
  | none => pure res

/-- `morph.parse` / `morph.tag` with a budget of `n` nested calls; `RecursionError` when it is exhausted. -/
def analyze (m : Morph S) : Nat → Rec S
  | 0 => ⟨fun _ => .error .recursionError, fun _ => .error .recursionError⟩
  | n + 1 => ⟨parseStep m (analyze m n), tagStep m (analyze m n)⟩

/-- A budget that always suffices (C01 proves that a larger one changes nothing). -/
def Morph.depth (m : Morph S) (word : Str) : Nat := (m.env.lower word).length + 1

/-- `morph.parse(word)` -/
def Morph.parse (m : Morph S) (word : Str) : Except PyErr (List (Parse S)) :=
  (analyze m (m.depth word)).parse word

/-- `morph.tag(word)` -/
def Morph.tag (m : Morph S) (word : Str) : Except PyErr (List Tag) :=
  (analyze m (m.depth word)).tag word

/-- analyzer.py:343-355: the loop of `normal_forms`. -/
def normalFormsLoop : List (Parse S) → List Str → List Str
  | [], _ => []
  | p :: ps, seen => if p.nf ∈ seen then normalFormsLoop ps seen else p.nf :: normalFormsLoop ps (p.nf :: seen)

/-- analyzer.py:343-355 `normal_forms` -/
def Morph.normalForms (m : Morph S) (word : Str) : Except PyErr (List Str) := do
  let ps ← m.parse word
  pure (normalFormsLoop ps [])

/-- analyzer.py:405-425 `word_is_known` -/
def Morph.wordIsKnown (m : Morph S) (word : Str) (strict : Bool := false) : Bool :=
  m.dict.wordIsKnown (m.env.lower word) (if strict then none else some m.sub)

/-- analyzer.py:49-55 `Parse.is_known` -/
def Morph.isKnown (m : Morph S) (p : Parse S) : Bool := m.dict.wordIsKnown p.word (some m.sub)

/-- analyzer.py:389-403 `iter_known_word_parses` (`self._units[0][0]` raises `IndexError` when there are no
units and a word is found). -/
def Morph.iterKnownWordParses (m : Morph S) (pre : Str) : Except PyErr (List (Parse S)) := do
  let ws ← m.dict.iterKnownWords pre
  mapE (fun w => do
    let u ← pyGet m.units 0
    pure ⟨w.1, w.2.1, w.2.2.1, Score.one, .single (.dict u.1.obj w.1 w.2.2.2.1 w.2.2.2.2)⟩) ws

end Verif
