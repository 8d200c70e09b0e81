/-
Model of the work done by /repo/pymorphy2/analyzer.py `MorphAnalyzer.parse` and `tag`: the same computations as in
`Model/Units` and `Model/Analyzer`, with a record of every call of `morph.parse` and `morph.tag`, in the order in which the calls
are made.  (No result is cached between the calls: analyzer.py:301-341.)  C98 proves that the values are those of
`Model/Analyzer`.
-/
import Verif.Model.Analyzer

namespace Verif

/-- A call of a method of the analyzer, with its argument. -/
inductive Call
  /-- `morph.parse(word)` (analyzer.py:301) -/
  | parse (word : Str)
  /-- `morph.tag(word)` (analyzer.py:328) -/
  | tag (word : Str)
  deriving DecidableEq

/-- What a computation returned or raised, and the calls made until then, the earliest first. -/
structure Logged (α : Type) where
  val : Except PyErr α
  log : List Call

/-- Statements one after the other: an exception ends the computation. -/
instance : Monad Logged where
  pure a := ⟨.ok a, []⟩
  bind x f :=
    match x.val with
    | .error e => ⟨.error e, x.log⟩
    | .ok a => ⟨(f a).val, x.log ++ (f a).log⟩

/-- A computation that calls neither `morph.parse` nor `morph.tag`. -/
def Logged.quiet {α : Type} (x : Except PyErr α) : Logged α := ⟨x, []⟩

/-- A call, with what happens during the call. -/
def Logged.called {α : Type} (c : Call) (x : Logged α) : Logged α := ⟨x.val, c :: x.log⟩

/-- `self.morph.parse`, `self.morph.tag` -/
structure RecL (S : Type) where
  parse : Str → Logged (List (Parse S))
  tag : Str → Logged (List Tag)

/-- The values alone. -/
def RecL.erase {S : Type} (r : RecL S) : Rec S := ⟨fun w => (r.parse w).val, fun w => (r.tag w).val⟩

variable {S : Type} [Score S]

/-- A loop. -/
def mapL {α β : Type} (f : α → Logged β) : List α → Logged (List β)
  | [] => pure []
  | a :: as => do
    let b ← f a
    let bs ← mapL f as
    pure (b :: bs)

/-- by_hyphen.py:127-132 -/
def adverbShouldL (m : Morph S) (rec : RecL S) (wl : Str) : Logged Bool :=
  if wl.length < 5 ∨ startsWith wl (c!"по-") = false then pure false else do
    let tags ← rec.tag (wl.drop 3)
    .quiet (anyE (fun t => m.cls.containsSet t [c!"ADJF", c!"sing", c!"datv"].toFinset) tags)

/-- by_hyphen.py:171-187 -/
def hyphenParseL (rec : RecL S) (u : UObj) (skip : List Str) (mult : S) (wl : Str) : Logged (List (Parse S)) :=
  if hyphenShould skip wl then do
    let lp ← rec.parse (splitHyphen wl).1
    let rp ← rec.parse (splitHyphen wl).2
    pure (parseBoth u mult lp rp ++ parseFixed u mult (splitHyphen wl).1 rp)
  else pure []

/-- by_analogy.py:60-81 -/
def prefixCandsL (u : UObj) (mult : S) (parseRest : Str → Logged (List (Parse S))) (splits : List (Str × Str)) : Logged (List (Parse S)) := do
  let ps ← mapL (fun s => do
    let r ← parseRest s.2
    pure (prefixDeco u mult s.1 r)) splits
  pure ps.flatten

/-- by_analogy.py:83-90 -/
def prefixTagCandsL (tagRest : Str → Logged (List Tag)) (splits : List (Str × Str)) : Logged (List Tag) := do
  let ts ← mapL (fun s => do
    let r ← tagRest s.2
    pure (r.filter Tag.isProductive)) splits
  pure ts.flatten

/-- `unit.parse(word, word_lower, seen_parses)`: four units call back (by_hyphen.py:44, 131, 176-177, by_analogy.py:65). -/
def unitParseL (m : Morph S) (rec : RecL S) (u : BUnit S) (word wl : Str) (seen : Seen) : Logged (List (Parse S) × Seen) :=
  match u.cfg with
  | .particle particles mult =>
    match particleSplit particles wl with
    | none => pure ([], seen)
    | some (rest, part) => do
      let ps ← rec.parse rest
      pure (addParses (ps.map (particleDeco u.obj part mult)) seen)
  | .adverb tag mult => do
    let b ← adverbShouldL m rec wl
    pure (if b then ([⟨wl, tag, wl, mult, .single (.simple u.obj word)⟩], .full wl :: seen) else ([], seen))
  | .hyphenated skip mult => do
    let ps ← hyphenParseL rec u.obj skip mult wl
    pure (ps, seen)
  | .knownPrefix prefixes mult minRem => do
    let ps ← prefixCandsL u.obj mult rec.parse (possibleSplits prefixes minRem wl)
    pure (addParses ps seen)
  | _ => .quiet (unitParse m rec.erase u word wl seen)

/-- `unit.tag(word, word_lower, seen_tags)`: by_hyphen.py:63, 131, base.py:40-47 with by_hyphen.py:176-177, by_analogy.py:86. -/
def unitTagL (m : Morph S) (rec : RecL S) (u : BUnit S) (word wl : Str) (seen : SeenTags) : Logged (List Tag × SeenTags) :=
  match u.cfg with
  | .particle particles _ =>
    match particleSplit particles wl with
    | none => pure ([], seen)
    | some (rest, _) => do
      let ts ← rec.tag rest
      pure (ts, seen)
  | .adverb tag _ => do
    let b ← adverbShouldL m rec wl
    pure (if b = false ∨ tag.tuple ∈ seen then ([], seen) else ([tag], tag.tuple :: seen))
  | .hyphenated skip mult => do
    let ps ← hyphenParseL rec u.obj skip mult wl
    pure (addTags (ps.map Parse.tag) seen)
  | .knownPrefix prefixes _ minRem => do
    let ts ← prefixTagCandsL rec.tag (possibleSplits prefixes minRem wl)
    pure (addTags ts seen)
  | _ => .quiet (unitTag m rec.erase u word wl seen)

/-- analyzer.py:314-318 -/
def runParseL (m : Morph S) (rec : RecL S) (word wl : Str) :
    List (BUnit S × Bool) → Seen → List (Parse S) → Logged (List (Parse S))
  | [], _, res => pure res
  | (u, terminal) :: us, seen, res => do
    let r ← unitParseL m rec u word wl seen
    if terminal = true ∧ res ++ r.1 ≠ [] then pure (res ++ r.1)
    else runParseL m rec word wl us r.2 (res ++ r.1)

/-- analyzer.py:333-337 -/
def runTagL (m : Morph S) (rec : RecL S) (word wl : Str) :
    List (BUnit S × Bool) → SeenTags → List Tag → Logged (List Tag)
  | [], _, res => pure res
  | (u, terminal) :: us, seen, res => do
    let r ← unitTagL m rec u word wl seen
    if terminal = true ∧ res ++ r.1 ≠ [] then pure (res ++ r.1)
    else runTagL m rec word wl us r.2 (res ++ r.1)

/-- analyzer.py:320-321: the estimator. -/
def estimateParses (m : Morph S) (wl : Str) (res : List (Parse S)) : Except PyErr (List (Parse S)) :=
  match m.est with
  | some dawg => applyToParses dawg wl res
  | none => .ok res

/-- analyzer.py:339-340 -/
def estimateTags (m : Morph S) (wl : Str) (res : List Tag) : Except PyErr (List Tag) :=
  match m.est with
  | some dawg => .ok (applyToTags S dawg wl res)
  | none => .ok res

/-- analyzer.py:301-326 -/
def parseStepL (m : Morph S) (rec : RecL S) (word : Str) : Logged (List (Parse S)) := do
  let res ← runParseL m rec word (m.env.lower word) m.units [] []
  .quiet (estimateParses m (m.env.lower word) res)

/-- analyzer.py:328-341 -/
def tagStepL (m : Morph S) (rec : RecL S) (word : Str) : Logged (List Tag) := do
  let res ← runTagL m rec word (m.env.lower word) m.units [] []
  .quiet (estimateTags m (m.env.lower word) res)

/-- `morph.parse` / `morph.tag` with a budget of nested calls, as `analyze`; a call for which there is no budget left is
recorded too. -/
def analyzeL (m : Morph S) : Nat → RecL S
  | 0 => ⟨fun w => .called (.parse w) (.quiet (.error .recursionError)), fun w => .called (.tag w) (.quiet (.error .recursionError))⟩
  | n + 1 => ⟨fun w => .called (.parse w) (parseStepL m (analyzeL m n) w), fun w => .called (.tag w) (tagStepL m (analyzeL m n) w)⟩

end Verif
