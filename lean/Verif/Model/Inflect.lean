/-
Model of lexemes, normalization and inflection: analyzer.py:34-61, 359-385; `get_lexeme`/`normalized` of the
units; tagset.py:405-422, 485-512.
-/
import Verif.Model.Analyzer
import Mathlib.Data.Finset.Card

namespace Verif

variable {S : Type} [Score S]

/-! ### Dictionary lexemes: by_lookup.py:61-103 -/

/-- by_lookup.py:94-99 `_extract_para_info`: unpack the first method as a 4-tuple, assert identity. -/
def extractParaInfo (u : UObj) (st : Stack) : Except PyErr (Nat × Nat) :=
  match st.first with
  | some (.dict u' _ para idx) => if u' = u then .ok (para, idx) else .error .assertionError
  | some _ => .error .valueError
  | none => .error .indexError

/-- by_lookup.py:74-78: the form at `index` of the lexeme. -/
def lexForm (u : UObj) (st : Stack) (para : Nat) (stem nf : Str) (index : Nat) (row : Str × Tag × Str) : Parse S :=
  ⟨row.1 ++ stem ++ row.2.2, row.2.1, nf, Score.one,
    st.setFirst (.dict u (row.1 ++ stem ++ row.2.2) para index)⟩

/-- by_lookup.py:61-80 `DictionaryAnalyzer.get_lexeme` -/
def dictLexeme (d : Dict) (u : UObj) (st : Stack) (p : Parse S) : Except PyErr (List (Parse S)) := do
  let pi ← extractParaInfo u st
  let para ← pyGet d.paradigms pi.1
  let stem ← d.stem para pi.2 p.word
  let rows ← d.paradigmInfo pi.1
  pure (rows.mapIdx (lexForm u st pi.1 stem p.nf))

/-- by_lookup.py:82-92 `DictionaryAnalyzer.normalized` -/
def dictNormalized (d : Dict) (u : UObj) (st : Stack) (p : Parse S) : Except PyErr (Parse S) := do
  let pi ← extractParaInfo u st
  if pi.2 = 0 then pure { p with stack := st }
  else do
    let tag ← d.tagInfo pi.1 0
    pure ⟨p.nf, tag, p.nf, Score.one, st.setFirst (.dict u p.nf pi.1 0)⟩

/-! ### Hyphenated words: by_hyphen.py:336-376 -/

/-- by_hyphen.py:152-158 `_CONSIDER_THE_SAME` -/
def CONSIDER_THE_SAME : List (Str × Str) := [(c!"V-oy", c!"V-ey"), (c!"gen1", c!"gent"), (c!"loc1", c!"loct")]

/-- by_hyphen.py:351-355: distance between the grammemes of two forms. -/
def formDist (l r : Parse S) : Nat :=
  (symmDiff (replaceGrammemes CONSIDER_THE_SAME l.tag.grammemes)
    (replaceGrammemes CONSIDER_THE_SAME r.tag.grammemes)).card

/-- by_hyphen.py:350-358: the first left form at minimal distance below `best`. -/
def closestLoop (r : Parse S) : List (Parse S) → Nat → Option (Parse S) → Option (Parse S)
  | [], _, cur => cur
  | l :: ls, best, cur =>
    if formDist l r < best then closestLoop r ls (formDist l r) (some l) else closestLoop r ls best cur

/-- by_hyphen.py:350-360 -/
def closest (left : List (Parse S)) (r : Parse S) : Option (Parse S) := closestLoop r left 1000000 none

/-- by_hyphen.py:339-345: merge two aligned forms (`None[0]` raises `TypeError`). -/
def mergeForms (u : UObj) (left : List (Parse S)) (r : Parse S) : Except PyErr (Parse S) :=
  match closest left r with
  | none => .error .typeError
  | some l => .ok ⟨l.word ++ '-' :: r.word, l.tag, l.nf ++ '-' :: r.nf,
      Score.div (Score.add l.score r.score) (Score.ofNat 2), .single (.both u l.stack r.stack)⟩

/-- `s[:s.index('-')]` and `s[s.index('-')+1:]`, by_hyphen.py:362-372 (`ValueError` when there is no hyphen). -/
def beforeHyphen (s : Str) : Except PyErr Str :=
  if '-' ∈ s then .ok (s.takeWhile (· ≠ '-')) else .error .valueError
def afterHyphen (s : Str) : Except PyErr Str :=
  if '-' ∈ s then .ok ((s.dropWhile (· ≠ '-')).drop 1) else .error .valueError

/-- by_hyphen.py:362-366 `_without_right_part` -/
def withoutRightPart (p : Parse S) : Except PyErr (Parse S) := do
  let w ← beforeHyphen p.word
  let n ← beforeHyphen p.nf
  pure { p with word := w, nf := n }

/-- by_hyphen.py:368-372 `_without_left_part` -/
def withoutLeftPart (p : Parse S) : Except PyErr (Parse S) := do
  let w ← afterHyphen p.word
  let n ← afterHyphen p.nf
  pure { p with word := w, nf := n }

/-- abbreviations.py:67, 76: the tags of the gender of the form. -/
def genderTags (cls : TagCls) (masc femn : List Tag) (t : Tag) : Except PyErr (List Tag) := do
  let b ← cls.contains t (c!"masc")
  pure (if b then masc else femn)

/-! ### get_lexeme -/

/-- `last_method[0].get_lexeme(form)` for a form whose methods stack is `st` (the `stack` field of the argument
is not used): analyzer.py:359-369, base.py:94-102, 119-128, by_analogy.py:36-39, by_hyphen.py:89-92, 288-334,
by_lookup.py:61-80, by_shape.py:40-41, unkn.py:29-30, abbreviations.py:64-71, 87-92.

`_fixed_left_method_was_used` (by_hyphen.py:374-376) is the distinction between `fixed` and `both`.
Combinations of a unit class with a method shape that no `parse` method produces give `typeError`. -/
def lexemeOf (m : Morph S) : Stack → Parse S → Except PyErr (List (Parse S))
  | .nil, _ => .error .indexError
  | .push rest (.dict u w para idx), p =>
    match u.kind with
    | .dict => dictLexeme m.dict u (.push rest (.dict u w para idx)) p
    | _ => .error .typeError
  | .push rest (.simple u arg), p =>
    match u.kind with
    | .shape | .adverb | .unkn => .ok [{ p with stack := .push rest (.simple u arg) }]
    | .firstName masc femn => do
      let tags ← genderTags m.cls masc femn p.tag
      pure (tags.map fun t => { p with tag := t, stack := .push rest (.simple u arg) })
    | .patronymic tags => .ok (tags.map fun t => { p with tag := t, stack := .push rest (.simple u arg) })
    | .particle =>
      if rest = .nil then .error .valueError else do
        let fs ← lexemeOf m rest (p.withoutSuffix arg.length)
        pure (fs.map fun f => (f.withSuffix arg).appendMethod (.simple u arg))
    | .pref =>
      if rest = .nil then .error .valueError else do
        let fs ← lexemeOf m rest (p.withoutPrefix arg.length)
        pure (fs.map fun f => (f.withPrefix arg).appendMethod (.simple u arg))
    | .suff =>
      if rest = .nil then .error .valueError else do
        let fs ← lexemeOf m rest p
        pure (fs.map fun f => f.appendMethod (.simple u arg))
    | _ => .error .typeError
  | .push rest (.fixed u left right), p =>
    if rest ≠ .nil then .error .assertionError else do
      let fs ← lexemeOf m right (p.withoutPrefix (left.length + 1))
      pure (fs.map fun f =>
        { f.withPrefix (left ++ ['-']) with stack := .single (.fixed u left f.stack) })
  | .push rest (.both u left right), p =>
    if rest ≠ .nil then .error .assertionError else do
      let lf ← withoutRightPart p
      let rf ← withoutLeftPart p
      let ls ← lexemeOf m left lf
      let rs ← lexemeOf m right rf
      mapE (mergeForms u ls) rs

/-- `parse.lexeme`: analyzer.py:44-47, 359-369 -/
def Morph.lexeme (m : Morph S) (p : Parse S) : Except PyErr (List (Parse S)) := lexemeOf m p.stack p

/-! ### normalized -/

/-- `next(iterator)` on a finite sequence. -/
def pyNext {α : Type} : List α → Except PyErr α
  | [] => .error .stopIteration
  | a :: _ => .ok a

/-- `last_method[0].normalized(form)`: analyzer.py:57-61, base.py:83-92, 104-117, by_analogy.py:31-34,
by_hyphen.py:84-87, 134-135, 285-286, by_lookup.py:82-92, by_shape.py:43-44, unkn.py:32-33,
abbreviations.py:73-77, 94-96. -/
def normalizedOf (m : Morph S) : Stack → Parse S → Except PyErr (Parse S)
  | .nil, _ => .error .indexError
  | .push rest (.dict u w para idx), p =>
    match u.kind with
    | .dict => dictNormalized m.dict u (.push rest (.dict u w para idx)) p
    | _ => .error .typeError
  | .push rest (.simple u arg), p =>
    match u.kind with
    | .shape | .adverb | .unkn => .ok { p with stack := .push rest (.simple u arg) }
    | .firstName masc femn => do
      let tags ← genderTags m.cls masc femn p.tag
      let t ← pyGet tags 0
      pure { p with tag := t, stack := .push rest (.simple u arg) }
    | .patronymic tags => do
      let t ← pyGet tags 0
      pure { p with tag := t, stack := .push rest (.simple u arg) }
    | .particle =>
      if rest = .nil then .error .valueError else do
        let f ← normalizedOf m rest (p.withoutSuffix arg.length)
        pure ((f.withSuffix arg).appendMethod (.simple u arg))
    | .pref =>
      if rest = .nil then .error .valueError else do
        let f ← normalizedOf m rest (p.withoutPrefix arg.length)
        pure ((f.withPrefix arg).appendMethod (.simple u arg))
    | .suff =>
      if rest = .nil then .error .valueError else do
        let f ← normalizedOf m rest p
        pure (f.appendMethod (.simple u arg))
    | _ => .error .typeError
  | .push rest (.fixed u left right), p => do
    let fs ← lexemeOf m (.push rest (.fixed u left right)) p
    pyNext fs
  | .push rest (.both u left right), p =>
    if rest ≠ .nil then .error .assertionError else do
      -- `_merge_lexemes` is a generator: only the first aligned pair is computed
      let lf ← withoutRightPart p
      let rf ← withoutLeftPart p
      let ls ← lexemeOf m left lf
      let rs ← lexemeOf m right rf
      let r ← pyNext rs
      mergeForms u ls r

/-- `parse.normalized`: analyzer.py:57-61 -/
def Morph.normalized (m : Morph S) (p : Parse S) : Except PyErr (Parse S) := normalizedOf m p.stack p

/-! ### inflect -/

/-- tagset.py:405-415: the loop of `updated_grammemes` over the required grammemes (in CPython's set iteration
order, given by the list). -/
def updatedLoop (c : TagCls) : List Str → Grams → Except PyErr Grams
  | [], g => .ok g
  | r :: rs, g => do
    let k ← c.isKnown r
    if k then updatedLoop c rs (g \ c.incompat r) else .error .valueError

/-- tagset.py:405-415 `updated_grammemes`; `req` enumerates the required set. -/
def updatedGrammemes (c : TagCls) (t : Tag) (req : List Str) : Except PyErr Grams :=
  updatedLoop c req (t.grammemes ∪ req.toFinset)

/-- How `similarity` values are computed and compared (analyzer.py:381-383): `key a b` stands for
`a - 0.1 * b`, `lt` for `<` on the results.  `Sim.exact` is exact arithmetic, scaled by ten. -/
structure Sim where
  K : Type
  key : Nat → Nat → K
  lt : K → K → Bool

/-- Exact arithmetic: `10 * (a - 0.1 * b)`. -/
def Sim.exact : Sim := ⟨Int, fun a b => 10 * (a : Int) - b, fun x y => decide (x < y)⟩

/-- analyzer.py:381-383 `similarity` -/
def similarity (sim : Sim) (g : Grams) (t : Tag) : sim.K :=
  sim.key (g ∩ t.grammemes).card (symmDiff g t.grammemes).card

/-- Python's `max(it, key=…)`: the first maximal element (this is what `heapq.nlargest(1, it, key)` returns). -/
def maxLoop {α : Type} (sim : Sim) (key : α → sim.K) : List α → α → α
  | [], cur => cur
  | a :: as, cur => if sim.lt (key cur) (key a) then maxLoop sim key as a else maxLoop sim key as cur

/-- analyzer.py:385 `heapq.nlargest(1, possible_results, key=similarity)`, then `res[0]` or `None`
(analyzer.py:34-36). -/
def nlargest1 {α : Type} (sim : Sim) (key : α → sim.K) : List α → Option α
  | [] => none
  | a :: as => some (maxLoop sim key as a)

/-- analyzer.py:372-373: the forms carrying all required grammemes. -/
def matching (fs : List (Parse S)) (req : Grams) : List (Parse S) :=
  fs.filter fun f => decide (req ⊆ f.tag.grammemes)

/-- analyzer.py:34-36, 371-385 `Parse.inflect` / `_inflect`; `req` enumerates the required set. -/
def Morph.inflect (m : Morph S) (sim : Sim) (p : Parse S) (req : List Str) : Except PyErr (Option (Parse S)) := do
  let fs ← m.lexeme p
  let poss := matching fs req.toFinset
  if poss = [] then do
    let req' := req.map fixRare1
    let poss' := matching fs req'.toFinset
    let g ← updatedGrammemes m.cls p.tag req'
    pure (nlargest1 sim (fun f => similarity sim g f.tag) poss')
  else do
    let g ← updatedGrammemes m.cls p.tag req
    pure (nlargest1 sim (fun f => similarity sim g f.tag) poss)

/-! ### Agreement with numerals: tagset.py:485-512 -/

/-- tagset.py:46-54: `tag.<category>`; `pick` is CPython's `next(iter(set))`. -/
def Tag.category (pick : Grams → Option Str) (t : Tag) (cat : Grams) : Option Str :=
  if cat ∩ t.grammemes = ∅ then none else pick (cat ∩ t.grammemes)

/-- tagset.py:486-491: index by number (Python `%` with a positive modulus is `Int.emod`). -/
def numeralIndex (num : Int) : Nat :=
  if num % 10 = 1 ∧ num % 100 ≠ 11 then 0
  else if num % 10 ≥ 2 ∧ num % 10 ≤ 4 ∧ (num % 100 < 10 ∨ num % 100 ≥ 20) then 1
  else 2

/-- tagset.py:485-512 `numeral_agreement_grammemes`; a `None` case is kept as `none`. -/
def numeralAgreement (pick : Grams → Option Str) (t : Tag) (num : Int) : List (Option Str) :=
  let index := numeralIndex num
  let POS := t.category pick PARTS_OF_SPEECH
  let case := t.category pick CASES
  let gender := t.category pick GENDERS
  if POS ≠ some (c!"NOUN") ∧ POS ≠ some (c!"ADJF") ∧ POS ≠ some (c!"PRTF") then []
  else if POS = some (c!"NOUN") ∧ case ≠ some (c!"nomn") ∧ case ≠ some (c!"accs") then
    if index = 0 then [some (c!"sing"), case] else [some (c!"plur"), case]
  else if index = 0 then
    if case = some (c!"nomn") then [some (c!"sing"), some (c!"nomn")] else [some (c!"sing"), some (c!"accs")]
  else if POS = some (c!"NOUN") ∧ index = 1 then [some (c!"sing"), some (c!"gent")]
  else if (POS = some (c!"ADJF") ∨ POS = some (c!"PRTF")) ∧ gender = some (c!"femn") ∧ index = 1 then
    [some (c!"plur"), some (c!"nomn")]
  else [some (c!"plur"), some (c!"gent")]

/-- All members are strings (no `None`). -/
def allSome : List (Option Str) → Option (List Str)
  | [] => some []
  | none :: _ => none
  | some s :: r => (allSome r).map (s :: ·)

/-- analyzer.py:38-42 `make_agree_with_number`.  A required set containing `None` matches no form, survives
`fix_rare_cases`, and is rejected by `updated_grammemes` (`None` is not a known grammeme). -/
def Morph.makeAgree (m : Morph S) (sim : Sim) (pick : Grams → Option Str) (p : Parse S) (num : Int) :
    Except PyErr (Option (Parse S)) :=
  match allSome (numeralAgreement pick p.tag num) with
  | some req => m.inflect sim p req
  | none => do
    let _ ← m.lexeme p
    m.cls.assertInit
    .error .valueError

end Verif
