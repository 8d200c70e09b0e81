/-
Model of the analyzer units' `parse` and `tag` methods: /repo/pymorphy2/units/*.py.
-/
import Verif.Model.Parse
import Verif.Model.Shapes
import Mathlib.Data.List.Sort

namespace Verif

/-- A bound analyzer unit: its constructor parameters and what `init` computed. -/
inductive UnitCfg (S : Type)
  /-- by_lookup.py:14 -/
  | dictionary
  /-- abbreviations.py:51; `letters`, `_tags_masc`, `_tags_femn` (`_tags` is their concatenation, asserted in
  abbreviations.py:58), `score` -/
  | firstName (letters : List Str) (masc femn : List Tag) (score : S)
  /-- abbreviations.py:80 -/
  | patronymic (letters : List Str) (tags : List Tag) (score : S)
  /-- by_shape.py:94; the two tags of by_shape.py:109-112 -/
  | number (tInt tReal : Tag) (score : S)
  /-- by_shape.py:70 -/
  | punct (tag : Tag) (score : S)
  /-- by_shape.py:82 -/
  | latin (tag : Tag) (score : S)
  /-- by_shape.py:130 -/
  | roman (tag : Tag) (score : S)
  /-- by_hyphen.py:17 -/
  | particle (particles : List Str) (mult : S)
  /-- by_hyphen.py:95 -/
  | adverb (tag : Tag) (mult : S)
  /-- by_hyphen.py:141 -/
  | hyphenated (skip : List Str) (mult : S)
  /-- by_analogy.py:42 -/
  | knownPrefix (prefixes : List Str) (mult : S) (minRemainder : Nat)
  /-- by_analogy.py:104 -/
  | unknownPrefix (mult : S)
  /-- by_analogy.py:158 -/
  | knownSuffix (mult : S) (minWordLength : Nat)
  /-- unkn.py:7 -/
  | unkn (tag : Tag)
  deriving DecidableEq

/-- A bound unit with its object identity (its position in `morph._units`). -/
structure BUnit (S : Type) where
  id : Nat
  cfg : UnitCfg S
  deriving DecidableEq

/-- The class of a unit. -/
def UnitCfg.kind {S : Type} : UnitCfg S → UKind
  | .dictionary => .dict
  | .firstName _ m f _ => .firstName m f
  | .patronymic _ t _ => .patronymic t
  | .number _ _ _ => .shape
  | .punct _ _ => .shape
  | .latin _ _ => .shape
  | .roman _ _ => .shape
  | .particle _ _ => .particle
  | .adverb _ _ => .adverb
  | .hyphenated _ _ => .hyphenated
  | .knownPrefix _ _ _ => .pref
  | .unknownPrefix _ => .pref
  | .knownSuffix _ _ => .suff
  | .unkn _ => .unkn

/-- The unit object itself (`self`). -/
def BUnit.obj {S : Type} (u : BUnit S) : UObj := ⟨2 * u.id, u.cfg.kind⟩

/-- The private dictionary object of `UnknownPrefixAnalyzer` (by_analogy.py:117) and
`KnownSuffixAnalyzer` (by_analogy.py:179). -/
def BUnit.inner {S : Type} (u : BUnit S) : UObj := ⟨2 * u.id + 1, .dict⟩

/-- A `MorphAnalyzer` (analyzer.py:190-248): runtime, dictionary, tag class, compiled substitutes, bound units
with their `is_terminal` flags, and the P(t|w) DAWG if there is a probability estimator. -/
structure Morph (S : Type) where
  env : Env
  dict : Dict
  cls : TagCls
  sub : Subst
  units : List (BUnit S × Bool)
  est : Option (List (Str × Nat))

/-- The two entry points units call back (`self.morph.parse`, `self.morph.tag`). -/
structure Rec (S : Type) where
  parse : Str → Except PyErr (List (Parse S))
  tag : Str → Except PyErr (List Tag)

variable {S : Type} [Score S]

/-! ### by_lookup.py -/

/-- by_lookup.py:24-29: all `(fixed_word, para_id, idx)` triples found for a lower-cased word, in order. -/
def lookup {V : Type} (d : Dawg V) (sub : Subst) (w : Str) : List (Str × V) :=
  (d.similarItems sub w).flatMap fun it => it.2.map fun r => (it.1, r)

/-- by_lookup.py:30-33: the parse for one triple. -/
def dictParse1 (m : Morph S) (u : UObj) (e : Str × Nat × Nat) : Except PyErr (Parse S) := do
  let nf ← m.dict.normalForm e.2.1 e.2.2 e.1
  let tag ← m.dict.tagInfo e.2.1 e.2.2
  pure ⟨e.1, tag, nf, Score.one, .single (.dict u e.1 e.2.1 e.2.2)⟩

/-- by_lookup.py:19-36 `DictionaryAnalyzer.parse` -/
def dictParse (m : Morph S) (u : UObj) (wl : Str) : Except PyErr (List (Parse S)) :=
  mapE (dictParse1 m u) (lookup m.dict.words m.sub wl)

/-- by_lookup.py:38-59 `DictionaryAnalyzer.tag` (lines 54-57 are `build_tag_info` unrolled; the values come
from `similar_item_values`). -/
def dictTag (m : Morph S) (wl : Str) : Except PyErr (List Tag) :=
  mapE (fun r => m.dict.tagInfo r.1 r.2) (m.dict.words.similarItemValues m.sub wl).flatten

/-! ### abbreviations.py -/

/-- abbreviations.py:37-43 `_InitialsAnalyzer.parse` -/
def initialsParse (u : UObj) (letters : List Str) (tags : List Tag) (score : S) (word wl : Str) : List (Parse S) :=
  if word ∈ letters then tags.map fun t => ⟨wl, t, wl, score, .single (.simple u word)⟩ else []

/-- abbreviations.py:45-48 `_InitialsAnalyzer.tag` -/
def initialsTag (letters : List Str) (tags : List Tag) (word : Str) : List Tag :=
  if word ∈ letters then tags else []

/-! ### by_shape.py -/

/-- by_shape.py:114-124 `NumberAnalyzer.check_shape` and 126-127 `get_tag` -/
def numberShape (e : Env) (tInt tReal : Tag) (word : Str) : Option Tag :=
  if e.isInt word then some tInt
  else if e.isFloat (word.map fun c => if c = ',' then '.' else c) then some tReal
  else none

/-- The shape units: `some tag` when the shape matches (by_shape.py:78-79, 90-91, 114-127, 134-135). -/
def shapeTag (e : Env) : UnitCfg S → Str → Except PyErr (Option Tag)
  | .number tInt tReal _, w => .ok (numberShape e tInt tReal w)
  | .punct t _, w => .ok (if isPunctuation e w then some t else none)
  | .latin t _, w => do
    let b ← isLatin e w
    pure (if b then some t else none)
  | .roman t _, w => .ok (if isRomanNumber e w then some t else none)
  | _, _ => .ok none

/-- by_shape.py:26-32 `_ShapeAnalyzer.parse` -/
def shapeParse (u : UObj) (score : S) (word wl : Str) : Option Tag → List (Parse S)
  | some t => [⟨wl, t, wl, score, .single (.simple u word)⟩]
  | none => []

/-! ### by_hyphen.py -/

/-- by_hyphen.py:70-82 `possible_splits`; only the first split is used (the loops in lines 41-56 and 62-66
`break` after the first iteration). -/
def particleSplit (particles : List Str) (word : Str) : Option (Str × Str) :=
  if '-' ∈ word then
    particles.findSome? fun p =>
      if endsWith word p then
        let u := dropRight word p.length
        if u = [] then none else some (u, p)
      else none
  else none

/-- by_hyphen.py:45-51 -/
def particleDeco (u : UObj) (part : Str) (mult : S) (p : Parse S) : Parse S :=
  ⟨p.word ++ part, p.tag, p.nf ++ part, Score.mul p.score mult, .push p.stack (.simple u part)⟩

/-- Python's `any(... for ...)` with a body that may raise. -/
def anyE {α : Type} (f : α → Except PyErr Bool) : List α → Except PyErr Bool
  | [] => .ok false
  | a :: as => do
    let b ← f a
    if b then pure true else anyE f as

/-- by_hyphen.py:127-132 `HyphenAdverbAnalyzer.should_parse` -/
def adverbShould (m : Morph S) (rec : Rec S) (wl : Str) : Except PyErr Bool :=
  if wl.length < 5 ∨ startsWith wl (c!"по-") = false then .ok false else do
    let tags ← rec.tag (wl.drop 3)
    anyE (fun t => m.cls.containsSet t [c!"ADJF", c!"sing", c!"datv"].toFinset) tags

/-- by_hyphen.py:379-385 `replace_grammemes`: for each `(gr, replace)` in turn. -/
def replaceGrammemes (replaces : List (Str × Str)) (gs : Grams) : Grams :=
  replaces.foldl (fun g r => if r.1 ∈ g then insert r.2 (g.erase r.1) else g) gs

/-- by_hyphen.py:167-168 `_FEATURE_GRAMMEMES` -/
def FEATURE_GRAMMEMES : Grams := PARTS_OF_SPEECH ∪ NUMBERS ∪ CASES ∪ PERSONS ∪ TENSES

/-- by_hyphen.py:259-264 `_similarity_features` -/
def similarityFeatures (t : Tag) : Grams :=
  replaceGrammemes [(c!"gen1", c!"gent"), (c!"loc1", c!"loct")] (t.grammemes ∩ FEATURE_GRAMMEMES)

/-- dawg.py:83-84 `is_prefixed` -/
def isPrefixed (prefixes : List Str) (w : Str) : Bool := prefixes.any fun p => startsWith w p

/-- by_hyphen.py:266-283 `_should_parse` -/
def hyphenShould (skip : List Str) (w : Str) : Bool :=
  if '-' ∈ w then
    let s := stripC '-' w
    if s ≠ w then false
    else if s.count '-' ≠ 1 then false
    else if isPrefixed skip w then false
    else true
  else false

/-- by_hyphen.py:175 `word_lower.split('-', 1)` (there is a hyphen when it is called). -/
def splitHyphen (w : Str) : Str × Str :=
  (w.takeWhile (· ≠ '-'), (w.dropWhile (· ≠ '-')).drop 1)

/-- by_hyphen.py:215-257 `_parse_as_variable_both` -/
def parseBoth (u : UObj) (mult : S) (left right : List (Parse S)) : List (Parse S) :=
  left.flatMap fun l =>
    if l.tag.isUnknown then [] else
      (right.filter fun r => decide (similarityFeatures l.tag = similarityFeatures r.tag)).map fun r =>
        ⟨l.word ++ '-' :: r.word, l.tag, l.nf ++ '-' :: r.nf, Score.mul l.score mult,
          .single (.both u l.stack r.stack)⟩

/-- by_hyphen.py:189-213 `_parse_as_fixed_left` -/
def parseFixed (u : UObj) (mult : S) (left : Str) (right : List (Parse S)) : List (Parse S) :=
  (right.filter fun r => !r.tag.isUnknown).map fun r =>
    ⟨left ++ '-' :: r.word, r.tag, left ++ '-' :: r.nf, Score.mul r.score mult,
      .single (.fixed u left r.stack)⟩

/-- by_hyphen.py:171-187 `HyphenatedWordsAnalyzer.parse` (lines 183-185 copy and merge `seen_parses`, but
nothing is added to it in between). -/
def hyphenParse (rec : Rec S) (u : UObj) (skip : List Str) (mult : S) (wl : Str) : Except PyErr (List (Parse S)) :=
  if hyphenShould skip wl then do
    let lr := splitHyphen wl
    let lp ← rec.parse lr.1
    let rp ← rec.parse lr.2
    pure (parseBoth u mult lp rp ++ parseFixed u mult lr.1 rp)
  else .ok []

/-! ### by_analogy.py -/

/-- utils.py:115-122 `word_splits` (for non-negative arguments). -/
def wordSplits (w : Str) (minReminder : Nat := 3) (maxPrefix : Nat := 5) : List (Str × Str) :=
  (List.range (min maxPrefix (w.length - minReminder))).map fun i => (w.take (i + 1), w.drop (i + 1))

/-- dawg.py:78-81 `PythonPrefixMatcher.prefixes` -/
def matchPrefixes (prefixes : List Str) (w : Str) : List Str :=
  if isPrefixed prefixes w then prefixes.filter fun p => startsWith w p else []

/-- by_analogy.py:92-101 `possible_splits`: longest prefix first (`sort(key=len, reverse=True)`, stable). -/
def possibleSplits (prefixes : List Str) (minRemainder : Nat) (w : Str) : List (Str × Str) :=
  (((matchPrefixes prefixes w).insertionSort (fun a b => b.length ≤ a.length)).map
    fun p => (p, w.drop p.length)).filter fun s => decide (minRemainder ≤ s.2.length)

/-- by_analogy.py:66-77 / 127-138: keep productive parses, attach the prefix. -/
def prefixDeco (u : UObj) (mult : S) (pre : Str) (ps : List (Parse S)) : List (Parse S) :=
  (ps.filter fun p => p.tag.isProductive).map fun p =>
    ⟨pre ++ p.word, p.tag, pre ++ p.nf, Score.mul p.score mult, .push p.stack (.simple u pre)⟩

/-- by_analogy.py:60-81 and 120-141: the candidate parses of all splits, in order, given how the remainder is
parsed.  (The source interleaves this with `add_parse_if_not_seen`; parsing a remainder does not read
`seen_parses`, so the candidates can be listed first.) -/
def prefixCands (u : UObj) (mult : S) (parseRest : Str → Except PyErr (List (Parse S)))
    (splits : List (Str × Str)) : Except PyErr (List (Parse S)) := do
  let ps ← mapE (fun s => do
    let r ← parseRest s.2
    pure (prefixDeco u mult s.1 r)) splits
  pure ps.flatten

/-- by_analogy.py:83-90 and 143-155: candidate tags. -/
def prefixTagCands (tagRest : Str → Except PyErr (List Tag)) (splits : List (Str × Str)) :
    Except PyErr (List Tag) := do
  let ts ← mapE (fun s => do
    let r ← tagRest s.2
    pure (r.filter Tag.isProductive)) splits
  pure ts.flatten

/-- A productive prediction found by `KnownSuffixAnalyzer` (by_analogy.py:206-215). -/
structure SfxCand where
  cnt : Nat
  word : Str
  suffix : Str
  tag : Tag
  para : Nat
  idx : Nat
  deriving DecidableEq

/-- by_analogy.py:220 -/
def SfxCand.key (c : SfxCand) : SeenKey := .reduced c.word c.tag.tuple (.para c.para)

/-- by_analogy.py:203-215: the productive predictions for one ending length `i`. -/
def sfxCands (d : Dict) (sub : Subst) (dawg : Dawg (Nat × Nat × Nat)) (wl : Str) (i : Nat) :
    Except PyErr (List SfxCand) := do
  let cs ← mapE (fun (e : Str × Nat × Nat × Nat) => do
    let tag ← d.tagInfo e.2.2.1 e.2.2.2
    pure (SfxCand.mk e.2.1 (dropRight wl i ++ e.1) e.1 tag e.2.2.1 e.2.2.2))
    (lookup dawg sub (takeRight wl i))
  pure (cs.filter fun c => c.tag.isProductive)

/-- by_analogy.py:219-223: drop what was seen, remember the rest. -/
def dedupCands : List SfxCand → Seen → List SfxCand × Seen
  | [], seen => ([], seen)
  | c :: cs, seen =>
    if c.key ∈ seen then dedupCands cs seen
    else
      let r := dedupCands cs (c.key :: seen)
      (c :: r.1, r.2)

/-- Sum of counts, by_analogy.py:217. -/
def cntSum (cs : List SfxCand) : Nat := (cs.map SfxCand.cnt).sum

/-- by_analogy.py:200-235: the loop over ending lengths for one paradigm prefix. `total` is
`total_counts[prefix_id]`, which starts at 1 and belongs to this prefix only. -/
def sfxLoop (cands : Nat → Except PyErr (List SfxCand)) :
    List Nat → Nat → Seen → Except PyErr (List SfxCand × Nat × Seen)
  | [], total, seen => .ok ([], total, seen)
  | i :: is, total, seen => do
    let cs ← cands i
    let new := dedupCands cs seen
    let total' := total + cntSum cs
    if total' > 1 then pure (new.1, total', new.2)
    else do
      let r ← sfxLoop cands is total' new.2
      pure (new.1 ++ r.1, r.2.1, r.2.2)

/-- by_analogy.py:177 `_prediction_splits`: `max, …, 2, 1` -/
def predictionSplits (n : Nat) : List Nat := ((List.range n).map (· + 1)).reverse

/-- by_analogy.py:176 `_paradigm_prefixes`: `(id, prefix)` pairs, last first. -/
def paradigmPrefixes (d : Dict) : List (Nat × Str) := (d.prefixes.mapIdx fun i p => (i, p)).reverse

/-- by_analogy.py:282-288 `_possible_prefixes` -/
def sfxPrefixes (d : Dict) (wl : Str) : List (Nat × Str) :=
  (paradigmPrefixes d).filter fun ip => startsWith wl ip.2

/-- by_analogy.py:198-235: the loop over paradigm prefixes; each prediction is returned with the final total of
its prefix. -/
def sfxPrefixLoop (d : Dict) (sub : Subst) (wl : Str) :
    List (Nat × Str) → Seen → Except PyErr (List (SfxCand × Nat) × Seen)
  | [], seen => .ok ([], seen)
  | ip :: ips, seen => do
    let dawg ← pyGet d.pred ip.1
    let r ← sfxLoop (sfxCands d sub dawg wl) (predictionSplits d.maxSuffixLength) 1 seen
    let rest ← sfxPrefixLoop d sub wl ips r.2.2
    pure (r.1.map (fun c => (c, r.2.1)) ++ rest.1, rest.2)

/-- by_analogy.py:226-240: build the parse of a prediction. -/
def sfxBuild (m : Morph S) (u : BUnit S) (mult : S) (ct : SfxCand × Nat) : Except PyErr (Parse S) := do
  let c := ct.1
  let nf ← m.dict.normalForm c.para c.idx c.word
  pure ⟨c.word, c.tag, nf, Score.mul (Score.div (Score.ofNat c.cnt) (Score.ofNat ct.2)) mult,
    .push (.single (.dict u.inner c.word c.para c.idx)) (.simple u.obj c.suffix)⟩

/-- `list.sort(key=score, reverse=True)`: stable, by non-increasing score (by_analogy.py:241,
analyzer.py:89-93). -/
def sortByScore (ps : List (Parse S)) : List (Parse S) :=
  ps.insertionSort (fun a b => Score.le b.score a.score = true)

/-- by_analogy.py:189-242 `KnownSuffixAnalyzer.parse` -/
def suffixParse (m : Morph S) (u : BUnit S) (mult : S) (minLen : Nat) (word wl : Str) (seen : Seen) :
    Except PyErr (List (Parse S) × Seen) :=
  if word.length < minLen then .ok ([], seen) else do
    let r ← sfxPrefixLoop m.dict m.sub wl (sfxPrefixes m.dict wl) seen
    let ps ← mapE (sfxBuild m u mult) r.1
    pure (sortByScore ps, r.2)

/-- by_analogy.py:262-274: new tags with their counts. -/
def dedupTagCands : List SfxCand → SeenTags → List (Nat × Tag) × SeenTags
  | [], seen => ([], seen)
  | c :: cs, seen =>
    if c.tag.tuple ∈ seen then dedupTagCands cs seen
    else
      let r := dedupTagCands cs (c.tag.tuple :: seen)
      ((c.cnt, c.tag) :: r.1, r.2)

/-- by_analogy.py:254-277: the loop over ending lengths in `tag`. -/
def sfxTagLoop (cands : Nat → Except PyErr (List SfxCand)) :
    List Nat → SeenTags → Except PyErr (List (Nat × Tag) × SeenTags)
  | [], seen => .ok ([], seen)
  | i :: is, seen => do
    let cs ← cands i
    let new := dedupTagCands cs seen
    if cs ≠ [] then pure new
    else do
      let r ← sfxTagLoop cands is new.2
      pure (new.1 ++ r.1, r.2)

/-- by_analogy.py:252-277: the loop over paradigm prefixes in `tag`. -/
def sfxTagPrefixLoop (d : Dict) (sub : Subst) (wl : Str) :
    List (Nat × Str) → SeenTags → Except PyErr (List (Nat × Tag) × SeenTags)
  | [], seen => .ok ([], seen)
  | ip :: ips, seen => do
    let dawg ← pyGet d.pred ip.1
    let r ← sfxTagLoop (sfxCands d sub dawg wl) (predictionSplits d.maxSuffixLength) seen
    let rest ← sfxTagPrefixLoop d sub wl ips r.2
    pure (r.1 ++ rest.1, rest.2)

/-- `<` on `(cnt, tag)` tuples as Python's sort sees it (by_analogy.py:279). -/
def cntTagLt (a b : Nat × Tag) : Bool :=
  if a.1 = b.1 then (if a.2.eqv b.2 then false else a.2.lt b.2) else decide (a.1 < b.1)

/-- by_analogy.py:244-280 `KnownSuffixAnalyzer.tag` -/
def suffixTag (m : Morph S) (minLen : Nat) (word wl : Str) (seen : SeenTags) :
    Except PyErr (List Tag × SeenTags) :=
  if word.length < minLen then .ok ([], seen) else do
    let r ← sfxTagPrefixLoop m.dict m.sub wl (sfxPrefixes m.dict wl) seen
    pure ((r.1.insertionSort (fun a b => cntTagLt a b = false)).map Prod.snd, r.2)

/-! ### Dispatch -/

/-- `unit.parse(word, word_lower, seen_parses)`; the new value of the mutated `seen_parses` is returned. -/
def unitParse (m : Morph S) (rec : Rec S) (u : BUnit S) (word wl : Str) (seen : Seen) :
    Except PyErr (List (Parse S) × Seen) :=
  match u.cfg with
  | .dictionary => do
    let ps ← dictParse m u.obj wl
    pure (ps, seen)
  | .firstName letters masc femn score => .ok (initialsParse u.obj letters (masc ++ femn) score word wl, seen)
  | .patronymic letters tags score => .ok (initialsParse u.obj letters tags score word wl, seen)
  | .number _ _ score | .punct _ score | .latin _ score | .roman _ score => do
    let t ← shapeTag m.env u.cfg word
    pure (shapeParse u.obj score word wl t, seen)
  | .particle particles mult =>
    match particleSplit particles wl with
    | none => .ok ([], seen)
    | some (rest, part) => do
      let ps ← rec.parse rest
      pure (addParses (ps.map (particleDeco u.obj part mult)) seen)
  | .adverb tag mult => do
    let b ← adverbShould m rec wl
    pure (if b then ([⟨wl, tag, wl, mult, .single (.simple u.obj word)⟩], .full wl :: seen) else ([], seen))
  | .hyphenated skip mult => do
    let ps ← hyphenParse rec u.obj skip mult wl
    pure (ps, seen)
  | .knownPrefix prefixes mult minRem => do
    let ps ← prefixCands u.obj mult rec.parse (possibleSplits prefixes minRem wl)
    pure (addParses ps seen)
  | .unknownPrefix mult => do
    let ps ← prefixCands u.obj mult (dictParse m u.inner) (wordSplits wl)
    pure (addParses ps seen)
  | .knownSuffix mult minLen => suffixParse m u mult minLen word wl seen
  | .unkn tag =>
    -- unkn.py:17-22
    .ok (if seen = [] then [⟨wl, tag, wl, Score.one, .single (.simple u.obj word)⟩] else [], seen)

/-- `unit.tag(word, word_lower, seen_tags)`; `HyphenatedWordsAnalyzer` inherits base.py:40-47. -/
def unitTag (m : Morph S) (rec : Rec S) (u : BUnit S) (word wl : Str) (seen : SeenTags) :
    Except PyErr (List Tag × SeenTags) :=
  match u.cfg with
  | .dictionary => do
    let ts ← dictTag m wl
    pure (ts, seen)
  | .firstName letters masc femn _ => .ok (initialsTag letters (masc ++ femn) word, seen)
  | .patronymic letters tags _ => .ok (initialsTag letters tags word, seen)
  | .number _ _ _ | .punct _ _ | .latin _ _ | .roman _ _ => do
    let t ← shapeTag m.env u.cfg word
    pure (t.toList, seen)
  | .particle particles _ =>
    match particleSplit particles wl with
    | none => .ok ([], seen)
    | some (rest, _) => do
      let ts ← rec.tag rest
      pure (ts, seen)
  | .adverb tag _ => do
    -- by_hyphen.py:120-125
    let b ← adverbShould m rec wl
    pure (if b = false ∨ tag.tuple ∈ seen then ([], seen) else ([tag], tag.tuple :: seen))
  | .hyphenated skip mult => do
    let ps ← hyphenParse rec u.obj skip mult wl
    pure (addTags (ps.map Parse.tag) seen)
  | .knownPrefix prefixes _ minRem => do
    let ts ← prefixTagCands rec.tag (possibleSplits prefixes minRem wl)
    pure (addTags ts seen)
  | .unknownPrefix _ => do
    let ts ← prefixTagCands (dictTag m) (wordSplits wl)
    pure (addTags ts seen)
  | .knownSuffix _ minLen => suffixTag m minLen word wl seen
  | .unkn tag => .ok (if seen = [] then [tag] else [], seen)

end Verif
