/-
Model of pymorphy2/opencorpora_dict/preprocess.py.
-/
import Verif.Model.Compile

namespace Verif

/-- `s.replace(pat, new)` for a non-empty `pat`: left to right, without overlaps.  `skip` characters of an occurrence that has just
been replaced are still to be dropped. -/
def replaceAux (pat new : Str) : Nat → Str → Str
  | _, [] => []
  | skip + 1, _ :: cs => replaceAux pat new skip cs
  | 0, c :: cs => if pat.isPrefixOf (c :: cs) then new ++ replaceAux pat new (pat.length - 1) cs else c :: replaceAux pat new 0 cs

/-- Python `s.replace(pat, new)` (`pat` not empty). -/
def pyReplace (s pat new : Str) : Str := replaceAux pat new 0 s

/-- preprocess.py:62-65 `replace_redundant_grammemes` (the memoisation is transparent, C44). -/
def replaceRedundant (tag : Str) : Str :=
  pyReplace (pyReplace (pyReplace tag (c!"loc1") (c!"loct")) (c!"gen1") (c!"gent")) (c!"acc1") (c!"accs")

/-- preprocess.py:56-59, 68-69 `tag2grammemes` -/
def tag2grammemes (tag : Str) : Grams := (splitTag (replaceRedundant tag)).toFinset

/-- preprocess.py:126-129 `_itertags` -/
def iterTags {I : Type} (p : Parsed I) : List Str := p.lexemes.flatMap fun l => l.2.map Prod.snd

/-- preprocess.py:72-80 `_get_tag_spellings`: `spellings[grammemes][tag] += 1` for every tag. -/
def tagSpellings (tags : List Str) : List (Grams × List (Str × Nat)) :=
  tags.foldl (fun sp tag =>
    let counter := (dictGet (tag2grammemes tag) sp).getD []
    dictSet (tag2grammemes tag) (dictSet tag ((dictGet tag counter).getD 0 + 1) counter) sp) []

/-- preprocess.py:113-114: position of the first space, if any. -/
def spacePos (tag : Str) : Option Nat := tag.findIdx? (· = ' ')

/-- preprocess.py:95-118 `_is_ambiguous` -/
def isAmbiguous (tags : List Str) (skipSpaceAmbiguity : Bool) : Bool :=
  if tags.length < 2 then false
  else if skipSpaceAmbiguity then
    decide ((tags.map spacePos).length ≠ (tags.map spacePos).dedup.length)
  else true

/-- preprocess.py:86-91: the replacements for one set of grammemes: all other spellings by the most frequent one (the first of the
most frequent: `sorted` is stable). -/
def replacesFor (skipSpaceAmbiguity : Bool) (counter : List (Str × Nat)) : List (Str × Str) :=
  if isAmbiguous (counter.map Prod.fst) skipSpaceAmbiguity then
    match counter.insertionSort (fun a b => b.2 ≤ a.2) with
    | [] => []
    | top :: others => others.map fun o => (o.1, top.1)
  else []

/-- preprocess.py:83-92 `_get_duplicate_tag_replaces` -/
def duplicateReplaces (spellings : List (Grams × List (Str × Nat))) (skipSpaceAmbiguity : Bool) : List (Str × Str) :=
  (spellings.flatMap fun g => replacesFor skipSpaceAmbiguity g.2).foldl (fun d e => dictSet e.1 e.2 d) []

/-- preprocess.py:121-123 `_simplify_tag` -/
def simplifyTag (replaces : List (Str × Str)) (tag : Str) : Str :=
  (dictGet (replaceRedundant tag) replaces).getD (replaceRedundant tag)

/-- preprocess.py:19-38 `simplify_tags` -/
def simplifyTags {I : Type} (p : Parsed I) (skipSpaceAmbiguity : Bool := true) : Parsed I :=
  let replaces := duplicateReplaces (tagSpellings (iterTags p)) skipSpaceAmbiguity
  { p with lexemes := p.lexemes.map fun l => (l.1, l.2.map fun f => (f.1, simplifyTag replaces f.2)) }

/-- preprocess.py:41-53 `drop_unsupported_parses` -/
def dropUnsupported {I : Type} (p : Parsed I) : Parsed I :=
  { p with lexemes := p.lexemes.map fun l => (l.1, l.2.filter fun f => !isSub (c!"Init") f.2) }

end Verif
