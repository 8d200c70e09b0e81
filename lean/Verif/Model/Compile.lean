/-
Model of pymorphy2/opencorpora_dict/compile.py (and of the record formats of pymorphy2/dawg.py it writes).
-/
import Verif.Model.Dict
import Verif.Model.Utils

namespace Verif

/-! ### Source dictionaries -/

/-- A source lexeme: `(word form, tag string)` pairs (parse.py:107-134). -/
abbrev Lexeme := List (Str × Str)

/-- parse.py:33 `ParsedDictionary`, the parts the compiler reads: lexemes in dict order, links `(from, to, type)`.
Lexeme ids are kept abstract. -/
structure Parsed (I : Type) where
  lexemes : List (I × Lexeme)
  links : List (I × I × Str)

/-! ### Joining lexemes -/

/-- How a computation of the compiler can fail: a Python exception, or it never ends. -/
inductive Fail
  | raised (e : PyErr)
  | hangs
  deriving DecidableEq, Repr

/-- compile.py:225-226: the loop `while to_id in moves: to_id = moves[to_id]`, cut off after `fuel` rounds. -/
def resolveN {I : Type} [DecidableEq I] (moves : List (I × I)) : Nat → I → Option I
  | 0, _ => none
  | n + 1, t => match dictGet t moves with
    | none => some t
    | some t' => resolveN moves n t'

/-- The same loop without a bound: more rounds than there are entries means that it never ends (proved in C31). -/
def resolve {I : Type} [DecidableEq I] (moves : List (I × I)) (t : I) : Option I :=
  resolveN moves (moves.length + 1) t

/-- compile.py:217 `EXCLUDED_LINK_TYPES` -/
def EXCLUDED_LINK_TYPES : List Str := [c!"7", c!"21", c!"23", c!"27"]

/-- compile.py:222-230 `move_lexeme`: the forms of `from` go to the end of the lexeme `dst` currently lives in, `from` is emptied
(`del lm[:]`, which also empties the target when it is the same list), and the move is recorded. -/
def moveLexeme {I : Type} [DecidableEq I] (st : List (I × Lexeme) × List (I × I)) (frm dst : I) :
    Except Fail (List (I × Lexeme) × List (I × I)) :=
  match dictGet frm st.1 with
  | none => .error (.raised .keyError)
  | some lm =>
    match resolve st.2 dst with
    | none => .error .hangs
    | some root =>
      match dictGet root st.1 with
      | none => .error (.raised .keyError)
      | some target => .ok (dictSet frm [] (dictSet root (target ++ lm) st.1), dictSet frm root st.2)

/-- compile.py:232-239: the loop over the links. -/
def joinLoop {I : Type} [DecidableEq I] : List (I × I × Str) → List (I × Lexeme) × List (I × I) →
    Except Fail (List (I × Lexeme) × List (I × I))
  | [], st => .ok st
  | (s, e, t) :: ls, st =>
    if t ∈ EXCLUDED_LINK_TYPES then joinLoop ls st
    else match moveLexeme st e s with
      | .error x => .error x
      | .ok st' => joinLoop ls st'

/-- compile.py:182-242 `_join_lexemes`; `num` is Python's `int` on the lexeme ids (ids that are not numbers are not modelled). -/
def joinLexemes {I : Type} [DecidableEq I] (num : I → Int) (p : Parsed I) : Except Fail (List Lexeme) :=
  match joinLoop p.links (p.lexemes, []) with
  | .error x => .error x
  | .ok st => .ok (((st.1.insertionSort fun a b => num a.1 ≤ num b.1).map Prod.snd).filter (· ≠ []))

/-! ### Paradigms -/

/-- `form.index(stem)`: the first position at which `stem` occurs, `none` models `ValueError`. -/
def strIndex (x : Str) : Str → Option Nat
  | [] => if x = [] then some 0 else none
  | c :: cs => if x.isPrefixOf (c :: cs) then some 0 else (strIndex x cs).map (· + 1)

/-- A paradigm before its strings are replaced by ids: rows `(suffix, tag, prefix)`. -/
abbrev StrPara := List (Str × Str × Str)

/-- compile.py:258 for one form. -/
def prefixBefore (stem form : Str) : Except PyErr Str :=
  match strIndex stem form with
  | none => .error .valueError
  | some i => .ok (form.take i)

/-- compile.py:269-273: suffix and row of one form. -/
def paraRow (stem : Str) (f : Str × Str) (pre : Str) : Str × Str × Str :=
  (f.1.drop (pre.length + stem.length), f.2, pre)

/-- compile.py:245-273 `_to_paradigm` -/
def toParadigm (lexeme : Lexeme) (paradigmPrefixes : List Str) : Except PyErr (Str × StrPara) :=
  match lexeme with
  | [] => .error .valueError
  | [f] => .ok (f.1, [paraRow f.1 f []])
  | lex => do
    let stem := longestCommonSubstring (lex.map Prod.fst)
    let prefixes ← mapE (fun f => prefixBefore stem f.1) lex
    if prefixes.any (fun p => decide (p ∉ paradigmPrefixes)) then
      .ok ([], List.zipWith (paraRow []) lex (lex.map fun _ => []))
    else
      .ok (stem, List.zipWith (paraRow stem) lex prefixes)

/-! ### The main loop -/

/-- `d[k]` of a Python dict. -/
def dictAt {α β : Type} [DecidableEq α] (k : α) (d : List (α × β)) : Except PyErr β :=
  match dictGet k d with
  | some v => .ok v
  | none => .error .keyError

/-- The local variables of `compile_parsed_dict` (compile.py:74-88). -/
structure CState where
  gramtab : List Str
  tagIds : List (Str × Nat)
  paradigms : List (List (Str × Nat × Str))
  paraIds : List (StrPara × Nat)
  popularity : List (Nat × Nat)
  words : List (Str × Nat × Nat)

/-- compile.py:74-88 -/
def CState.empty : CState := ⟨[], [], [], [], [], []⟩

/-- compile.py:94-97 for one tag. -/
def CState.addTag (s : CState) (tag : Str) : CState :=
  match dictGet tag s.tagIds with
  | some _ => s
  | none => { s with tagIds := dictSet tag s.gramtab.length s.tagIds, gramtab := s.gramtab ++ [tag] }

/-- compile.py:100-104 -/
def CState.addPara (s : CState) (para : StrPara) : Except PyErr CState :=
  match dictGet para s.paraIds with
  | some _ => .ok s
  | none => do
    let rows ← mapE (fun r : Str × Str × Str => do
      let t ← dictAt r.2.1 s.tagIds
      pure (r.1, t, r.2.2)) para
    pure { s with paraIds := dictSet para s.paradigms.length s.paraIds, paradigms := s.paradigms ++ [rows] }

/-- compile.py:91-113: one round of the loop over the lexemes (logging left out). -/
def CState.addLexeme (paradigmPrefixes : List Str) (s : CState) (lexeme : Lexeme) : Except PyErr CState := do
  let sp ← toParadigm lexeme paradigmPrefixes
  let s1 := sp.2.foldl (fun s r => s.addTag r.2.1) s
  let s2 ← s1.addPara sp.2
  let id ← dictAt sp.2 s2.paraIds
  pure { s2 with
    popularity := dictSet id ((dictGet id s2.popularity).getD 0 + 1) s2.popularity
    words := s2.words ++ sp.2.zipIdx.map fun ri => (ri.1.2.2 ++ sp.1 ++ ri.1.1, (id, ri.2)) }

/-- compile.py:90-117: the loop over the lexemes. -/
def addLexemes (paradigmPrefixes : List Str) : List Lexeme → CState → Except PyErr CState
  | [], s => .ok s
  | l :: ls, s => do
    let s' ← s.addLexeme paradigmPrefixes l
    addLexemes paradigmPrefixes ls s'

/-! ### Linearised paradigms -/

/-- `sorted(...)` of strings. -/
def sortStrs (l : List Str) : List Str := l.insertionSort fun a b => strLt b a = false

/-- compile.py:123-127: the sorted set of the suffixes of all paradigms. -/
def allSuffixes (paradigms : List (List (Str × Nat × Str))) : List Str :=
  sortStrs (paradigms.flatMap fun p => p.map (·.1)).dedup

/-- compile.py:128-135 `dict((x, index) for index, x in enumerate(l))` -/
def enumDict (l : List Str) : List (Str × Nat) :=
  l.zipIdx.foldl (fun d xi => dictSet xi.1 xi.2 d) []

/-- compile.py:136-143 `fix_strings` -/
def fixStrings (suffixIds prefixIds : List (Str × Nat)) (p : List (Str × Nat × Str)) : Except PyErr (List (Nat × Nat × Nat)) :=
  mapE (fun r : Str × Nat × Str => do
    let s ← dictAt r.1 suffixIds
    let q ← dictAt r.2.2 prefixIds
    pure (s, r.2.1, q)) p

/-- The largest number an `unsigned short` holds. -/
def maxH : Nat := 65535

/-- compile.py:367-372 `_linearized_paradigm` -/
def linearized (p : List (Nat × Nat × Nat)) : Except PyErr (List Nat) :=
  let l := p.map (·.1) ++ p.map (·.2.1) ++ p.map (·.2.2)
  if ∀ n ∈ l, n ≤ maxH then .ok l else .error .overflowError

/-! ### Prediction data -/

/-- One increment of compile.py:320-323: prefix id, ending, POS, `(para_id, idx)`. -/
abbrev Hit := Nat × Str × Str × (Nat × Nat)

/-- compile.py:363-364 `_popular_keys` -/
def popularKeys (counter : List (Nat × Nat)) (threshold : Nat) : List Nat :=
  (counter.filter fun e => threshold ≤ e.2).map Prod.fst

/-- compile.py:320 `range(max(len(form_suffix), 1), max_suffix_length+1)` -/
def suffixLens (n maxSuffixLength : Nat) : List Nat :=
  (List.range (maxSuffixLength + 1 - max n 1)).map (max n 1 + ·)

/-- compile.py:296-323: the increments made for one word. -/
def hitsOf (productive : List Nat) (gramtab : List Str) (paradigms : List (List Nat)) (suffixes prefixes : List Str)
    (maxSuffixLength : Nat) (w : Str × Nat × Nat) : Except PyErr (List Hit) :=
  if w.2.1 ∉ productive then .ok []
  else do
    let p ← pyGet paradigms w.2.1
    let n := p.length / 3
    let tid ← pyGet p (n + w.2.2)
    let tag ← pyGet gramtab tid
    let preId ← pyGet p (2 * n + w.2.2)
    let pre ← pyGet prefixes preId
    let sufId ← pyGet p w.2.2
    let suf ← pyGet suffixes sufId
    if w.1.length < (pre ++ suf).length then .error .assertionError
    else if startsWith w.1 pre = false then .error .assertionError
    else if endsWith w.1 suf = false then .error .assertionError
    else if w.1.length = pre.length + suf.length then .ok []
    else .ok ((suffixLens suf.length maxSuffixLength).map fun i =>
      (preId, takeRight w.1 i, (splitTag tag).headD [], (w.2.1, w.2.2)))

/-- compile.py:337-360 `_get_suffixes_dawg_data` for the table of prefix `preId`.  The nested counters are represented by the list
of all increments: a counter's value is the number of its increments and its keys are those with at least one. -/
def dawgData (hits : List Hit) (minEndingFreq : Nat) (preId : Nat) : List (Str × Nat × Nat × Nat) :=
  let mine := hits.filter fun h => h.1 = preId
  (mine.map (·.2.1)).dedup.flatMap fun ending =>
    if hits.countP (fun h => h.2.1 = ending) < minEndingFreq then []
    else
      ((mine.filter fun h => h.2.1 = ending).map (·.2.2.1)).dedup.flatMap fun pos =>
        let forms := (mine.filter fun h => h.2.1 = ending ∧ h.2.2.1 = pos).map (·.2.2.2)
        (largestElements (forms.dedup.map fun f => (f, forms.count f)) Prod.snd 1).map fun fc => (ending, fc.2, fc.1)

/-- compile.py:276-334 `_suffixes_prediction_data` -/
def predictionData (words : List (Str × Nat × Nat)) (popularity : List (Nat × Nat)) (gramtab : List Str)
    (paradigms : List (List Nat)) (suffixes prefixes : List Str) (minEndingFreq minParadigmPopularity maxSuffixLength : Nat) :
    Except PyErr (List (List (Str × Nat × Nat × Nat))) := do
  let hits ← mapE (hitsOf (popularKeys popularity minParadigmPopularity) gramtab paradigms suffixes prefixes maxSuffixLength) words
  pure ((List.range prefixes.length).map (dawgData hits.flatten minEndingFreq))

/-! ### DAWG construction (third party) -/

/-- `dawg.RecordDAWG(format, data)`: stores each `(key, record)` pair once, in an order of its own. -/
structure DawgBuild (V : Type) where
  build : List (Str × V) → Dawg V
  mem : ∀ l e, e ∈ build l ↔ e ∈ l
  nodup : ∀ l, (build l).Nodup

/-- dawg.py:28 `WordsDawg` with format ">HH": records that do not fit raise `struct.error`. -/
def wordsDawg (b : DawgBuild (Nat × Nat)) (l : List (Str × Nat × Nat)) : Except PyErr (Dawg (Nat × Nat)) :=
  if ∀ e ∈ l, e.2.1 ≤ maxH ∧ e.2.2 ≤ maxH then .ok (b.build l) else .error .structError

/-- dawg.py:46 `PredictionSuffixesDAWG` with format ">HHH". -/
def predDawg (b : DawgBuild (Nat × Nat × Nat)) (l : List (Str × Nat × Nat × Nat)) : Except PyErr (Dawg (Nat × Nat × Nat)) :=
  if ∀ e ∈ l, e.2.1 ≤ maxH ∧ e.2.2.1 ≤ maxH ∧ e.2.2.2 ≤ maxH then .ok (b.build l) else .error .structError

/-! ### The compiler -/

/-- compile.py:66-72: the options (defaults: 2, 3, 5). -/
structure COptions where
  minEndingFreq : Nat := 2
  minParadigmPopularity : Nat := 3
  maxSuffixLength : Nat := 5
  paradigmPrefixes : List Str

/-- compile.py:29-32 `CompiledDictionary` (with the options that the loader reads back). -/
structure Compiled where
  gramtab : List Str
  suffixes : List Str
  paradigms : List (List Nat)
  words : Dawg (Nat × Nat)
  pred : List (Dawg (Nat × Nat × Nat))
  prefixes : List Str
  maxSuffixLength : Nat

/-- compile.py:120-179: everything after the loop over the lexemes. -/
def finish (bw : DawgBuild (Nat × Nat)) (bp : DawgBuild (Nat × Nat × Nat)) (o : COptions) (s : CState) : Except PyErr Compiled := do
  let suffixes := allSuffixes s.paradigms
  let paradigms ← mapE (fun p => do
    let q ← fixStrings (enumDict suffixes) (enumDict o.paradigmPrefixes) p
    linearized q) s.paradigms
  let data ← predictionData s.words s.popularity s.gramtab paradigms suffixes o.paradigmPrefixes
    o.minEndingFreq o.minParadigmPopularity o.maxSuffixLength
  let words ← wordsDawg bw s.words
  let pred ← mapE (predDawg bp) data
  pure { gramtab := s.gramtab, suffixes, paradigms, words, pred, prefixes := o.paradigmPrefixes, maxSuffixLength := o.maxSuffixLength }

/-- compile.py:62-179 `compile_parsed_dict`, for joined lexemes. -/
def compileLexemes (bw : DawgBuild (Nat × Nat)) (bp : DawgBuild (Nat × Nat × Nat)) (o : COptions) (lexemes : List Lexeme) :
    Except PyErr Compiled := do
  let s ← addLexemes o.paradigmPrefixes lexemes CState.empty
  finish bw bp o s

/-- compile.py:62-179 `compile_parsed_dict` -/
def compileParsed {I : Type} [DecidableEq I] (num : I → Int) (bw : DawgBuild (Nat × Nat)) (bp : DawgBuild (Nat × Nat × Nat))
    (o : COptions) (p : Parsed I) : Except Fail Compiled :=
  match joinLexemes num p with
  | .error x => .error x
  | .ok ls => match compileLexemes bw bp o ls with
    | .error e => .error (.raised e)
    | .ok c => .ok c

/-- What storage.py:41-82 makes of a compiled dictionary after saving it (internal tag format; the tag class that knows the
grammemes accepts each tag, see C30). -/
def Compiled.toDict (c : Compiled) : Dict where
  paradigms := c.paradigms
  gramtab := c.gramtab.map Tag.mk
  prefixes := c.prefixes
  suffixes := c.suffixes
  words := c.words
  pred := c.pred
  maxSuffixLength := c.maxSuffixLength

end Verif
