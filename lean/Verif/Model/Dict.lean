/-
Model of /repo/pymorphy2/opencorpora_dict/wrapper.py (class `Dictionary`) and of the parts of the
third-party DAWG library that it and the analyzer units use (/repo/pymorphy2/dawg.py).
-/
import Verif.Model.Tag

namespace Verif

/-! ### DAWGs (third-party contract) -/

/-- A `RecordDAWG`: a finite multimap from strings to records, listed in traversal order
(dawg.py:20-46).  The real structure is an automaton; the model keeps only the contract. -/
abbrev Dawg (V : Type) := List (Str × V)

/-- The records stored under a key (`dawg.get(key)`), in traversal order; `[]` when absent. -/
def Dawg.vals {V : Type} (d : Dawg V) (k : Str) : List V :=
  (d.filter (fun e => decide (e.1 = k))).map Prod.snd

/-- `key in dawg` -/
def Dawg.has {V : Type} (d : Dawg V) (k : Str) : Bool := d.any (fun e => decide (e.1 = k))

/-- `iteritems(prefix)` (used in wrapper.py:135). -/
def Dawg.iteritems {V : Type} (d : Dawg V) (p : Str) : List (Str × V) :=
  d.filter (fun e => startsWith e.1 p)

/-- Compiled character substitutions (`compile_replaces`, used in analyzer.py:240-243): for each
character the list of characters it may stand for. -/
abbrev Subst := Char → List Char

/-- All spellings the DAWG library tries for a key, in the order in which `similar_keys` reports them:
the key itself first, then the spellings that differ at the first substitutable position, and so on. -/
def variants (sub : Subst) : Str → List Str
  | [] => [[]]
  | c :: cs =>
    match variants sub cs with
    | [] => []
    | v :: vs => (c :: v) :: ((sub c).flatMap fun c' => (v :: vs).map (c' :: ·)) ++ vs.map (c :: ·)

/-- `similar_keys(key, replaces)` -/
def Dawg.similarKeys {V : Type} (d : Dawg V) (sub : Subst) (k : Str) : List Str :=
  (variants sub k).filter d.has

/-- `similar_items(key, replaces)`: found spellings with all their records. -/
def Dawg.similarItems {V : Type} (d : Dawg V) (sub : Subst) (k : Str) : List (Str × List V) :=
  (d.similarKeys sub k).map fun v => (v, d.vals v)

/-- `similar_item_values(key, replaces)` -/
def Dawg.similarItemValues {V : Type} (d : Dawg V) (sub : Subst) (k : Str) : List (List V) :=
  (d.similarKeys sub k).map fun v => d.vals v

/-! ### Dictionary -/

/-- A loaded dictionary: the attributes of `Dictionary` (wrapper.py:14-34).
`words` has records `(para_id, idx)`, the prediction DAWGs have records `(cnt, para_id, idx)`. -/
structure Dict where
  paradigms : List (List Nat)
  gramtab : List Tag
  prefixes : List Str
  suffixes : List Str
  words : Dawg (Nat × Nat)
  pred : List (Dawg (Nat × Nat × Nat))
  /-- `meta['compile_options']['max_suffix_length']` (by_analogy.py:182-187) -/
  maxSuffixLength : Nat

/-- wrapper.py:36-43 `build_tag_info` -/
def Dict.tagInfo (d : Dict) (para idx : Nat) : Except PyErr Tag := do
  let p ← pyGet d.paradigms para
  let tid ← pyGet p (p.length / 3 + idx)
  pyGet d.gramtab tid

/-- wrapper.py:57-61 / 95-99: prefix and suffix of form `idx` of a paradigm. -/
def Dict.formPrefix (d : Dict) (p : List Nat) (idx : Nat) : Except PyErr Str := do
  let pid ← pyGet p (p.length / 3 * 2 + idx)
  pyGet d.prefixes pid

/-- wrapper.py:60-61 / 98-99 -/
def Dict.formSuffix (d : Dict) (p : List Nat) (idx : Nat) : Except PyErr Str := do
  let sid ← pyGet p idx
  pyGet d.suffixes sid

/-- One row of wrapper.py:56-65. -/
def Dict.paradigmRow (d : Dict) (para : Nat) (p : List Nat) (idx : Nat) : Except PyErr (Str × Tag × Str) := do
  let pre ← d.formPrefix p idx
  let suf ← d.formSuffix p idx
  let tag ← d.tagInfo para idx
  pure (pre, tag, suf)

/-- A list comprehension whose body may raise. -/
def mapE {α β : Type} (f : α → Except PyErr β) : List α → Except PyErr (List β)
  | [] => .ok []
  | a :: as => do
    let b ← f a
    let bs ← mapE f as
    pure (b :: bs)

/-- wrapper.py:45-66 `build_paradigm_info` -/
def Dict.paradigmInfo (d : Dict) (para : Nat) : Except PyErr (List (Str × Tag × Str)) := do
  let p ← pyGet d.paradigms para
  mapE (d.paradigmRow para p) (List.range (p.length / 3))

/-- wrapper.py:89-104 `build_stem` -/
def Dict.stem (d : Dict) (p : List Nat) (idx : Nat) (word : Str) : Except PyErr Str := do
  let pre ← d.formPrefix p idx
  let suf ← d.formSuffix p idx
  pure (if suf = [] then word.drop pre.length else sliceMid word pre.length suf.length)

/-- wrapper.py:68-87 `build_normal_form` -/
def Dict.normalForm (d : Dict) (para idx : Nat) (word : Str) : Except PyErr Str :=
  if idx = 0 then .ok word else do
    let p ← pyGet d.paradigms para
    let st ← d.stem p idx word
    let pre ← d.formPrefix p 0
    let suf ← d.formSuffix p 0
    pure (pre ++ st ++ suf)

/-- wrapper.py:106-126 `word_is_known`.  `none` models a falsy `substitutes_compiled` (strict mode, or an
empty table, for which `similar_keys` and `in` agree). -/
def Dict.wordIsKnown (d : Dict) (word : Str) (sub : Option Subst) : Bool :=
  match sub with
  | some s => !(d.words.similarKeys s word).isEmpty
  | none => d.words.has word

/-- wrapper.py:128-138 `iter_known_words` -/
def Dict.iterKnownWords (d : Dict) (pre : Str) : Except PyErr (List (Str × Tag × Str × Nat × Nat)) :=
  mapE (fun e => do
    let tag ← d.tagInfo e.2.1 e.2.2
    let nf ← d.normalForm e.2.1 e.2.2 e.1
    pure (e.1, tag, nf, e.2.1, e.2.2)) (d.words.iteritems pre)

/-! ### Structural soundness of a dictionary -/

/-- A form `(para, idx)` that the tables can resolve: ids in range, with the given prefix, tag and suffix. -/
structure Dict.IsForm (d : Dict) (para idx : Nat) (p : List Nat) (pre : Str) (tag : Tag) (suf : Str) : Prop where
  hpara : d.paradigms[para]? = some p
  hidx : idx < p.length / 3
  hpre : d.formPrefix p idx = .ok pre
  hsuf : d.formSuffix p idx = .ok suf
  htag : d.tagInfo para idx = .ok tag

/-- The soundness condition used by the analyzer properties (proved for every compiled dictionary
in C30). -/
structure Dict.WF (d : Dict) : Prop where
  /-- every id stored in a paradigm resolves -/
  rows : ∀ (para : Nat) (p : List Nat), d.paradigms[para]? = some p → ∀ idx, idx < p.length / 3 →
    ∃ pre tag suf, d.IsForm para idx p pre tag suf
  /-- every stored word has the shape prefix + stem + suffix of the form it is filed under -/
  words : ∀ e ∈ d.words, ∃ p pre tag suf stem, d.IsForm e.2.1 e.2.2 p pre tag suf ∧ e.1 = pre ++ stem ++ suf
  /-- one prediction table per paradigm prefix -/
  predLen : d.pred.length = d.prefixes.length
  /-- prediction entries: positive count, a form that has the prefix of the table and a suffix the ending ends with -/
  pred : ∀ (i : Nat) (t : Dawg (Nat × Nat × Nat)), d.pred[i]? = some t → ∀ e ∈ t,
    1 ≤ e.2.1 ∧ ∃ p pre tag suf, d.IsForm e.2.2.1 e.2.2.2 p pre tag suf ∧
      d.prefixes[i]? = some pre ∧ suf <:+ e.1

end Verif
