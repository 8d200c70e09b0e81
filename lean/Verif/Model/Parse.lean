/-
Parse results and methods stacks (analyzer.py:17-65, units/utils.py).
-/
import Verif.Model.Dict

namespace Verif

/-- Arithmetic on scores.  The structural theorems hold for every instance (in particular for IEEE doubles);
exact-arithmetic theorems use the instance for `Rat` below. -/
class Score (S : Type) where
  zero : S
  one : S
  ofNat : Nat → S
  add : S → S → S
  mul : S → S → S
  div : S → S → S
  /-- `a <= b` -/
  le : S → S → Bool
  /-- `a == 0` -/
  isZero : S → Bool

instance : Score Rat where
  zero := 0
  one := 1
  ofNat := fun n => (n : Rat)
  add := (· + ·)
  mul := (· * ·)
  div := (· / ·)
  le := fun a b => decide (a ≤ b)
  isZero := fun a => decide (a = 0)

/-- The class of a bound analyzer unit together with the immutable data its inflection methods use. -/
inductive UKind
  /-- `DictionaryAnalyzer` (by_lookup.py) or `KnownSuffixAnalyzer.FakeDictionary` (by_analogy.py:166-168) -/
  | dict
  /-- `AbbreviatedFirstNameAnalyzer` with `_tags_masc`, `_tags_femn` (abbreviations.py:51-77) -/
  | firstName (masc femn : List Tag)
  /-- `AbbreviatedPatronymicAnalyzer` with `_tags` (abbreviations.py:80-96) -/
  | patronymic (tags : List Tag)
  /-- any `_ShapeAnalyzer` (by_shape.py) -/
  | shape
  /-- `HyphenSeparatedParticleAnalyzer` (by_hyphen.py:17-92) -/
  | particle
  /-- `HyphenAdverbAnalyzer` (by_hyphen.py:95-138) -/
  | adverb
  /-- `HyphenatedWordsAnalyzer` (by_hyphen.py:141-376) -/
  | hyphenated
  /-- any `_PrefixAnalyzer` (by_analogy.py:29-155) -/
  | pref
  /-- `KnownSuffixAnalyzer` (by_analogy.py:158-288) -/
  | suff
  /-- `UnknAnalyzer` (unkn.py) -/
  | unkn
  deriving DecidableEq

/-- An analyzer unit object as it occurs in a methods stack: identity plus class. -/
structure UObj where
  id : Nat
  kind : UKind
  deriving DecidableEq

mutual
/-- One element of `methods_stack`. -/
inductive Method
  /-- `(unit, fixed_word, para_id, idx)` -/
  | dict (u : UObj) (word : Str) (para idx : Nat)
  /-- `(unit, arg)` where `arg` is a word, a prefix, a particle or a suffix -/
  | simple (u : UObj) (arg : Str)
  /-- `(unit, left, right_methods)` with a string `left`: by_hyphen.py:201 -/
  | fixed (u : UObj) (left : Str) (right : Stack)
  /-- `(unit, left_methods, right_methods)`: by_hyphen.py:244 -/
  | both (u : UObj) (left right : Stack)
/-- `methods_stack`, a tuple of methods; `push rest m` has `m` as its last element. -/
inductive Stack
  | nil
  | push (rest : Stack) (last : Method)
end

deriving instance DecidableEq for Method, Stack

/-- `method[0]` -/
def Method.obj : Method → UObj
  | .dict u _ _ _ => u
  | .simple u _ => u
  | .fixed u _ _ => u
  | .both u _ _ => u

/-- `methods_stack[0]` -/
def Stack.first : Stack → Option Method
  | .nil => none
  | .push .nil m => some m
  | .push (.push r m') _ => Stack.first (.push r m')

/-- `(m0,) + methods_stack[1:]` (by_lookup.py:101-103 `_fix_stack`). -/
def Stack.setFirst (m0 : Method) : Stack → Stack
  | .nil => .push .nil m0
  | .push .nil _ => .push .nil m0
  | .push (.push r m') m => .push (Stack.setFirst m0 (.push r m')) m

/-- A one-element stack. -/
def Stack.single (m : Method) : Stack := .push .nil m

/-- `len(methods_stack)` -/
def Stack.len : Stack → Nat
  | .nil => 0
  | .push r _ => r.len + 1

/-- A parse result: `(word, tag, normal_form, score, methods_stack)`, analyzer.py:17. -/
structure Parse (S : Type) where
  word : Str
  tag : Tag
  nf : Str
  score : S
  stack : Stack
  deriving DecidableEq

/-- The third component of a reduced parse, units/utils.py:6-9: `parse[4][0][2]` or `None`. -/
inductive Key3
  | none
  | para (n : Nat)
  | right (s : Stack)
  deriving DecidableEq

/-- `method[2]` where it exists, else `None` (`IndexError` caught in units/utils.py:8). -/
def Method.key3 : Method → Key3
  | .dict _ _ p _ => .para p
  | .simple _ _ => .none
  | .fixed _ _ r => .right r
  | .both _ _ r => .right r

/-- An element of `seen_parses`: a reduced parse (units/utils.py:14) or the full tuple that
`HyphenAdverbAnalyzer` adds (by_hyphen.py:117; only its presence matters). -/
inductive SeenKey
  | reduced (word : Str) (tag : List Str) (k : Key3)
  | full (word : Str)
  deriving DecidableEq

abbrev Seen := List SeenKey
/-- `seen_tags`: tags are hashed and compared by grammeme tuple. -/
abbrev SeenTags := List (List Str)

/-- units/utils.py:5-14: the reduced parse of a parse. (`methods_stack` is never empty.) -/
def Parse.key {S : Type} (p : Parse S) : SeenKey :=
  .reduced p.word p.tag.tuple (match p.stack.first with | some m => m.key3 | none => .none)

/-- units/utils.py:5-19 `add_parse_if_not_seen`, applied to a sequence of parses. -/
def addParses {S : Type} : List (Parse S) → Seen → List (Parse S) × Seen
  | [], seen => ([], seen)
  | p :: ps, seen =>
    if p.key ∈ seen then addParses ps seen
    else
      let r := addParses ps (p.key :: seen)
      (p :: r.1, r.2)

/-- units/utils.py:22-26 `add_tag_if_not_seen`, applied to a sequence of tags. -/
def addTags : List Tag → SeenTags → List Tag × SeenTags
  | [], seen => ([], seen)
  | t :: ts, seen =>
    if t.tuple ∈ seen then addTags ts seen
    else
      let r := addTags ts (t.tuple :: seen)
      (t :: r.1, r.2)

/-- units/utils.py:69-72 `append_method` -/
def Parse.appendMethod {S : Type} (p : Parse S) (m : Method) : Parse S := { p with stack := .push p.stack m }

/-- units/utils.py:49-52 `with_prefix` -/
def Parse.withPrefix {S : Type} (p : Parse S) (pre : Str) : Parse S :=
  { p with word := pre ++ p.word, nf := pre ++ p.nf }

/-- units/utils.py:29-32 `with_suffix` -/
def Parse.withSuffix {S : Type} (p : Parse S) (suf : Str) : Parse S :=
  { p with word := p.word ++ suf, nf := p.nf ++ suf }

/-- units/utils.py:42-46 `without_fixed_prefix` -/
def Parse.withoutPrefix {S : Type} (p : Parse S) (n : Nat) : Parse S :=
  { p with word := p.word.drop n, nf := p.nf.drop n }

/-- units/utils.py:35-39 `without_fixed_suffix` -/
def Parse.withoutSuffix {S : Type} (p : Parse S) (n : Nat) : Parse S :=
  { p with word := dropRight p.word n, nf := dropRight p.nf n }

end Verif
