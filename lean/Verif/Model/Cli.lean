/-
Model of /repo/pymorphy2/cache.py and of the `parse` command of /repo/pymorphy2/cli.py.
-/
import Verif.Model.Analyzer
import Verif.Model.Tokens

namespace Verif

/-! ### Caches -/

/-- A call of a function that may raise: the outcome, the new state of the cache and the arguments the wrapped function was called with. -/
structure Called (σ α β : Type) where
  out : Except PyErr β
  state : σ
  calls : List α

/-- cache.py:41-48 `wrapper` of `memoized_with_single_argument` -/
def memoCall {α β : Type} [DecidableEq α] (f : α → Except PyErr β) (arg : α) (cache : List (α × β)) : Called (List (α × β)) α β :=
  match dictGet arg cache with
  | some v => ⟨.ok v, cache, []⟩
  | none => match f arg with
    | .error e => ⟨.error e, cache, [arg]⟩
    | .ok v => ⟨.ok v, dictSet arg v cache, [arg]⟩

/-- The wrapped function is called with the given arguments, one after the other (the caller catches exceptions): the outcomes, the final
cache, the calls. -/
def memoRun {α β : Type} [DecidableEq α] (f : α → Except PyErr β) : List α → List (α × β) → List (Except PyErr β) × List (α × β) × List α
  | [], cache => ([], cache, [])
  | a :: as, cache =>
    let r := memoCall f a cache
    let rest := memoRun f as r.state
    (r.out :: rest.1, rest.2.1, r.calls ++ rest.2.2)

/-- `functools.lru_cache(n)` (cache.py:14-20, third party): the most recently used entry first; a hit moves the entry to the front, a miss
puts a new entry in front and drops what exceeds `n`; exceptions are not stored. -/
def lruCall {α β : Type} [DecidableEq α] (n : Nat) (f : α → Except PyErr β) (arg : α) (cache : List (α × β)) : Except PyErr β × List (α × β) :=
  match dictGet arg cache with
  | some v => (.ok v, (arg, v) :: cache.filter fun e => e.1 ≠ arg)
  | none => match f arg with
    | .error e => (.error e, cache)
    | .ok v => (.ok v, ((arg, v) :: cache).take n)

/-! ### The formatter -/

variable {S : Type} [Score S]

/-- The arguments of `_TokenParserFormatter` (cli.py:202). -/
structure CliOpts (S : Type) where
  score : Bool
  normalForm : Bool
  tag : Bool
  newlines : Bool
  thresh : S

/-- `sep.join(parts)` with a one-character separator is `joinC`; cli.py:198-200: the templates. -/
def CliOpts.line (o : CliOpts S) (tok : Str) (seq : List Str) : Str :=
  tok ++ '{' :: joinC '|' seq ++ '}' :: (if o.newlines then ['\n'] else [' '])

/-- cli.py:235-237: the dictionary of total scores of the lemmas, in the order of first occurrence. -/
def lemmaWeights : List (Parse S) → List (Str × S) → List (Str × S)
  | [], d => d
  | p :: ps, d => lemmaWeights ps (dictSet p.nf (Score.add ((dictGet p.nf d).getD Score.zero) p.score) d)

/-- `sorted(items, key=itemgetter(1), reverse=True)` (stable) -/
def sortItems (l : List (Str × S)) : List (Str × S) := l.insertionSort fun a b => Score.le b.2 a.2 = true

/-- cli.py:239-242 -/
def lemmaItems (thresh : S) (ps : List (Parse S)) : List (Str × S) :=
  sortItems ((lemmaWeights ps []).filter fun e => Score.le thresh e.2)

/-- cli.py:202-265: the `parse` method of the formatter; `fmt` is `"%0.3f" %`.  `ValueError` stands for the one `__init__` raises. -/
def formatToken (fmt : S → Str) (m : Morph S) (o : CliOpts S) (tok : Str) : Except PyErr Str :=
  if !o.normalForm && !o.tag then .error .valueError
  else if !o.normalForm && !o.score && Score.isZero o.thresh then do
    let ts ← m.tag tok
    pure (o.line tok (ts.map Tag.str))
  else do
    let ps ← m.parse tok
    let good := ps.filter fun p => Score.le o.thresh p.score
    if o.normalForm then
      if o.tag then
        if o.score then pure (o.line tok (good.map fun p => p.nf ++ ':' :: fmt p.score ++ '=' :: p.tag.str))
        else pure (o.line tok (good.map fun p => p.nf ++ ':' :: p.tag.str))
      else if o.score then pure (o.line tok ((lemmaItems o.thresh ps).map fun e => e.1 ++ ':' :: fmt e.2))
      else pure (o.line tok ((lemmaItems o.thresh ps).map Prod.fst))
    else if o.score then pure (o.line tok (good.map fun p => fmt p.score ++ '=' :: p.tag.str))
    else pure (o.line tok (good.map fun p => p.tag.str))

/-! ### The command -/

/-- `s.strip()` -/
def pyStrip (e : Env) (s : Str) : Str := ((s.dropWhile e.isSpace).reverse.dropWhile e.isSpace).reverse

/-- cli.py:268-275: the tokens of the input, given as its lines. -/
def iterTokens (isWord : Char → Bool) (e : Env) (tokenize : Bool) (lines : List Str) : List Str :=
  if tokenize then lines.flatMap (simpleWordTokenize isWord e)
  else (lines.map (pyStrip e)).filter fun l => !l.isEmpty

/-- The argument of `--cache`. -/
inductive CacheArg
  | unlim
  | size (n : Int)

/-- cli.py:179-185: one call of the (possibly cached) `_parse`.  `lru_cache` treats a negative size as 0. -/
def cachedCall (c : CacheArg) (f : Str → Except PyErr Str) (tok : Str) (cache : List (Str × Str)) : Except PyErr Str × List (Str × Str) :=
  match c with
  | .unlim => ((memoCall f tok cache).out, (memoCall f tok cache).state)
  | .size n => if n = 0 then (f tok, cache) else lruCall n.toNat f tok cache

/-- cli.py:188-189: the chunks written, and the exception that ended the loop, if any. -/
def writeLoop {σ : Type} (call : Str → σ → Except PyErr Str × σ) : List Str → σ → List Str × Option PyErr
  | [], _ => ([], none)
  | t :: ts, s => match call t s with
    | (.error e, _) => ([], some e)
    | (.ok chunk, s') =>
      let r := writeLoop call ts s'
      (chunk :: r.1, r.2)

/-- cli.py:152-189 `parse` -/
def cliParse (isWord : Char → Bool) (fmt : S → Str) (m : Morph S) (o : CliOpts S) (tokenize : Bool) (cache : CacheArg) (lines : List Str) :
    List Str × Option PyErr :=
  if !o.normalForm && !o.tag then ([], some .valueError)
  else writeLoop (cachedCall cache (formatToken fmt m o)) (iterTokens isWord m.env tokenize lines) []

end Verif
