/-
The `parse` command of /repo/pymorphy2/cli.py as a process that reads lines and writes chunks one at a time (`Model/Cli` has the result of a whole
input).  Reading and writing may fail at any point, and the input may never end.
-/
import Verif.Model.Cli

namespace Verif

/-- What the iterator over the input file does when it is asked for a line: it gives one (with its line break), is exhausted, or raises (a character that
cannot be decoded, a device error). -/
inductive Input
  | line (s : Str)
  | eof
  | fails (e : PyErr)

/-- The state of the loop cli.py:188-189 between two events. -/
structure StreamState where
  /-- tokens of the current line the generator (cli.py:268-275) has not handed out yet -/
  toks : List Str
  cache : List (Str × Str)
  /-- how many lines were read -/
  pos : Nat
  /-- what `out_file.write` was called with and has taken -/
  out : List Str
  /-- `some none`: the loop is over; `some (some e)`: it was left with an exception -/
  ended : Option (Option PyErr)

/-- cli.py:268-275: the tokens of one line. -/
def lineTokens (isWord : Char → Bool) (e : Env) (tokenize : Bool) (l : Str) : List Str :=
  if tokenize then simpleWordTokenize isWord e l else if (pyStrip e l).isEmpty then [] else [pyStrip e l]

variable {S : Type} [Score S]

/-- cli.py:188-189, one event: the generator has a token left, which is analyzed (or found in the cache) and written; or it asks the file for the next
line.  `src i` is what the file answers to the `i`-th request; `sink i = some (e, j)` if the `i`-th write raises `e` after having taken `j` characters. -/
def streamStep (isWord : Char → Bool) (fmt : S → Str) (m : Morph S) (o : CliOpts S) (tokenize : Bool) (c : CacheArg) (src : Nat → Input)
    (sink : Nat → Option (PyErr × Nat)) (s : StreamState) : StreamState :=
  match s.ended with
  | some _ => s
  | none => match s.toks with
    | t :: ts => match cachedCall c (formatToken fmt m o) t s.cache with
      | (.error e, cache) => { s with cache := cache, ended := some (some e) }
      | (.ok chunk, cache) => match sink s.out.length with
        | some (e, j) => { s with cache := cache, out := s.out ++ [chunk.take j], ended := some (some e) }
        | none => { s with toks := ts, cache := cache, out := s.out ++ [chunk] }
    | [] => match src s.pos with
      | .line l => { s with toks := lineTokens isWord m.env tokenize l, pos := s.pos + 1 }
      | .eof => { s with ended := some none }
      | .fails e => { s with ended := some (some e) }

/-- cli.py:172-186: before the loop; a formatter without columns is a `ValueError` (cli.py:208-209). -/
def streamStart (o : CliOpts S) : StreamState :=
  ⟨[], [], 0, [], if !o.normalForm && !o.tag then some (some .valueError) else none⟩

/-- The state after `n` events. -/
def streamRun (isWord : Char → Bool) (fmt : S → Str) (m : Morph S) (o : CliOpts S) (tokenize : Bool) (c : CacheArg) (src : Nat → Input)
    (sink : Nat → Option (PyErr × Nat)) : Nat → StreamState
  | 0 => streamStart o
  | n + 1 => streamStep isWord fmt m o tokenize c src sink (streamRun isWord fmt m o tokenize c src sink n)

end Verif
