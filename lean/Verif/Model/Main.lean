/-
Model of the command line dispatcher of /repo/pymorphy2/cli.py (`main`, `_open_for_read`, `show_dict_meta`).
-/
import Verif.Model.Cli
import Verif.Model.Construct

namespace Verif

/-- What `docopt` makes of the arguments of `pymorphy parse` (cli.py:24-51, third party): options that are not given have their defaults. -/
structure ParseArgs where
  lang : Str := c!"ru"
  dict : Option Str := none
  input : Option Str := none
  score : Bool := false
  lemmatize : Bool := false
  tag : Bool := false
  tokenized : Bool := false
  cache : Str := c!"20000"
  thresh : Str := c!"0.0"

/-- What a process reads: its standard input and the files, as lines. -/
structure Inputs where
  stdin : List Str
  file : Str → Option (List Str)

/-- cli.py:112-122 `_open_for_read` (decoding errors are not modelled). -/
def openForRead (io : Inputs) (fn : Option Str) : Except PyErr (List Str) :=
  if fn = some (c!"-") ∨ fn = some [] ∨ fn = none then .ok io.stdin
  else match io.file (fn.getD []) with
    | none => .error .ioError
    | some ls => .ok ls

/-- Python's functions from and to strings of numbers: `float`, `int` and `"%0.3f" %`, and the regular expression class `\w`. -/
structure Conv (S : Type) where
  float : Str → Option S
  int : Str → Option Int
  fmt : S → Str
  isWord : Char → Bool

variable {S : Type} [Score S]

/-- cli.py:78-82: which columns are wanted. -/
def ParseArgs.columns (a : ParseArgs) : Bool × Bool × Bool :=
  if a.score || a.lemmatize || a.tag then (a.score, a.lemmatize, a.tag) else (true, true, true)

/-- cli.py:180-183: the `--cache` option. -/
def cacheArg (k : Conv S) (s : Str) : Except PyErr CacheArg :=
  if s = c!"unlim" then .ok .unlim
  else match k.int s with
    | none => .error .valueError
    | some n => .ok (.size n)

/-- cli.py:74-99, 152-189: `pymorphy parse`: the chunks written and the exception that ended it, if any. -/
def cliMain (k : Conv S) (s : Sys) (cls : TagCls) (io : Inputs) (a : ParseArgs) : List Str × Option PyErr :=
  match construct (S := S) s cls { path := a.dict, lang := some a.lang } with
  | .error e => ([], some e)
  | .ok x => match openForRead io a.input with
    | .error e => ([], some e)
    | .ok lines => match k.float a.thresh with
      | none => ([], some .valueError)
      | some th =>
        if !a.columns.2.1 && !a.columns.2.2 then ([], some .valueError)
        else match cacheArg k a.cache with
          | .error e => ([], some e)
          | .ok c => cliParse k.isWord k.fmt x.morph ⟨a.columns.1, a.columns.2.1, a.columns.2.2, true, th⟩ (!a.tokenized) c lines

/-- cli.py:145-149 `show_dict_meta`: an analyzer is constructed, and the metadata of its dictionary is logged, a line for each entry;
`text` is `str` on the values. -/
def showMeta (text : Json → Str) (s : Sys) (cls : TagCls) (lang : Str) (dict : Option Str) : Except PyErr (List Str) := do
  let _ ← construct (S := S) s cls { path := dict, lang := some lang }
  let path ← choosePath s dict (some lang)
  let r ← loadDict s.little (s.disk path) cls
  pure (r.1.map fun e => e.1 ++ c!": " ++ text e.2)

end Verif
