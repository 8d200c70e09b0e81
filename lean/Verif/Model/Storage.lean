/-
Model of pymorphy2/opencorpora_dict/storage.py: files, saving, loading, crashes while writing.
-/
import Verif.Model.Compile
import Verif.Model.TagInit

namespace Verif

/-! ### Files -/

/-- A JSON value, as far as dictionaries use them.  Loading what was dumped gives the same value (C92); floating point
numbers do not occur. -/
inductive Json
  | null
  | bool (b : Bool)
  | num (n : Int)
  | str (s : Str)
  | arr (l : List Json)
  | obj (l : List (Str × Json))

/-- The names of the files of a dictionary.  The fixed names of the source are distinct strings; a name read from the metadata
(`gramtab_formats`) is kept as a string. -/
inductive FName
  | metaF
  | grammemes
  | paradigms
  | suffixes
  | words
  | pred (i : Nat)
  /-- `paradigm-prefixes.json` of old dictionaries -/
  | prefixes
  /-- `p_t_given_w.intdawg` -/
  | probs
  | named (s : Str)
  deriving DecidableEq

/-- What a file contains. -/
inductive File
  /-- a complete JSON text -/
  | json (j : Json)
  /-- a text that is no complete JSON document, or a DAWG that is not complete: what an interrupted write leaves -/
  | broken
  /-- raw bytes -/
  | bytes (b : List Nat)
  | wordsDawg (d : Dawg (Nat × Nat))
  | predDawg (d : Dawg (Nat × Nat × Nat))
  | intDawg (d : List (Str × Nat))

/-- A folder. -/
abbrev Disk := FName → Option File

/-- Replace one file. -/
def Disk.set (d : Disk) (n : FName) (f : File) : Disk := fun n' => if n' = n then some f else d n'

/-- An empty folder. -/
def Disk.fresh : Disk := fun _ => none

/-- What may be in a file when writing it was interrupted: `open(…, 'w')` truncates the file, then its content is appended.
A JSON document of the kinds written here (a list or an object) is not valid before its last character (C92). -/
inductive PartOf : File → File → Prop
  | json (j : Json) : PartOf (.json j) .broken
  | bytes (b b' : List Nat) (h : b' <+: b) : PartOf (.bytes b) (.bytes b')
  | wordsDawg (d) : PartOf (.wordsDawg d) .broken
  | predDawg (d) : PartOf (.predDawg d) .broken
  | intDawg (d) : PartOf (.intDawg d) .broken

/-- All writes done. -/
def Disk.writeAll (d : Disk) : List (FName × File) → Disk
  | [] => d
  | w :: ws => (d.set w.1 w.2).writeAll ws

/-- The folders a process can leave when it is killed while doing the writes in order (at any time, also inside a write). -/
inductive Killed : Disk → List (FName × File) → Disk → Prop
  | before (d : Disk) (w : FName × File) (ws : List (FName × File)) : Killed d (w :: ws) d
  | inside (d : Disk) (w : FName × File) (ws : List (FName × File)) (f : File) (h : PartOf w.2 f) : Killed d (w :: ws) (d.set w.1 f)
  | later (d d' : Disk) (w : FName × File) (ws : List (FName × File)) (h : Killed (d.set w.1 w.2) ws d') : Killed d (w :: ws) d'

/-! ### paradigms.array -/

/-- `struct.pack("<H", n)` -/
def packH (n : Nat) : Except PyErr (List Nat) := if n ≤ maxH then .ok [n % 256, n / 256] else .error .structError

/-- An item of `array.array("H")` in memory order: little-endian or big-endian machine. -/
def itemBytes (little : Bool) (n : Nat) : List Nat := if little then [n % 256, n / 256] else [n / 256, n % 256]

/-- storage.py:108-109 for one paradigm: `struct.pack("<H", len(para))`, `para.tofile(f)` -/
def encodePara (little : Bool) (p : List Nat) : Except PyErr (List Nat) := do
  let h ← packH p.length
  pure (h ++ p.flatMap (itemBytes little))

/-- storage.py:106-109 -/
def encodeParas (little : Bool) (ps : List (List Nat)) : Except PyErr (List Nat) := do
  let h ← packH ps.length
  let bs ← mapE (encodePara little) ps
  pure (h ++ bs.flatten)

/-- `struct.unpack("<H", f.read(2))[0]` and the rest of the file. -/
def readH : List Nat → Except PyErr (Nat × List Nat)
  | a :: b :: rest => .ok (a + 256 * b, rest)
  | _ => .error .structError

/-- The items of `array.fromfile`. -/
def itemsOf (little : Bool) : List Nat → List Nat
  | a :: b :: rest => (if little then a + 256 * b else 256 * a + b) :: itemsOf little rest
  | _ => []

/-- `para.fromfile(f, n)`: `EOFError` when fewer than `n` items are left. -/
def readItems (little : Bool) (n : Nat) (b : List Nat) : Except PyErr (List Nat × List Nat) :=
  if b.length < 2 * n then .error .eofError else .ok (itemsOf little (b.take (2 * n)), b.drop (2 * n))

/-- storage.py:205-211: the loop over the paradigms. -/
def decodeLoop (little : Bool) : Nat → List Nat → Except PyErr (List (List Nat))
  | 0, _ => .ok []
  | n + 1, b => do
    let l ← readH b
    let it ← readItems little l.1 l.2
    let rest ← decodeLoop little n it.2
    pure (it.1 :: rest)

/-- storage.py:199-212 `_load_paradigms` -/
def decodeParas (little : Bool) (b : List Nat) : Except PyErr (List (List Nat)) := do
  let c ← readH b
  decodeLoop little c.1 c.2

/-! ### Metadata -/

/-- `OrderedDict(pairs)` -/
def toDictOrdered (l : List (Str × Json)) : List (Str × Json) := l.foldl (fun d e => dictSet e.1 e.2 d) []

/-- One `[key, value]` item. -/
def metaItem : Json → Except PyErr (Str × Json)
  | .arr [.str k, v] => .ok (k, v)
  | _ => .error .valueError

/-- `json_read(filename)`: `IOError` for a missing file, `ValueError` for invalid JSON. -/
def readJson (d : Disk) (n : FName) : Except PyErr Json :=
  match d n with
  | none => .error .ioError
  | some (.json j) => .ok j
  | some _ => .error .valueError

/-- storage.py:153-158 `load_meta` (a list of pairs or, as `dict` accepts it as well, an object). -/
def loadMeta (d : Disk) : Except PyErr (List (Str × Json)) := do
  match ← readJson d .metaF with
  | .arr l => do
    let items ← mapE metaItem l
    pure (toDictOrdered items)
  | .obj l => pure (toDictOrdered l)
  | _ => .error .typeError

/-- storage.py:161-165 `write_meta`: the content written. -/
def metaFile (m : List (Str × Json)) : File := .json (.arr (m.map fun e => .arr [.str e.1, e.2]))

/-- storage.py:168-172 `update_meta`: the write it does. -/
def updateMeta (d : Disk) (extra : List (Str × Json)) : Except PyErr (List (FName × File)) := do
  let m ← loadMeta d
  pure [(.metaF, metaFile (extra.foldl (fun d e => dictSet e.1 e.2 d) m))]

/-- storage.py:27 -/
def CURRENT_FORMAT_VERSION : Str := c!"2.4"

/-- storage.py:215-229 `_assert_format_is_compatible`.  `str()` of a value that is not a string contains no dot before which there
is just `2`: numbers have none (floats are read as strings, storage.py:155), lists and objects start with a bracket. -/
def assertFormat (m : List (Str × Json)) : Except PyErr Unit :=
  match (dictGet (c!"format_version") m).getD (.str (c!"0.0")) with
  | .str v =>
    if '.' ∉ v then .error .valueError
    else match splitC '.' v with
      | [major, _] => if major = (splitC '.' CURRENT_FORMAT_VERSION).headD [] then .ok () else .error .valueError
      | _ => .error .valueError
  | _ => .error .valueError

/-! ### Saving -/

/-- A row of grammemes.json (the description, which nothing reads, is written as null here). -/
def rowJson (r : GramRow) : Json := .arr [.str r.name, (match r.parent with | some p => .str p | none => .null), .str r.alias_, .null]

/-- What `save_compiled_dict` writes into the metadata and nothing reads back: names, versions, dates, counts, options. -/
structure SaveInfo where
  languageCode : Json
  pymorphyVersion : Json
  compiledAt : Json
  source : Json
  sourceVersion : Json
  sourceRevision : Json
  lexemesCount : Json
  linksCount : Json
  wordsDawgLength : Json
  predLengths : Json
  minEndingFreq : Json
  minParadigmPopularity : Json
  /-- the tags of gramtab-opencorpora-ext.json (an input here; `Model/Cyr` and C64 relate it to the compiled tags) -/
  extTags : List Str

/-- storage.py:130-150: the metadata (`compile_options`: compile.py:66-73). -/
def metaOf (i : SaveInfo) (c : Compiled) : List (Str × Json) :=
  [(c!"language_code", i.languageCode), (c!"format_version", .str CURRENT_FORMAT_VERSION), (c!"pymorphy2_version", i.pymorphyVersion),
    (c!"compiled_at", i.compiledAt), (c!"source", i.source), (c!"source_version", i.sourceVersion),
    (c!"source_revision", i.sourceRevision), (c!"source_lexemes_count", i.lexemesCount), (c!"source_links_count", i.linksCount),
    (c!"gramtab_length", .num c.gramtab.length),
    (c!"gramtab_formats", .obj [(c!"opencorpora-ext", .str (c!"gramtab-opencorpora-ext.json")),
      (c!"opencorpora-int", .str (c!"gramtab-opencorpora-int.json"))]),
    (c!"paradigms_length", .num c.paradigms.length), (c!"suffixes_length", .num c.suffixes.length),
    (c!"words_dawg_length", i.wordsDawgLength),
    (c!"compile_options", .obj [(c!"min_ending_freq", i.minEndingFreq), (c!"min_paradigm_popularity", i.minParadigmPopularity),
      (c!"max_suffix_length", .num c.maxSuffixLength), (c!"paradigm_prefixes", .arr (c.prefixes.map Json.str))]),
    (c!"prediction_suffixes_dawg_lengths", i.predLengths)]

/-- storage.py:85-150 `save_compiled_dict`: the writes, in order (an error while packing stops it: `encodeParas`). -/
def saveOps (little : Bool) (i : SaveInfo) (rows : List GramRow) (c : Compiled) : Except PyErr (List (FName × File)) := do
  let paras ← encodeParas little c.paradigms
  pure ([(.grammemes, .json (.arr (rows.map rowJson))),
    (.named (c!"gramtab-opencorpora-ext.json"), .json (.arr (i.extTags.map Json.str))),
    (.named (c!"gramtab-opencorpora-int.json"), .json (.arr (c.gramtab.map Json.str))),
    (.paradigms, .bytes paras),
    (.suffixes, .json (.arr (c.suffixes.map Json.str))),
    (.words, .wordsDawg c.words)]
    ++ c.pred.mapIdx (fun k t => (FName.pred k, File.predDawg t))
    ++ [(.metaF, metaFile (metaOf i c))])

/-! ### Loading -/

/-- The model stops with `TypeError` at JSON values `save_compiled_dict` never writes (Python would go on with them). -/
def asStr : Json → Except PyErr Str
  | .str s => .ok s
  | _ => .error .typeError

def asStrs : Json → Except PyErr (List Str)
  | .arr l => mapE asStr l
  | _ => .error .typeError

def asNat : Json → Except PyErr Nat
  | .num n => if 0 ≤ n then .ok n.toNat else .error .typeError
  | _ => .error .typeError

/-- A row of grammemes.json. -/
def rowOf : Json → Except PyErr GramRow
  | .arr [.str n, .null, .str a, _] => .ok ⟨n, none, a⟩
  | .arr [.str n, .str p, .str a, _] => .ok ⟨n, some p, a⟩
  | _ => .error .typeError

def rowsOf : Json → Except PyErr (List GramRow)
  | .arr l => mapE rowOf l
  | _ => .error .typeError

/-- storage.py:189-196 `_load_gramtab` -/
def loadGramtab (d : Disk) (m : List (Str × Json)) (fmt : Str) : Except PyErr (List Str) := do
  match (dictGet (c!"gramtab_formats") m).getD (.obj []) with
  | .obj fs => match dictGet fmt fs with
    | none => .error .valueError
    | some n => do
      let n ← asStr n
      let j ← readJson d (.named n)
      asStrs j
  | _ => .error .typeError

/-- `meta["compile_options"][key]` with the fall-back of old dictionaries: `none` on `KeyError`. -/
def compileOption (m : List (Str × Json)) (key : Str) : Except PyErr (Option Json) :=
  match dictGet (c!"compile_options") m with
  | none => .ok none
  | some (.obj l) => .ok (dictGet key l)
  | some _ => .error .typeError

/-- by_analogy.py:182-187 `_max_suffix_length` -/
def maxSuffixOf (m : List (Str × Json)) : Except PyErr Nat := do
  match ← compileOption m (c!"max_suffix_length") with
  | some j => asNat j
  | none => match dictGet (c!"prediction_options") m with
    | some (.obj l) => match dictGet (c!"max_suffix_length") l with
      | some j => asNat j
      | none => .error .keyError
    | some _ => .error .typeError
    | none => .error .keyError

/-- storage.py:61-65 -/
def loadPrefixes (d : Disk) (m : List (Str × Json)) : Except PyErr (List Str) := do
  match ← compileOption m (c!"paradigm_prefixes") with
  | some j => asStrs j
  | none => do
    let j ← readJson d .prefixes
    asStrs j

/-- `dawg.WordsDawg().load(…)` -/
def loadWords (d : Disk) : Except PyErr (Dawg (Nat × Nat)) :=
  match d .words with
  | some (.wordsDawg t) => .ok t
  | _ => .error .ioError

/-- storage.py:68-71 for one prefix. -/
def loadPred (d : Disk) (i : Nat) : Except PyErr (Dawg (Nat × Nat × Nat)) :=
  match d (.pred i) with
  | none => .error .assertionError
  | some (.predDawg t) => .ok t
  | some _ => .error .ioError

/-- `_load_paradigms(_f('paradigms.array'))` -/
def loadParas (little : Bool) (d : Disk) : Except PyErr (List (List Nat)) :=
  match d .paradigms with
  | none => .error .ioError
  | some (.bytes b) => decodeParas little b
  | some _ => .error .structError

/-- storage.py:41-82 `load_dict` with the default gramtab format, and the suffix length the units read: the metadata, the class state it
leaves and the dictionary. -/
def loadDict (little : Bool) (d : Disk) (cls : TagCls) : Except PyErr (List (Str × Json) × TagCls × Dict) := do
  let m ← loadMeta d
  assertFormat m
  let g ← readJson d .grammemes
  let rows ← rowsOf g
  let cls' := cls.init rows
  let strs ← loadGramtab d m (c!"opencorpora-int")
  let gramtab ← mapE cls'.mkTag strs
  let sj ← readJson d .suffixes
  let suffixes ← asStrs sj
  let paradigms ← loadParas little d
  let words ← loadWords d
  let prefixes ← loadPrefixes d m
  let pred ← mapE (loadPred d) (List.range prefixes.length)
  let msl ← maxSuffixOf m
  pure (m, cls', { paradigms, gramtab, prefixes, suffixes, words, pred, maxSuffixLength := msl })

end Verif
