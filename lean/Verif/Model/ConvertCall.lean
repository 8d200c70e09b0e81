/-
Model of the call of `convert_to_pymorphy2` (/repo/pymorphy2/opencorpora_dict/compile.py:38-73): the optional C extension, the options and their
defaults, and the metadata that is written (storage.py:117-150).
-/
import Verif.Model.Convert

namespace Verif

/-- lang/ru/config.py:9 `PARADIGM_PREFIXES` -/
def ruParadigmPrefixes : List Str := [c!"", c!"по", c!"наи"]

/-- lang/uk/config.py:10 `PARADIGM_PREFIXES` -/
def ukParadigmPrefixes : List Str := [c!"", c!"най", c!"якнай", c!"щонай"]

/-- The dict `compile_options`: a key may be missing.  (Other keys have no effect but to be written into the metadata; they are not modelled.) -/
structure UserOpts where
  minEndingFreq : Option Nat := none
  minParadigmPopularity : Option Nat := none
  maxSuffixLength : Option Nat := none
  paradigmPrefixes : Option (List Str) := none

/-- compile.py:66-72: `options = dict(min_ending_freq=2, …); options.update(compile_options or {}); options["paradigm_prefixes"]` -/
def mergeOptions (u : Option UserOpts) : Except PyErr COptions :=
  match (u.getD {}).paradigmPrefixes with
  | none => .error .keyError
  | some ps => .ok {
      minEndingFreq := (u.getD {}).minEndingFreq.getD 2
      minParadigmPopularity := (u.getD {}).minParadigmPopularity.getD 3
      maxSuffixLength := (u.getD {}).maxSuffixLength.getD 5
      paradigmPrefixes := ps }

/-- What comes from outside into the metadata: the version of pymorphy2, the clock, the argument `source_name`. -/
structure Stamp where
  version : Str
  now : Str
  source : Str

/-- A string that may be `None`, in JSON. -/
def jsonOpt : Option Str → Json
  | some s => .str s
  | none => .null

/-- storage.py:117-150: the metadata of a conversion.  `len(parsed_dict.lexemes)` and `len(parsed_dict.links)`: joining empties lexemes but removes no
id.  `_dawg_len` counts the records of a table.  (Language and tags are filled in by `saveInfo`.) -/
def realInfo (st : Stamp) (o : COptions) (x : XmlParsed) (v : Option Str × Option Str) (c : Compiled) : SaveInfo where
  languageCode := .null
  pymorphyVersion := .str st.version
  compiledAt := .str st.now
  source := .str st.source
  sourceVersion := jsonOpt v.1
  sourceRevision := jsonOpt v.2
  lexemesCount := .num x.lexemes.length
  linksCount := .num x.links.length
  wordsDawgLength := .num c.words.length
  predLengths := .arr (c.pred.map fun t => .num t.length)
  minEndingFreq := .num o.minEndingFreq
  minParadigmPopularity := .num o.minParadigmPopularity
  extTags := []

/-- compile.py:38-59 `convert_to_pymorphy2`; `ext`: the C extension is installed (dawg.py:4-17 `assert_can_create`); `a.opts` and `a.info` are not used. -/
def ConvArgs.call (a : ConvArgs) (st : Stamp) (ext : Bool) (u : Option UserOpts) (doc : Elem) (overwrite : Bool) (reg : Registry)
    (folder : Option Disk) : Converted :=
  if ext = false then ⟨reg, folder, .error (.raised .notImplementedError)⟩
  else if folder.isSome ∧ overwrite = false then ⟨reg, folder, .ok ()⟩
  else match parseXml a.env a.lx doc with
    | .error e => ⟨reg, some (folder.getD Disk.fresh), .error (.raised e)⟩
    | .ok (x, v) => match mergeOptions u with
      | .error e => ⟨reg, some (folder.getD Disk.fresh), .error (.raised e)⟩
      | .ok o => { a with opts := o, info := realInfo st o x v }.convert doc overwrite reg folder

end Verif
