/-
Model of `convert_to_pymorphy2` (/repo/pymorphy2/opencorpora_dict/compile.py:38-59, 375-386): an OpenCorpora XML dictionary becomes a folder.
-/
import Verif.Model.Cyr
import Verif.Model.Xml

namespace Verif

/-- `str(id)` of an attribute that may be missing (compile.py:223, 228).  (Python keeps `None` itself in `moves`; the difference shows only
in a document with a link without end and another one with the end "None".) -/
def strId (a : Option Str) : Option Str := some (a.getD (c!"None"))

/-- What the compiler reads of the document: a missing link type is not in the list of excluded types, as the empty string is not. -/
def XmlParsed.toParsed (x : XmlParsed) : Parsed (Option Str) where
  lexemes := x.lexemes
  links := x.links.map fun l => (strId l.1, strId l.2.1, l.2.2.getD [])

/-- `int(lex_id)` (compile.py:241): `None` raises `TypeError`, a string that is no number `ValueError`.  `int` is Python's on strings. -/
def idNum (int : Str → Option Int) : Option Str → Except PyErr Int
  | none => .error .typeError
  | some s => match int s with
    | none => .error .valueError
    | some n => .ok n

/-- compile.py:62-179 with compile.py:241: the ids are turned into numbers after the links have been processed. -/
def compileXml (int : Str → Option Int) (bw : DawgBuild (Nat × Nat)) (bp : DawgBuild (Nat × Nat × Nat)) (o : COptions)
    (p : Parsed (Option Str)) : Except Fail Compiled :=
  match joinLoop p.links (p.lexemes, []) with
  | .error x => .error x
  | .ok _ => match mapE (idNum int) (p.lexemes.map Prod.fst) with
    | .error e => .error (.raised e)
    | .ok _ => compileParsed (fun i => (i.bind int).getD 0) bw bp o p

/-- A row of the grammeme table as saved.  (The model stops with `TypeError` at grammemes without name or alias text; Python goes on with `None`.) -/
def gramRow : XmlGrammeme → Except PyErr GramRow
  | (some n, p, some a, _) => .ok ⟨n, p, a⟩
  | _ => .error .typeError

/-- storage.py:106-109: the bytes in paradigms.array when packing a number fails. -/
def writtenParas (little : Bool) (ps : List (List Nat)) : List Nat :=
  match packH ps.length with
  | .error _ => []
  | .ok h => h ++ (ps.takeWhile fun p => decide (p.length ≤ maxH)).flatMap fun p =>
    [p.length % 256, p.length / 256] ++ p.flatMap (itemBytes little)

/-- storage.py:85-150 `save_compiled_dict` into a folder: what is there afterwards, also when it fails. -/
def saveTo (little : Bool) (i : SaveInfo) (rows : List GramRow) (c : Compiled) (d : Disk) : Disk × Except PyErr Unit :=
  match saveOps little i rows c with
  | .ok ops => (d.writeAll ops, .ok ())
  | .error e => (d.writeAll [(.grammemes, .json (.arr (rows.map rowJson))),
    (.named (c!"gramtab-opencorpora-ext.json"), .json (.arr (i.extTags.map Json.str))),
    (.named (c!"gramtab-opencorpora-int.json"), .json (.arr (c.gramtab.map Json.str))),
    (.paradigms, .bytes (writtenParas little c.paradigms))], .error e)

/-- What a conversion leaves: the tag classes, the output folder (`none`: it does not exist), and how it ended. -/
structure Converted where
  reg : Registry
  folder : Option Disk
  outcome : Except Fail Unit

/-- The arguments of a conversion that do not change from call to call. -/
structure ConvArgs where
  little : Bool
  /-- which XML library is installed -/
  lx : Bool
  env : Env
  int : Str → Option Int
  bw : DawgBuild (Nat × Nat)
  bp : DawgBuild (Nat × Nat × Nat)
  opts : COptions
  lang : Str
  /-- the metadata that nothing reads back -/
  info : Compiled → SaveInfo

/-- compile.py:52-58: reading, preprocessing and compiling. -/
def ConvArgs.compile (a : ConvArgs) (doc : Elem) : Except Fail (List GramRow × Compiled) :=
  match parseXml a.env a.lx doc with
  | .error e => .error (.raised e)
  | .ok x => match compileXml a.int a.bw a.bp a.opts (dropUnsupported (simplifyTags x.1.toParsed)) with
    | .error e => .error e
    | .ok c => match mapE gramRow x.1.grammemes with
      | .error e => .error (.raised e)
      | .ok rows => .ok (rows, c)

/-- The metadata of a conversion: the language code given, the Cyrillic tags of the compiled ones. -/
def ConvArgs.saveInfo (a : ConvArgs) (reg : Registry) (rows : List GramRow) (c : Compiled) : SaveInfo :=
  { a.info c with languageCode := .str a.lang, extTags := (reg.save rows c.gramtab).2 }

/-- compile.py:38-59 `convert_to_pymorphy2`, compile.py:375-385 `_create_out_path` (`os.mkdir` fails only if the folder exists; a DAWG library that
can build is installed). -/
def ConvArgs.convert (a : ConvArgs) (doc : Elem) (overwrite : Bool) (reg : Registry) (folder : Option Disk) : Converted :=
  if folder.isSome ∧ overwrite = false then ⟨reg, folder, .ok ()⟩
  else
    let d := folder.getD Disk.fresh
    match a.compile doc with
    | .error e => ⟨reg, some d, .error e⟩
    | .ok (rows, c) =>
      let r := saveTo a.little (a.saveInfo reg rows c) rows c d
      ⟨(reg.save rows c.gramtab).1, some r.1, match r.2 with | .ok () => .ok () | .error e => .error (.raised e)⟩

end Verif
