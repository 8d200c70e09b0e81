/-
Model of /repo/pymorphy2/opencorpora_dict/parse.py.
-/
import Verif.Model.Cli
import Verif.Model.Compile
import Verif.Model.TagInit

namespace Verif

/-- An XML element: tag, attributes, text and child elements (what the parser reads of the DOM). -/
inductive Elem where
  | mk (tag : Str) (attrs : List (Str × Str)) (text : Option Str) (children : List Elem)

namespace Elem

def tag : Elem → Str
  | mk t _ _ _ => t
def attrs : Elem → List (Str × Str)
  | mk _ a _ _ => a
def text : Elem → Option Str
  | mk _ _ x _ => x
def children : Elem → List Elem
  | mk _ _ _ c => c

/-- `elem.get(key)` -/
def get (e : Elem) (k : Str) : Option Str := dictGet k e.attrs

mutual
/-- The element and all its descendants in document order. -/
def all : Elem → List Elem
  | mk t a x cs => mk t a x cs :: allList cs
def allList : List Elem → List Elem
  | [] => []
  | c :: cs => c.all ++ allList cs
end

/-- `elem.iter(tag)` -/
def iter (e : Elem) (t : Str) : List Elem := e.all.filter fun x => decide (x.tag = t)

/-- `elem.find(tag)`: the first child. -/
def find (e : Elem) (t : Str) : Option Elem := e.children.find? fun x => decide (x.tag = t)

/-- `elem.clear()` -/
def clear (e : Elem) : Elem := mk e.tag [] none []

end Elem

/-- `x.f` for an `x` that may be `None`: `AttributeError`. -/
def orAttr {α : Type} : Option α → Except PyErr α
  | some a => .ok a
  | none => .error .attributeError

/-- A string is required and it may be `None`: `TypeError`. -/
def orType {α : Type} : Option α → Except PyErr α
  | some a => .ok a
  | none => .error .typeError

/-- parse.py:103-104 `_grammemes_from_elem`: joining `None` raises `TypeError`. -/
def grammemesFromElem (e : Elem) : Except PyErr Str := do
  let vs ← mapE (fun g => orType (g.get (c!"v"))) (e.iter (c!"g"))
  pure (joinC ',' vs)

/-- parse.py:122-132, the loop over the forms; `none` = the whole lexeme is dropped. -/
def formsLoop (env : Env) (base : Str) : List Elem → Except PyErr (Option Lexeme)
  | [] => .ok (some [])
  | f :: fs => do
    let gr ← grammemesFromElem f
    let t ← orAttr (f.get (c!"t"))
    if base ++ gr = [] then pure none
    else do
      let rest ← formsLoop env base fs
      pure (rest.map fun r => (env.lower t, pyStrip env (base ++ ' ' :: gr)) :: r)

/-- parse.py:107-134 `_word_forms_from_xml_elem` (the Python 2 decoding is not modelled). -/
def wordForms (env : Env) (e : Elem) : Except PyErr (Option Str × Lexeme) :=
  if e.children.length = 0 then .ok (e.get (c!"id"), []) else
    match e.iter (c!"l") with
    | [l] => do
      let base ← grammemesFromElem l
      let forms ← formsLoop env base (e.iter (c!"f"))
      pure (e.get (c!"id"), forms.getD [])
    | _ => .error .assertionError

/-- A row of the grammeme table as it is read: name, parent, alias, description. -/
abbrev XmlGrammeme := Option Str × Option Str × Option Str × Option Str

/-- parse.py:33 `ParsedDictionary` (version and revision separately). -/
structure XmlParsed where
  lexemes : List (Option Str × Lexeme)
  links : List (Option Str × Option Str × Option Str)
  grammemes : List XmlGrammeme
  deriving DecidableEq

/-- parse.py:71-76 -/
def readGrammeme (e : Elem) : Except PyErr XmlGrammeme := do
  let name ← orAttr (e.find (c!"name"))
  let alias_ ← orAttr (e.find (c!"alias"))
  let descr ← orAttr (e.find (c!"description"))
  pure (name.text, e.get (c!"parent"), alias_.text, descr.text)

/-- parse.py:59, 63 `interesting_tags` -/
def Elem.interesting (e : Elem) : Bool :=
  decide (e.tag = c!"grammeme" ∨ e.tag = c!"lemma" ∨ e.tag = c!"link")

/-- parse.py:70-92: what is done with one interesting element. -/
def readElem (env : Env) (e : Elem) (st : XmlParsed) : Except PyErr XmlParsed :=
  if e.tag = c!"grammeme" then do
    let g ← readGrammeme e
    pure { st with grammemes := st.grammemes ++ [g] }
  else if e.tag = c!"lemma" then do
    let r ← wordForms env e
    pure { st with lexemes := dictSet r.1 r.2 st.lexemes }
  else if e.tag = c!"link" then
    pure { st with links := st.links ++ [(e.get (c!"from"), e.get (c!"to"), e.get (c!"type"))] }
  else pure st

mutual
/-- parse.py:61-92 with `iterparse`: the elements are reported when they end (children before parents) and interesting ones are emptied after
they have been read.  `lx` says which of the two `xml_clear_elem` is used (parse.py:14-26): the lxml one also deletes the elements before
the emptied one.  Returns what is left of the element. -/
def readTree (env : Env) (lx : Bool) : Elem → XmlParsed → Except PyErr (Elem × XmlParsed)
  | .mk t a x cs, st => do
    let r ← readTrees env lx cs [] st
    let e := Elem.mk t a x r.1
    if e.interesting then do
      let st' ← readElem env e r.2
      pure (e.clear, st')
    else pure (e, r.2)
/-- `left`: what is left of the earlier children. -/
def readTrees (env : Env) (lx : Bool) : List Elem → List Elem → XmlParsed → Except PyErr (List Elem × XmlParsed)
  | [], left, st => .ok (left, st)
  | c :: cs, left, st => do
    let r ← readTree env lx c st
    readTrees env lx cs (if lx = true ∧ c.interesting = true then [r.1] else left ++ [r.1]) r.2
end

/-- parse.py:36-45 `get_dictionary_info`: version and revision of the first `dictionary` element among the first `elem_limit + 2` elements. -/
def dictionaryInfo (doc : Elem) (limit : Nat := 1000) : Option Str × Option Str :=
  match (doc.all.take (limit + 2)).find? fun e => decide (e.tag = c!"dictionary") with
  | some e => (e.get (c!"version"), e.get (c!"revision"))
  | none => (none, none)

/-- parse.py:48-100 `parse_opencorpora_xml`, for a well-formed document. -/
def parseXml (env : Env) (lx : Bool) (doc : Elem) : Except PyErr (XmlParsed × Option Str × Option Str) := do
  let r ← readTree env lx doc ⟨[], [], []⟩
  pure (r.2, dictionaryInfo doc)

end Verif
