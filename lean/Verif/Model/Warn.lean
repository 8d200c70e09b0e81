/-
Model of the warnings that `MorphAnalyzer(...)` issues: /repo/pymorphy2/analyzer.py:250-261, 282-299, in the order of `__init__` (analyzer.py:190-248).
`Model/Construct` has the same constructor without warnings; `Props/C115` relates the two.
SIMPLIFICATION: the text of a warning is represented by what it says; what the `warnings` module does with it (filters, once per location, turning it
into an exception) is not modelled.
-/
import Verif.Model.Construct

namespace Verif

/-- A warning. -/
inductive Warning
  /-- analyzer.py:287-288 "Dictionary doesn't declare its language; assuming 'ru'" -/
  | undeclared
  /-- analyzer.py:294-297 "Dictionary language (…) doesn't match analyzer language (…)." -/
  | mismatch (dictionary : Option Str) (analyzer : Str)
  /-- analyzer.py:255 "unknown language code: …" -/
  | unknownCode (lang : Str)
  deriving DecidableEq

/-- analyzer.py:282-299 `choose_language`, with its warnings. -/
def chooseLanguageW (dictLang lang : Option Str) : List Warning × Str :=
  match lang with
  | none => match dictLang with
    | none => ([.undeclared], c!"ru")
    | some l => ([], l)
  | some l => (if dictLang ≠ some l then [.mismatch dictLang l] else [], l)

/-- analyzer.py:250-261 `_config_value`: the warnings of one call; `attrs` are the names for which `hasattr(pymorphy2.lang, name)` holds: the
languages `ru` and `uk`, but also `absolute_import`, `__name__` and the like. -/
def configWarnings (attrs : List Str) (lang : Str) : List Warning :=
  let l := if lang = c!"ru-old" then c!"ru" else lang
  if l ∈ attrs then [] else [.unknownCode l]

variable {S : Type} [Score S]

/-- analyzer.py:190-248 `MorphAnalyzer.__init__`: the warnings issued until it returns or raises, and what it returns or raises. -/
def constructW (attrs : List Str) (s : Sys) (cls : TagCls) (a : MorphArgs S) : List Warning × Except PyErr (Analyzer S) :=
  let lang := if a.path = none ∧ a.lang = none then some (c!"ru") else a.lang
  match choosePath s a.path lang with
  | .error e => ([], .error e)
  | .ok path =>
    match loadDict s.little (s.disk path) cls with
    | .error e => ([], .error e)
    | .ok r =>
      match dictLang r.1 with
      | .error e => ([], .error e)
      | .ok dl =>
        let (ws, l) := chooseLanguageW dl lang
        match loadEst (s.disk path) r.1 a.est with
        | .error e => (ws, .error e)
        | .ok est =>
          -- `_init_char_substitutes`, analyzer.py:240-243, then `_init_units`, analyzer.py:226-238
          let (ws, sub) := match a.sub with
            | some sub => (ws, sub)
            | none => (ws ++ configWarnings attrs l, defaultSubst l)
          let (ws, units) := match a.units with
            | some units => (ws, units)
            | none => (ws ++ configWarnings attrs l, defaultUnits l)
          match mkMorph s.env r.2.2 r.2.1 sub units est with
          | .error e => (ws, .error e)
          | .ok m => (ws, .ok ⟨m, l, a.path, a.lang, a.resultType, units⟩)

end Verif
