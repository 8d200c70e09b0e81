/-
Model of the constructor of MorphAnalyzer and of its pickling: /repo/pymorphy2/analyzer.py:119-148, 190-299, 442-444.
-/
import Verif.Model.Storage
import Verif.Model.Config

namespace Verif

/-- What a process finds around it: installed dictionary packages, the environment variable, the folders, the machine. -/
structure Sys where
  /-- byte order of the machine -/
  little : Bool
  /-- the folder at a path (a missing folder has no files) -/
  disk : Str → Disk
  /-- `os.environ.get('PYMORPHY2_DICT_PATH')` -/
  envVar : Option Str
  /-- `_lang_dict_paths()`, analyzer.py:119-132: language code and path of each installed package -/
  installed : List (Str × Str)
  env : Env

/-- The `probability_estimator_cls` argument (other classes than the library's are not modelled). -/
inductive EstArg
  | auto
  | off
  | on

/-- The arguments of `MorphAnalyzer(...)`; `none` is Python's `None`. -/
structure MorphArgs (S : Type) where
  path : Option Str := none
  lang : Option Str := none
  /-- the result type is only a wrapper around the answers; kept to show that pickling keeps it -/
  resultType : Option Str := some (c!"Parse")
  units : Option (List (List (UnitSpec S))) := none
  est : EstArg := .auto
  /-- `none` is `auto`; `None` and `{}` are the table that substitutes nothing -/
  sub : Option Subst := none

/-- analyzer.py:135-148 `lang_dict_path` (no package is registered for `None`). -/
def langDictPath (s : Sys) (lang : Option Str) : Except PyErr Str :=
  match lang.bind fun l => dictGet l s.installed with
  | some p => .ok p
  | none => .error .valueError

/-- analyzer.py:272-280 `choose_dictionary_path` -/
def choosePath (s : Sys) (path lang : Option Str) : Except PyErr Str :=
  match path with
  | some p => .ok p
  | none => match s.envVar with
    | some p => .ok p
    | none => langDictPath s lang

/-- `dictionary.lang`, wrapper.py:32.  (A dictionary that declares something else than a string makes the later `hasattr` raise `TypeError`;
the model raises it here.) -/
def dictLang (m : List (Str × Json)) : Except PyErr (Option Str) :=
  match dictGet (c!"language_code") m with
  | none | some .null => .ok none
  | some (.str l) => .ok (some l)
  | some _ => .error .typeError

/-- analyzer.py:282-299 `choose_language` (the warnings are not modelled). -/
def chooseLanguage (dictLang lang : Option Str) : Str :=
  match lang with
  | some l => l
  | none => match dictLang with
    | some l => l
    | none => c!"ru"

/-- analyzer.py:250-257: the language whose configuration is used; `none` for an unknown one (with a warning). -/
def configLang (lang : Str) : Option Str :=
  let l := if lang = c!"ru-old" then c!"ru" else lang
  if l = c!"ru" ∨ l = c!"uk" then some l else none

variable {S : Type} [Score S]

/-- analyzer.py:226-228, 259-261 `_config_value('DEFAULT_UNITS', …)` -/
def defaultUnits (lang : Str) : List (List (UnitSpec S)) := if configLang lang = some (c!"uk") then ukUnits else ruUnits

/-- analyzer.py:240-243, 259-261 `_config_value('CHAR_SUBSTITUTES', …)` -/
def defaultSubst (lang : Str) : Subst := if configLang lang = some (c!"uk") then ukSubst else ruSubst

/-- Python truthiness of a JSON value. -/
def Json.truthy : Json → Bool
  | .null => false
  | .bool b => b
  | .num n => n ≠ 0
  | .str s => !s.isEmpty
  | .arr l => !l.isEmpty
  | .obj l => !l.isEmpty

/-- analyzer.py:263-270 `_get_prob_estimator`, 69-71 `ProbabilityEstimator.__init__` -/
def loadEst (d : Disk) (m : List (Str × Json)) (a : EstArg) : Except PyErr (Option (List (Str × Nat))) :=
  let wanted := match a with
    | .auto => ((dictGet (c!"P(t|w)") m).map Json.truthy).getD false
    | .off => false
    | .on => true
  if wanted then
    match d .probs with
    | some (.intDawg t) => .ok (some t)
    | _ => .error .ioError
  else .ok none

/-- A constructed analyzer: what it answers with, and what it keeps for pickling (analyzer.py:194-195, 222, 230). -/
structure Analyzer (S : Type) where
  morph : Morph S
  lang : Str
  path_ : Option Str
  lang_ : Option Str
  resultTypeOrig : Option Str
  unitsUnbound : List (List (UnitSpec S))

/-- analyzer.py:190-224 `MorphAnalyzer.__init__` -/
def construct (s : Sys) (cls : TagCls) (a : MorphArgs S) : Except PyErr (Analyzer S) := do
  let lang := if a.path = none ∧ a.lang = none then some (c!"ru") else a.lang
  let path ← choosePath s a.path lang
  let r ← loadDict s.little (s.disk path) cls
  let dl ← dictLang r.1
  let l := chooseLanguage dl lang
  let est ← loadEst (s.disk path) r.1 a.est
  let sub := a.sub.getD (defaultSubst l)
  let units := a.units.getD (defaultUnits l)
  let m ← mkMorph s.env r.2.2 r.2.1 sub units est
  pure ⟨m, l, a.path, a.lang, a.resultType, units⟩

/-- analyzer.py:442-444 `__reduce__`: the arguments the copy is constructed with. -/
def Analyzer.reduce (x : Analyzer S) : MorphArgs S :=
  { path := x.path_, lang := x.lang_, resultType := x.resultTypeOrig, units := some x.unitsUnbound }

end Verif
