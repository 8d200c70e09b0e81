/-
What cloning a unit needs of the interpreter: /repo/pymorphy2/units/base.py:34-35, 55-77 call `inspect.getargspec`, which CPython 3.11 and later do not
have.  The other modules model an interpreter that has it.
-/
import Verif.Model.Construct
import Verif.Model.Objects

namespace Verif

/-- The interpreter, as far as it matters here. -/
structure Interp where
  /-- is there an `inspect.getargspec`? -/
  getargspec : Bool

variable {S : Type} [Score S]

/-- base.py:68 `cls.__init__ is not object.__init__`, by class: abbreviations.py:11, by_shape.py:17, by_hyphen.py:31, 101, 160, by_analogy.py:51, 112, 170 define
`__init__` (for the class or its base class); by_lookup.py, by_analogy.py:166 and unkn.py do not. -/
def UClass.ownInit : UClass → Bool
  | .dictionary | .fakeDictionary | .unkn => false
  | .firstName | .patronymic | .number | .punct | .latin | .roman | .particle | .adverb | .hyphenated | .knownPrefix | .unknownPrefix | .knownSuffix => true

/-- The same for a unit given by its parameters. -/
def UnitSpec.ownInit : UnitSpec S → Bool
  | .dictionary | .unkn => false
  | .firstName _ _ _ | .patronymic _ _ _ | .number _ | .punct _ | .latin _ | .roman _ | .particle _ _ | .adverb _ | .hyphenated _ _
  | .knownPrefix _ _ _ | .unknownPrefix _ | .knownSuffix _ _ => true

/-- base.py:62-71 `_get_param_names` -/
def UClass.paramNamesOn (g : Interp) (c : UClass) : Except PyErr (List Str) :=
  if c.ownInit = false then .ok []
  else if g.getargspec then .ok ((c.params (S := S)).map Prod.fst)
  else .error .attributeError

/-- base.py:73-77 `_get_params` -/
def Obj.getParamsOn (g : Interp) (o : Obj S) : Except PyErr (List (Str × Val S)) := do
  let ns ← UClass.paramNamesOn (S := S) g o.cls
  pure (ns.map fun k => (k, o.get k))

/-- base.py:34-35 `clone` -/
def Obj.cloneOn (g : Interp) (lists : List (List Str)) (o : Obj S) : Except PyErr (Obj S) := do
  let ps ← o.getParamsOn g
  o.cls.new lists ps

/-- base.py:55-59 `__repr__` -/
def Obj.reprOn (g : Interp) (repr : Val S → Str) (o : Obj S) : Except PyErr Str := do
  let ps ← o.getParamsOn g
  pure (o.cls.name ++ c!"(" ++ kwargsRepr repr ps o.cls.reprSkip ++ c!")")

/-- base.py:34-35, analyzer.py:245-248: `unit.clone(); unit.init(morph)`. -/
def UnitSpec.bindOn (g : Interp) (sp : UnitSpec S) (id : Nat) (cls : TagCls) : Except PyErr (TagCls × BUnit S) :=
  if sp.ownInit && !g.getargspec then .error .attributeError else sp.bind id cls

/-- analyzer.py:232-238, as `bindUnits`. -/
def bindUnitsOn (g : Interp) : List (UnitSpec S × Bool) → Nat → TagCls → Except PyErr (TagCls × List (BUnit S × Bool))
  | [], _, cls => .ok (cls, [])
  | (sp, t) :: sps, id, cls => do
    let r ← sp.bindOn g id cls
    let rest ← bindUnitsOn g sps (id + 1) r.1
    pure (rest.1, (r.2, t) :: rest.2)

/-- analyzer.py:226-238 `_init_units`, as `initUnits`. -/
def initUnitsOn (g : Interp) (items : List (List (UnitSpec S))) (cls : TagCls) : Except PyErr (TagCls × List (BUnit S × Bool)) := do
  let flat ← mapE flattenItem items
  bindUnitsOn g flat.flatten 0 cls

/-- analyzer.py:190-224 `MorphAnalyzer.__init__`, as `construct`. -/
def constructOn (g : Interp) (s : Sys) (cls : TagCls) (a : MorphArgs S) : Except PyErr (Analyzer S) := do
  let lang := if a.path = none ∧ a.lang = none then some (c!"ru") else a.lang
  let path ← choosePath s a.path lang
  let r ← loadDict s.little (s.disk path) cls
  let dl ← dictLang r.1
  let l := chooseLanguage dl lang
  let est ← loadEst (s.disk path) r.1 a.est
  let sub := a.sub.getD (defaultSubst l)
  let units := a.units.getD (defaultUnits l)
  let b ← initUnitsOn g units r.2.1
  pure ⟨⟨s.env, r.2.2, b.1, sub, b.2, est⟩, l, a.path, a.lang, a.resultType, units⟩

end Verif
