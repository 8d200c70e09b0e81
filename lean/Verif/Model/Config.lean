/-
Model of unit construction and binding: analyzer.py:226-248 (`_init_units`, `_bound_unit`), the `__init__`/`init`
methods of the units, and the default unit lists of lang/ru/config.py and lang/uk/config.py.
-/
import Verif.Model.Analyzer
import Verif.Model.LangData

namespace Verif

/-- An unbound unit: class and constructor parameters. -/
inductive UnitSpec (S : Type)
  | dictionary
  /-- `pattern gender case` is `tag_pattern % {…}` (abbreviations.py:32) -/
  | firstName (letters : List Str) (pattern : Str → Str → Str) (score : S)
  | patronymic (letters : List Str) (pattern : Str → Str → Str) (score : S)
  | number (score : S)
  | punct (score : S)
  | latin (score : S)
  | roman (score : S)
  | particle (particles : List Str) (mult : S)
  | adverb (mult : S)
  | hyphenated (skip : List Str) (mult : S)
  | knownPrefix (prefixes : List Str) (mult : S) (minRemainder : Nat)
  | unknownPrefix (mult : S)
  | knownSuffix (mult : S) (minWordLength : Nat)
  | unkn

/-- abbreviations.py:33-34 -/
def GENDERS2 : List Str := [c!"masc", c!"femn"]
/-- abbreviations.py:34 -/
def CASES6 : List Str := [c!"nomn", c!"gent", c!"datv", c!"accs", c!"ablt", c!"loct"]

/-- abbreviations.py:52 `TAG_PATTERN` of first names. -/
def firstNamePattern (gender case : Str) : Str :=
  c!"NOUN,anim," ++ gender ++ c!",Sgtm,Name,Fixd,Abbr,Init sing," ++ case
/-- abbreviations.py:81 `TAG_PATTERN` of patronymics. -/
def patronymicPattern (gender case : Str) : Str :=
  c!"NOUN,anim," ++ gender ++ c!",Sgtm,Patr,Fixd,Abbr,Init sing," ++ case

/-- abbreviations.py:30-35 `_get_gender_case_tags` -/
def genderCaseTags (cls : TagCls) (pattern : Str → Str → Str) : Except PyErr (List Tag) :=
  mapE cls.mkTag (GENDERS2.flatMap fun g => CASES6.map fun c => pattern g c)

/-- A list comprehension filter whose condition may raise. -/
def filterE {α : Type} (f : α → Except PyErr Bool) : List α → Except PyErr (List α)
  | [] => .ok []
  | a :: as => do
    let b ← f a
    let r ← filterE f as
    pure (if b then a :: r else r)

/-- List equality of tag lists as Python sees it. -/
def tagsEq (a b : List Tag) : Bool := a.map Tag.tuple == b.map Tag.tuple

/-- `unit.clone(); unit.init(morph)` for the unit at position `id`: the tag class it leaves and the bound unit.
analyzer.py:245-248; by_shape.py:20-24, 58-64, 107-112; abbreviations.py:22-28, 54-62, 83-85; by_hyphen.py:104-106,
164-169; by_analogy.py:56-58, 115-118, 174-180; unkn.py:12-15. -/
def UnitSpec.bind {S : Type} (sp : UnitSpec S) (id : Nat) (cls : TagCls) : Except PyErr (TagCls × BUnit S) :=
  match sp with
  | .dictionary => .ok (cls, ⟨id, .dictionary⟩)
  | .firstName letters pattern score => do
    let cls := (cls.addKnown (c!"Init") (c!"иниц") false).addKnown (c!"Name") (c!"имя") false
    let tags ← genderCaseTags cls pattern
    let masc ← filterE (fun t => cls.contains t (c!"masc")) tags
    let femn ← filterE (fun t => cls.contains t (c!"femn")) tags
    if tagsEq (masc ++ femn) tags then pure (cls, ⟨id, .firstName letters masc femn score⟩)
    else .error .assertionError
  | .patronymic letters pattern score => do
    let cls := (cls.addKnown (c!"Init") (c!"иниц") false).addKnown (c!"Patr") (c!"отч") false
    let tags ← genderCaseTags cls pattern
    pure (cls, ⟨id, .patronymic letters tags score⟩)
  | .number score => do
    let cls := ((cls.addKnown (c!"NUMB") (c!"ЧИСЛО")).addKnown (c!"intg") (c!"цел")).addKnown (c!"real") (c!"вещ")
    let ti ← cls.mkTag (c!"NUMB,intg")
    let tr ← cls.mkTag (c!"NUMB,real")
    pure (cls, ⟨id, .number ti tr score⟩)
  | .punct score => do
    let cls := cls.addKnown (c!"PNCT") (c!"ЗПР")
    let t ← cls.mkTag (c!"PNCT")
    pure (cls, ⟨id, .punct t score⟩)
  | .latin score => do
    let cls := cls.addKnown (c!"LATN") (c!"ЛАТ")
    let t ← cls.mkTag (c!"LATN")
    pure (cls, ⟨id, .latin t score⟩)
  | .roman score => do
    let cls := cls.addKnown (c!"ROMN") (c!"РИМ")
    let t ← cls.mkTag (c!"ROMN")
    pure (cls, ⟨id, .roman t score⟩)
  | .particle ps mult => .ok (cls, ⟨id, .particle ps mult⟩)
  | .adverb mult => do
    let t ← cls.mkTag (c!"ADVB")
    pure (cls, ⟨id, .adverb t mult⟩)
  | .hyphenated skip mult => .ok (cls, ⟨id, .hyphenated skip mult⟩)
  | .knownPrefix ps mult k => .ok (cls, ⟨id, .knownPrefix ps mult k⟩)
  | .unknownPrefix mult => .ok (cls, ⟨id, .unknownPrefix mult⟩)
  | .knownSuffix mult k => .ok (cls, ⟨id, .knownSuffix mult k⟩)
  | .unkn => do
    let cls := cls.addKnown (c!"UNKN") (c!"НЕИЗВ")
    let t ← cls.mkTag (c!"UNKN")
    pure (cls, ⟨id, .unkn t⟩)

/-- analyzer.py:232-238: an item of the `units` argument is a unit or a list of units; units with flags.
An empty list raises `IndexError` (`item[-1]`).  Simplification: the model flattens all items before it binds the first unit, so when `units` has an empty
item and a unit before it cannot be bound either, the model raises `IndexError` and the source the error of that unit; every call that raises in one raises in
the other. -/
def flattenItem {S : Type} (item : List (UnitSpec S)) : Except PyErr (List (UnitSpec S × Bool)) :=
  match item.getLast? with
  | none => .error .indexError
  | some last => .ok (item.dropLast.map (·, false) ++ [(last, true)])

/-- analyzer.py:226-238 `_init_units`: a single unit is written as a one-element list. -/
def bindUnits {S : Type} : List (UnitSpec S × Bool) → Nat → TagCls → Except PyErr (TagCls × List (BUnit S × Bool))
  | [], _, cls => .ok (cls, [])
  | (sp, t) :: sps, id, cls => do
    let r ← sp.bind id cls
    let rest ← bindUnits sps (id + 1) r.1
    pure (rest.1, (r.2, t) :: rest.2)

def initUnits {S : Type} (items : List (List (UnitSpec S))) (cls : TagCls) :
    Except PyErr (TagCls × List (BUnit S × Bool)) := do
  let flat ← mapE flattenItem items
  bindUnits flat.flatten 0 cls

variable {S : Type} [Score S]

/-- A decimal fraction `n / 10^k` written as a quotient (correctly rounded for IEEE doubles). -/
def dec (n d : Nat) : S := Score.div (Score.ofNat n) (Score.ofNat d)

/-- lang/ru/config.py:169-192 `DEFAULT_UNITS`, with the default constructor parameters: abbreviations.py:11,
by_shape.py:17, by_hyphen.py:31, 101, 160, by_analogy.py:51, 112, 170. -/
def ruUnits : List (List (UnitSpec S)) :=
  [ [.dictionary,
     .firstName ruInitialLetters firstNamePattern (dec 1 10),
     .patronymic ruInitialLetters patronymicPattern (dec 1 10)],
    [.number (dec 9 10)],
    [.punct (dec 9 10)],
    [.roman (dec 9 10), .latin (dec 9 10)],
    [.particle ruParticles (dec 9 10)],
    [.adverb (dec 7 10)],
    [.hyphenated ruKnownPrefixes (dec 75 100)],
    [.knownPrefix ruKnownPrefixes (dec 75 100) 3],
    [.unknownPrefix (dec 5 10), .knownSuffix (dec 5 10) 4],
    [.unkn] ]

/-- lang/uk/config.py:22-44 `DEFAULT_UNITS` -/
def ukUnits : List (List (UnitSpec S)) :=
  [ [.dictionary,
     .firstName ukInitialLetters firstNamePattern (dec 1 10),
     .patronymic ukInitialLetters patronymicPattern (dec 1 10),
     .roman (dec 9 10), .latin (dec 9 10)],
    [.number (dec 9 10)],
    [.punct (dec 9 10)],
    [.particle ukParticles (dec 9 10)],
    [.hyphenated ukKnownPrefixes (dec 75 100)],
    [.knownPrefix ukKnownPrefixes (dec 75 100) 3],
    [.unknownPrefix (dec 5 10), .knownSuffix (dec 5 10) 4],
    [.unkn] ]

/-- The constructor of `MorphAnalyzer` (analyzer.py:202-224) once the dictionary is loaded: the units are bound
(which updates the tag class). -/
def mkMorph (env : Env) (dict : Dict) (cls : TagCls) (sub : Subst) (items : List (List (UnitSpec S)))
    (est : Option (List (Str × Nat))) : Except PyErr (Morph S) := do
  let r ← initUnits items cls
  pure ⟨env, dict, r.1, sub, r.2, est⟩

end Verif
