/-
Model of unit objects: their classes' `__init__` methods, `clone`, `_get_params`, `__repr__` (/repo/pymorphy2/units/base.py), their `init` methods,
and analyzers that share them (/repo/pymorphy2/analyzer.py:226-248).  Here units are objects with attributes in a heap, as in Python; the other
modules work with parameter values (`UnitSpec`, `UnitCfg`).  `Props/C69` relates the two.
-/
import Verif.Model.Config

namespace Verif

/-- The unit classes. -/
inductive UClass
  /-- by_lookup.py:14 -/
  | dictionary
  /-- by_analogy.py:166 `KnownSuffixAnalyzer.FakeDictionary`, a subclass of `DictionaryAnalyzer` -/
  | fakeDictionary
  /-- abbreviations.py:51, 80 -/
  | firstName | patronymic
  /-- by_shape.py:70-137 -/
  | number | punct | latin | roman
  /-- by_hyphen.py:17, 95, 141 -/
  | particle | adverb | hyphenated
  /-- by_analogy.py:42, 104, 158 -/
  | knownPrefix | unknownPrefix | knownSuffix
  /-- unkn.py:7 -/
  | unkn
  deriving DecidableEq

/-- Python values that occur as arguments and attributes of units. -/
inductive Val (S : Type)
  | none
  /-- a reference to a list of strings (a string of letters is the list of its letters) -/
  | strs (addr : Nat)
  | score (x : S)
  | nat (n : Nat)
  /-- `tag_pattern % {'gender': …, 'case': …}` as a function -/
  | pattern (p : Str → Str → Str)
  /-- something made from a list of strings that does not change any more: a `set`, a `PrefixMatcher` -/
  | frozen (l : List Str)
  | tag (t : Tag)
  | tags (l : List Tag)
  /-- a reference to a unit -/
  | unit (addr : Nat)
  /-- a reference to an analyzer, or to its dictionary -/
  | morph (addr : Nat)

/-- A unit object: its class and its `__dict__`. -/
structure Obj (S : Type) where
  cls : UClass
  attrs : List (Str × Val S)

/-- The objects of a process; an address is a position. -/
structure Heap (S : Type) where
  /-- lists of strings -/
  lists : List (List Str) := []
  units : List (Obj S) := []
  /-- analyzers, represented by their `_units` (analyzer.py:231) -/
  morphs : List (List (Nat × Bool)) := []

/-- `getattr(self, key, None)` (base.py:76; no class attribute is called like a parameter). -/
def Obj.get {S : Type} (o : Obj S) (k : Str) : Val S := (dictGet k o.attrs).getD .none

/-- `self.key = value` -/
def Obj.set {S : Type} (o : Obj S) (k : Str) (v : Val S) : Obj S := { o with attrs := dictSet k v o.attrs }

variable {S : Type} [Score S]

/-- The parameters of `__init__` and their defaults: abbreviations.py:11, by_shape.py:17, by_hyphen.py:31, 101, 160, by_analogy.py:51, 112, 170;
classes without `__init__` have none (base.py:68-69).  The order is alphabetical (base.py:71). -/
def UClass.params : UClass → List (Str × Option (Val S))
  | .dictionary | .fakeDictionary | .unkn => []
  | .firstName | .patronymic => [(c!"letters", none), (c!"score", some (.score (dec 1 10))), (c!"tag_pattern", some .none)]
  | .number | .punct | .latin | .roman => [(c!"score", some (.score (dec 9 10)))]
  | .particle => [(c!"particles_after_hyphen", none), (c!"score_multiplier", some (.score (dec 9 10)))]
  | .adverb => [(c!"score_multiplier", some (.score (dec 7 10)))]
  | .hyphenated => [(c!"score_multiplier", some (.score (dec 75 100))), (c!"skip_prefixes", none)]
  | .knownPrefix =>
    [(c!"known_prefixes", none), (c!"min_remainder_length", some (.nat 3)), (c!"score_multiplier", some (.score (dec 75 100)))]
  | .unknownPrefix => [(c!"score_multiplier", some (.score (dec 5 10)))]
  | .knownSuffix => [(c!"min_word_length", some (.nat 4)), (c!"score_multiplier", some (.score (dec 5 10)))]

/-- abbreviations.py:52, 81: the class attribute `TAG_PATTERN`. -/
def UClass.tagPattern : UClass → Option (Str → Str → Str)
  | .firstName => some firstNamePattern
  | .patronymic => some patronymicPattern
  | _ => none

/-- A call with keyword arguments: unknown names and missing arguments raise `TypeError`; other parameters have their defaults. -/
def bindArgs (ps : List (Str × Option (Val S))) (kwargs : List (Str × Val S)) : Except PyErr (List (Str × Val S)) :=
  if kwargs.all fun e => decide (e.1 ∈ ps.map Prod.fst) then
    mapE (fun p : Str × Option (Val S) => match dictGet p.1 kwargs with
      | some v => .ok (p.1, v)
      | none => match p.2 with
        | some v => .ok (p.1, v)
        | none => .error .typeError) ps
  else .error .typeError

/-- The value of a local variable. -/
def arg (args : List (Str × Val S)) (k : Str) : Val S := (dictGet k args).getD .none

/-- `list(x)`, `set(x)`, `PrefixMatcher(x)`: what is iterated. -/
def iterated (lists : List (List Str)) : Val S → Except PyErr (List Str)
  | .strs a => pyGet lists a
  | _ => .error .typeError

/-- abbreviations.py:12-16: the default tag pattern. -/
def patternArg (c : UClass) : Val S → Except PyErr (Val S)
  | .none => match c.tagPattern with
    | some p => .ok (.pattern p)
    | none => .error .valueError
  | v => .ok v

/-- The bodies of the `__init__` methods: abbreviations.py:11-20, by_shape.py:17-18, by_hyphen.py:31-36, 101-102, 160-162, by_analogy.py:51-54,
112-113, 170-172. -/
def runInit (lists : List (List Str)) (c : UClass) (a : List (Str × Val S)) : Except PyErr (Obj S) :=
  let o : Obj S := ⟨c, []⟩
  match c with
  | .dictionary | .fakeDictionary | .unkn => .ok o
  | .firstName | .patronymic => do
    let p ← patternArg c (arg a (c!"tag_pattern"))
    let ls ← iterated lists (arg a (c!"letters"))
    pure ((((o.set (c!"tag_pattern") p).set (c!"score") (arg a (c!"score"))).set (c!"letters") (arg a (c!"letters"))).set (c!"_letters_set") (.frozen ls))
  | .number | .punct | .latin | .roman => .ok (o.set (c!"score") (arg a (c!"score")))
  | .particle => .ok ((o.set (c!"score_multiplier") (arg a (c!"score_multiplier"))).set (c!"particles_after_hyphen") (arg a (c!"particles_after_hyphen")))
  | .adverb => .ok (o.set (c!"score_multiplier") (arg a (c!"score_multiplier")))
  | .hyphenated => .ok ((o.set (c!"score_multiplier") (arg a (c!"score_multiplier"))).set (c!"skip_prefixes") (arg a (c!"skip_prefixes")))
  | .knownPrefix => .ok (((o.set (c!"known_prefixes") (arg a (c!"known_prefixes"))).set (c!"score_multiplier") (arg a (c!"score_multiplier"))).set
      (c!"min_remainder_length") (arg a (c!"min_remainder_length")))
  | .unknownPrefix => .ok (o.set (c!"score_multiplier") (arg a (c!"score_multiplier")))
  | .knownSuffix => .ok ((o.set (c!"min_word_length") (arg a (c!"min_word_length"))).set (c!"score_multiplier") (arg a (c!"score_multiplier")))

/-- `Class(**kwargs)` -/
def UClass.new (lists : List (List Str)) (c : UClass) (kwargs : List (Str × Val S)) : Except PyErr (Obj S) := do
  let a ← bindArgs c.params kwargs
  runInit lists c a

/-- base.py:73-77 `_get_params` -/
def Obj.getParams (o : Obj S) : List (Str × Val S) := (o.cls.params (S := S)).map fun p => (p.1, o.get p.1)

/-- base.py:34-35 `clone` -/
def Obj.clone (lists : List (List Str)) (o : Obj S) : Except PyErr (Obj S) := o.cls.new lists o.getParams

/-- base.py:30-32 `BaseAnalyzerUnit.init` -/
def Obj.initBase (o : Obj S) (m : Nat) : Obj S := (o.set (c!"morph") (.morph m)).set (c!"dict") (.morph m)

/-- The tag pattern as it is used in `pattern % {…}`. -/
def asPattern : Val S → Except PyErr (Str → Str → Str)
  | .pattern p => .ok p
  | _ => .error .typeError

/-- by_shape.py:58-64 `_SingleShapeAnalyzer.init` -/
def initShape (o : Obj S) (m : Nat) (cls : TagCls) (lat cyr : Str) : Except PyErr (TagCls × Obj S) := do
  let cls := cls.addKnown lat cyr
  let t ← cls.mkTag lat
  pure (cls, (o.initBase m).set (c!"_tag") (.tag t))

/-- `unit.init(morph)` for a unit of the analyzer at address `m`; `inner` is the address of the unit's private dictionary unit, if it makes one.
abbreviations.py:22-28, 54-62, 83-85; by_shape.py:20-24, 58-64, 107-112; by_hyphen.py:104-106, 164-169; by_analogy.py:56-58, 115-118, 174-180;
unkn.py:12-15.  (`_tags` of a number unit is stored as two attributes; attributes computed from the dictionary alone are not stored.) -/
def Obj.init (lists : List (List Str)) (o : Obj S) (m inner : Nat) (cls : TagCls) : Except PyErr (TagCls × Obj S) :=
  match o.cls with
  | .dictionary | .fakeDictionary | .particle => .ok (cls, o.initBase m)
  | .firstName => do
    let cls := (cls.addKnown (c!"Init") (c!"иниц") false).addKnown (c!"Name") (c!"имя") false
    let p ← asPattern (o.get (c!"tag_pattern"))
    let tags ← genderCaseTags cls p
    let masc ← filterE (fun t => cls.contains t (c!"masc")) tags
    let femn ← filterE (fun t => cls.contains t (c!"femn")) tags
    if tagsEq (masc ++ femn) tags then
      pure (cls, (((o.initBase m).set (c!"_tags") (.tags tags)).set (c!"_tags_masc") (.tags masc)).set (c!"_tags_femn") (.tags femn))
    else .error .assertionError
  | .patronymic => do
    let cls := (cls.addKnown (c!"Init") (c!"иниц") false).addKnown (c!"Patr") (c!"отч") false
    let p ← asPattern (o.get (c!"tag_pattern"))
    let tags ← genderCaseTags cls p
    pure (cls, (o.initBase m).set (c!"_tags") (.tags tags))
  | .number => do
    let cls := ((cls.addKnown (c!"NUMB") (c!"ЧИСЛО")).addKnown (c!"intg") (c!"цел")).addKnown (c!"real") (c!"вещ")
    let ti ← cls.mkTag (c!"NUMB,intg")
    let tr ← cls.mkTag (c!"NUMB,real")
    pure (cls, ((o.initBase m).set (c!"_tags[intg]") (.tag ti)).set (c!"_tags[real]") (.tag tr))
  | .punct => initShape o m cls (c!"PNCT") (c!"ЗПР")
  | .latin => initShape o m cls (c!"LATN") (c!"ЛАТ")
  | .roman => initShape o m cls (c!"ROMN") (c!"РИМ")
  | .adverb => do
    let t ← cls.mkTag (c!"ADVB")
    pure (cls, (o.initBase m).set (c!"_tag") (.tag t))
  | .hyphenated => do
    let l ← iterated lists (o.get (c!"skip_prefixes"))
    pure (cls, (o.initBase m).set (c!"_has_skip_prefix") (.frozen l))
  | .knownPrefix => do
    let l ← iterated lists (o.get (c!"known_prefixes"))
    pure (cls, (o.initBase m).set (c!"get_prefixes") (.frozen l))
  | .unknownPrefix => .ok (cls, (o.initBase m).set (c!"dict_analyzer") (.unit inner))
  | .knownSuffix => .ok (cls, (o.initBase m).set (c!"fake_dict") (.unit inner))
  | .unkn => do
    let cls := cls.addKnown (c!"UNKN") (c!"НЕИЗВ")
    let t ← cls.mkTag (c!"UNKN")
    pure (cls, (o.initBase m).set (c!"_tag") (.tag t))

/-- by_analogy.py:117, 179: the private dictionary units. -/
def UClass.inner : UClass → Option UClass
  | .unknownPrefix => some .dictionary
  | .knownSuffix => some .fakeDictionary
  | _ => none

/-- The private dictionary unit of a unit, already initialised (by_analogy.py:117-118, 179-180). -/
def innerObjs (S : Type) (c : UClass) (m : Nat) : List (Obj S) :=
  match c.inner with
  | some k => [(⟨k, []⟩ : Obj S).initBase m]
  | none => []

/-- analyzer.py:245-248 `_bound_unit` for the unit at address `u`: the clone gets the next free address. -/
def boundUnit (lists : List (List Str)) (m : Nat) (us : List (Obj S)) (u : Nat) (cls : TagCls) : Except PyErr (TagCls × List (Obj S)) := do
  let o ← pyGet us u
  let k ← o.clone lists
  let r ← k.init lists m (us.length + 1) cls
  pure (r.1, us ++ r.2 :: innerObjs S k.cls m)

/-- analyzer.py:232-238: the loop of `_init_units` over the units with their flags. -/
def bindObjs (lists : List (List Str)) (m : Nat) : List (Nat × Bool) → List (Obj S) → TagCls →
    Except PyErr (TagCls × List (Obj S) × List (Nat × Bool))
  | [], us, cls => .ok (cls, us, [])
  | (u, t) :: rest, us, cls => do
    let r ← boundUnit lists m us u cls
    let q ← bindObjs lists m rest r.2 r.1
    pure (q.1, q.2.1, (us.length, t) :: q.2.2)

/-- analyzer.py:232-238: an item is a unit or a list of units (a single unit is written as a one-element list); as in `flattenItem`, all
items are looked at before the first unit is bound. -/
def flattenRefs (item : List Nat) : Except PyErr (List (Nat × Bool)) :=
  match item.getLast? with
  | none => .error .indexError
  | some last => .ok (item.dropLast.map (·, false) ++ [(last, true)])

/-- analyzer.py:226-238: a new analyzer with the given unit objects.  (What a failing constructor leaves behind is garbage and not modelled, except
for the tag class, see C51.) -/
def Heap.newMorph (h : Heap S) (items : List (List Nat)) (cls : TagCls) : Except PyErr (TagCls × Heap S) := do
  let flat ← mapE flattenRefs items
  let r ← bindObjs h.lists h.morphs.length flat.flatten h.units cls
  pure (r.1, { h with units := r.2.1, morphs := h.morphs ++ [r.2.2] })

/-- What a program can do with lists, units and analyzers.  (Writing to attributes of units is not modelled.) -/
inductive Action (S : Type)
  /-- make a list -/
  | list (l : List Str)
  /-- change the contents of the list at address `a` -/
  | change (a : Nat) (l : List Str)
  /-- construct a unit -/
  | unit (c : UClass) (kwargs : List (Str × Val S))
  /-- construct an analyzer; `cls` is the state its tag class is in then -/
  | morph (items : List (List Nat)) (cls : TagCls)

/-- One action; one that raises changes nothing. -/
def Heap.step (h : Heap S) : Action S → Except PyErr (Heap S)
  | .list l => .ok { h with lists := h.lists ++ [l] }
  | .change a l => .ok { h with lists := h.lists.set a l }
  | .unit c kwargs => do
    let o ← c.new h.lists kwargs
    pure { h with units := h.units ++ [o] }
  | .morph items cls => do
    let r ← h.newMorph items cls
    pure r.2

/-- What the `parse` and `tag` methods of a unit that is bound to an analyzer read from its attributes: abbreviations.py:37-48, 64-77, 87-97;
by_shape.py:26-37, 66-67, 125-126; by_hyphen.py:38-75, 108-137, 171-…; by_analogy.py:60-101, 120-…, 190-…; unkn.py:17-28.  A list of particles is
read from the list the unit was given (by_hyphen.py:72-75); the others were copied by `__init__` or `init`. -/
def Obj.reads (lists : List (List Str)) (o : Obj S) : Option (UnitCfg S) :=
  match o.cls with
  | .dictionary | .fakeDictionary => some .dictionary
  | .firstName => match o.get (c!"_letters_set"), o.get (c!"_tags_masc"), o.get (c!"_tags_femn"), o.get (c!"score") with
    | .frozen l, .tags m, .tags f, .score s => some (.firstName l m f s)
    | _, _, _, _ => none
  | .patronymic => match o.get (c!"_letters_set"), o.get (c!"_tags"), o.get (c!"score") with
    | .frozen l, .tags t, .score s => some (.patronymic l t s)
    | _, _, _ => none
  | .number => match o.get (c!"_tags[intg]"), o.get (c!"_tags[real]"), o.get (c!"score") with
    | .tag ti, .tag tr, .score s => some (.number ti tr s)
    | _, _, _ => none
  | .punct => match o.get (c!"_tag"), o.get (c!"score") with
    | .tag t, .score s => some (.punct t s)
    | _, _ => none
  | .latin => match o.get (c!"_tag"), o.get (c!"score") with
    | .tag t, .score s => some (.latin t s)
    | _, _ => none
  | .roman => match o.get (c!"_tag"), o.get (c!"score") with
    | .tag t, .score s => some (.roman t s)
    | _, _ => none
  | .particle => match o.get (c!"particles_after_hyphen"), o.get (c!"score_multiplier") with
    | .strs a, .score s => (lists[a]?).map fun l => .particle l s
    | _, _ => none
  | .adverb => match o.get (c!"_tag"), o.get (c!"score_multiplier") with
    | .tag t, .score s => some (.adverb t s)
    | _, _ => none
  | .hyphenated => match o.get (c!"_has_skip_prefix"), o.get (c!"score_multiplier") with
    | .frozen l, .score s => some (.hyphenated l s)
    | _, _ => none
  | .knownPrefix => match o.get (c!"get_prefixes"), o.get (c!"score_multiplier"), o.get (c!"min_remainder_length") with
    | .frozen l, .score s, .nat n => some (.knownPrefix l s n)
    | _, _, _ => none
  | .unknownPrefix => match o.get (c!"dict_analyzer"), o.get (c!"score_multiplier") with
    | .unit _, .score s => some (.unknownPrefix s)
    | _, _ => none
  | .knownSuffix => match o.get (c!"fake_dict"), o.get (c!"score_multiplier"), o.get (c!"min_word_length") with
    | .unit _, .score s, .nat n => some (.knownSuffix s n)
    | _, _, _ => none
  | .unkn => match o.get (c!"_tag") with
    | .tag t => some (.unkn t)
    | _ => none

/-- `Class.__name__` -/
def UClass.name : UClass → Str
  | .dictionary => c!"DictionaryAnalyzer"
  | .fakeDictionary => c!"FakeDictionary"
  | .firstName => c!"AbbreviatedFirstNameAnalyzer"
  | .patronymic => c!"AbbreviatedPatronymicAnalyzer"
  | .number => c!"NumberAnalyzer"
  | .punct => c!"PunctuationAnalyzer"
  | .latin => c!"LatinAnalyzer"
  | .roman => c!"RomanNumberAnalyzer"
  | .particle => c!"HyphenSeparatedParticleAnalyzer"
  | .adverb => c!"HyphenAdverbAnalyzer"
  | .hyphenated => c!"HyphenatedWordsAnalyzer"
  | .knownPrefix => c!"KnownPrefixAnalyzer"
  | .unknownPrefix => c!"UnknownPrefixAnalyzer"
  | .knownSuffix => c!"KnownSuffixAnalyzer"
  | .unkn => c!"UnknAnalyzer"

/-- by_hyphen.py:151, by_analogy.py:49 `_repr_skip_value_params` -/
def UClass.reprSkip : UClass → List Str
  | .hyphenated => [c!"skip_prefixes"]
  | .knownPrefix => [c!"known_prefixes"]
  | _ => []

/-- utils.py:125-139 `kwargs_repr`, for arguments in alphabetical order; `repr` is Python's. -/
def kwargsRepr (repr : Val S → Str) (kwargs : List (Str × Val S)) (skip : List Str) : Str :=
  (c!", ").intercalate (kwargs.map fun e => e.1 ++ c!"=" ++ if e.1 ∈ skip then c!"<...>" else repr e.2)

/-- base.py:55-59 `__repr__` -/
def Obj.repr (repr : Val S → Str) (o : Obj S) : Str := o.cls.name ++ c!"(" ++ kwargsRepr repr o.getParams o.cls.reprSkip ++ c!")"

end Verif
