/-
Model of result objects: the class `Parse`, the classes that analyzers derive from `result_type`, and the methods of results
(/repo/pymorphy2/analyzer.py:17-61, 210-222, 323-326, 359-385, 397-403, 442-444).  The other modules work with the five fields of a result
(`Parse`); here a result is a tuple or an instance of a class, classes are objects, and there may be any number of analyzers.
SIMPLIFICATIONS: classes have one base and define nothing but `_morph` and `_dict`; a result type is `Parse` or derived from it (in the code it may be
any class).  Nested calls of `parse` in units unpack the results at once, so whether those are wrapped is not modelled.
-/
import Verif.Model.Inflect

namespace Verif

/-- A class object.  `none`: the class does not define the attribute itself; `some none`: it defines it as `None`. -/
structure PyCls where
  name : Str
  /-- `__mro__`: the addresses of the class itself, its base, the base of that, … (without `tuple` and `object`) -/
  mro : List Nat
  /-- `_morph` in the `__dict__` of the class -/
  morph : Option (Option Nat)
  /-- `_dict` in the `__dict__` of the class: the dictionary of an analyzer -/
  dict : Option (Option Nat)
  deriving DecidableEq

/-- An analyzer object: how it analyzes, `_result_type` and `_result_type_orig`. -/
structure MorphObj (S : Type) where
  morph : Morph S
  resultType : Option Nat
  resultTypeOrig : Option Nat

/-- The classes and analyzers of a process; an address is a position. -/
structure Process (S : Type) where
  classes : List PyCls
  morphs : List (MorphObj S)

/-- A result: its fields, its class (`none`: a plain tuple), and the analyzer to which the units in its methods stack are bound
(analyzer.py:245-248; the units of an analyzer belong to it alone, C69). -/
structure Result (S : Type) where
  fields : Parse S
  cls : Option Nat
  owner : Nat

/-- analyzer.py:23-32: the class `Parse`, at address 0. -/
def parseClass : PyCls := ⟨c!"Parse", [0], some none, some none⟩

variable {S : Type} [Score S]

/-- A process that has just imported the library. -/
def Process.start : Process S := ⟨[parseClass], []⟩

/-- `class name(base): pass`, a class written by the user. -/
def Process.subclass (w : Process S) (name : Str) (base : Nat) : Process S :=
  match w.classes[base]? with
  | some b => { w with classes := w.classes ++ [⟨name, w.classes.length :: b.mro, none, none⟩] }
  | none => w

/-- analyzer.py:210-222: the part of `MorphAnalyzer.__init__` about the result type; `m` is what the rest of it makes. -/
def Process.new (w : Process S) (m : Morph S) (resultType : Option Nat) : Process S :=
  match resultType with
  | some rt =>
    match w.classes[rt]? with
    | some b =>
      let self := w.morphs.length
      ⟨w.classes ++ [⟨b.name, w.classes.length :: b.mro, some (some self), some (some self)⟩],
        w.morphs ++ [⟨m, some w.classes.length, some rt⟩]⟩
    | none => w
  | none => { w with morphs := w.morphs ++ [⟨m, none, none⟩] }

/-- analyzer.py:442-444: unpickling a pickled analyzer; `m` is what the rest of `__init__` makes this time (C48). -/
def Process.copy (w : Process S) (a : Nat) (m : Morph S) : Process S :=
  match w.morphs[a]? with
  | some x => w.new m x.resultTypeOrig
  | none => w

/-- Look an attribute of a class up: the first class of its `__mro__` that defines it. -/
def Process.getAttr {A : Type} (w : Process S) (attr : PyCls → Option A) (c : Nat) : Option A :=
  match w.classes[c]? with
  | some k => k.mro.findSome? fun i => (w.classes[i]?).bind attr
  | none => none

/-- The object at an address (addresses in a process are always valid). -/
def Process.obj (w : Process S) (a : Nat) : Except PyErr (MorphObj S) := pyGet w.morphs a

/-- analyzer.py:323-326, 367-369, 400-403: `self._result_type(*p)`, or `p` itself. -/
def MorphObj.wrap (x : MorphObj S) (r : Result S) : Result S :=
  match x.resultType with
  | some c => { r with cls := some c }
  | none => r

/-- analyzer.py:301-326 `parse` -/
def Process.parse (w : Process S) (a : Nat) (word : Str) : Except PyErr (List (Result S)) := do
  let x ← w.obj a
  let ps ← x.morph.parse word
  pure (ps.map fun p => x.wrap ⟨p, none, a⟩)

/-- analyzer.py:389-403 `iter_known_word_parses` -/
def Process.iterKnown (w : Process S) (a : Nat) (pre : Str) : Except PyErr (List (Result S)) := do
  let x ← w.obj a
  let ps ← x.morph.iterKnownWordParses pre
  pure (ps.map fun p => x.wrap ⟨p, none, a⟩)

/-- Units whose `get_lexeme` and `normalized` return the form they are given, the same object: by_shape.py:40-44, by_hyphen.py:134-138, unkn.py:29-33. -/
def Stack.returnsForm : Stack → Bool
  | .push _ (.simple u _) => match u.kind with
    | .shape | .adverb | .unkn => true
    | _ => false
  | _ => false

/-- analyzer.py:363-365 `methods_stack[-1][0].get_lexeme(form)`: the unit works with the dictionary of its own analyzer and makes plain tuples,
except that some units return the form itself. -/
def Process.unitLexeme (w : Process S) (r : Result S) : Except PyErr (List (Result S)) :=
  if r.fields.stack.returnsForm then .ok [r] else do
    let o ← w.obj r.owner
    let fs ← o.morph.lexeme r.fields
    pure (fs.map fun f => ⟨f, none, r.owner⟩)

/-- analyzer.py:359-369 `get_lexeme` -/
def Process.getLexeme (w : Process S) (a : Nat) (r : Result S) : Except PyErr (List (Result S)) := do
  let x ← w.obj a
  let fs ← w.unitLexeme r
  pure (fs.map x.wrap)

/-- analyzer.py:371-385 `_inflect`, its first result or `None` (analyzer.py:36); `req` enumerates the required set.  `updated_grammemes` is a method of
the tag of the form, whose class is that of the analyzer that made it. -/
def Process.inflect_ (w : Process S) (sim : Sim) (a : Nat) (r : Result S) (req : List Str) : Except PyErr (Option (Result S)) := do
  let fs ← w.getLexeme a r
  let poss := fs.filter fun f => decide (req.toFinset ⊆ f.fields.tag.grammemes)
  if poss.isEmpty then do
    let req' := req.map fixRare1
    let fs' ← w.getLexeme a r
    let poss' := fs'.filter fun f => decide (req'.toFinset ⊆ f.fields.tag.grammemes)
    let o ← w.obj r.owner
    let g ← updatedGrammemes o.morph.cls r.fields.tag req'
    pure (nlargest1 sim (fun f => similarity sim g f.fields.tag) poss')
  else do
    let o ← w.obj r.owner
    let g ← updatedGrammemes o.morph.cls r.fields.tag req
    pure (nlargest1 sim (fun f => similarity sim g f.fields.tag) poss)

/-- `self._morph` (a plain tuple has no such attribute, and `None` has none of the attributes that are then asked of it). -/
def Process.boundMorph (w : Process S) (r : Result S) : Except PyErr Nat :=
  match r.cls.bind (w.getAttr PyCls.morph) with
  | some (some a) => .ok a
  | _ => .error .attributeError

/-- `self._dict` -/
def Process.boundDict (w : Process S) (r : Result S) : Except PyErr Nat :=
  match r.cls.bind (w.getAttr PyCls.dict) with
  | some (some a) => .ok a
  | _ => .error .attributeError

/-- analyzer.py:34-36 `Parse.inflect` -/
def Process.inflect (w : Process S) (sim : Sim) (r : Result S) (req : List Str) : Except PyErr (Option (Result S)) := do
  let a ← w.boundMorph r
  w.inflect_ sim a r req

/-- analyzer.py:38-42 `Parse.make_agree_with_number` (a required set with `None` in it: see `Morph.makeAgree`). -/
def Process.makeAgree (w : Process S) (sim : Sim) (pick : Grams → Option Str) (r : Result S) (num : Int) : Except PyErr (Option (Result S)) := do
  let a ← w.boundMorph r
  match allSome (numeralAgreement pick r.fields.tag num) with
  | some req => w.inflect_ sim a r req
  | none => do
    let _ ← w.getLexeme a r
    let o ← w.obj r.owner
    o.morph.cls.assertInit
    .error .valueError

/-- analyzer.py:44-47 `Parse.lexeme` -/
def Process.lexeme (w : Process S) (r : Result S) : Except PyErr (List (Result S)) := do
  let a ← w.boundMorph r
  w.getLexeme a r

/-- analyzer.py:49-55 `Parse.is_known`: the words of `_dict`, the substitutes of `_morph`. -/
def Process.isKnown (w : Process S) (r : Result S) : Except PyErr Bool := do
  let d ← w.boundDict r
  let a ← w.boundMorph r
  let y ← w.obj d
  let x ← w.obj a
  pure (y.morph.dict.wordIsKnown r.fields.word (some x.morph.sub))

/-- analyzer.py:57-61 `Parse.normalized`: made with the class of the result itself; `_morph` is not used. -/
def Process.normalized (w : Process S) (r : Result S) : Except PyErr (Result S) :=
  match r.cls with
  | none => .error .attributeError
  | some c => do
    let o ← w.obj r.owner
    let p ← o.morph.normalized r.fields
    pure ⟨p, some c, r.owner⟩

/-- `r == r'`: tuples compare by their members, the class plays no part; units compare by identity, so methods stacks with a unit in them are equal
only if the units are those of the same analyzer; tags compare by their grammemes, in the order of the string (tagset.py:358-359). -/
def Result.pyEq (r r' : Result S) : Prop :=
  r.fields.word = r'.fields.word ∧ r.fields.tag.tuple = r'.fields.tag.tuple ∧ r.fields.nf = r'.fields.nf ∧ r.fields.score = r'.fields.score ∧
  r.fields.stack = r'.fields.stack ∧ (r.fields.stack = .nil ∨ r.owner = r'.owner)

end Verif
