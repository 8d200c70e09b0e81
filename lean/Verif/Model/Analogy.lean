/-
Analogy units written by the user, as far as lexemes, normalization and inflection are concerned:
/repo/pymorphy2/units/base.py:81-128, /repo/pymorphy2/analyzer.py:34-61, 359-385.

Simplifications: the methods such units leave on top of a methods stack are kept apart, in the list `layers` (outermost first), and
what is below them — a methods stack of the library's own units — in the `stack` field; the coroutines see and return forms whose
`stack` is that lower part.  They are functions (no state of their own).
-/
import Verif.Model.Inflect

namespace Verif

/-- A unit derived from `AnalogyAnalizerUnit` (base.py:81-128) together with the method tuple it left: the coroutines `normalizer` and
`lexemizer` first yield the undecorated form, then are sent its normal form or lexeme, then yield the result. -/
structure Analogy (S : Type) where
  normalizer : Parse S → Except PyErr (Parse S × (Parse S → Except PyErr (Parse S)))
  lexemizer : Parse S → Except PyErr (Parse S × (List (Parse S) → Except PyErr (List (Parse S))))

/-- The coroutines which `AnalogyAnalizerUnit` defines: base.py:104-122. -/
def Analogy.inherited {S : Type} : Analogy S where
  normalizer f := .ok (f, fun n => .ok n)
  lexemizer f := .ok (f, fun fs => .ok fs)

/-- Coroutines written the way the library's own are (by_analogy.py:31-39, by_hyphen.py:84-92): `yield undo(form)`, then
`redo` for the normal form, `[redo(f) for f in lexeme]` for the lexeme. -/
def Analogy.wrapping {S : Type} (undo redo : Parse S → Parse S) : Analogy S where
  normalizer f := .ok (undo f, fun n => .ok (redo n))
  lexemizer f := .ok (undo f, fun fs => .ok (fs.map redo))

/-- A form with the methods of such units on top of its methods stack, the last one first. -/
structure LForm (S : Type) where
  form : Parse S
  layers : List (Analogy S)

variable {S : Type} [Score S]

/-- base.py:94-102 `_get_lexeme`, for each of the layers: `next(lexemizer)`, the lexeme according to the method below, `send`. -/
def layeredLexeme (m : Morph S) : List (Analogy S) → Parse S → Except PyErr (List (Parse S))
  | [], p => m.lexeme p
  | a :: as, p => do
    let r ← a.lexemizer p
    let fs ← layeredLexeme m as r.1
    r.2 fs

/-- base.py:83-92 `_normalized` -/
def layeredNormalized (m : Morph S) : List (Analogy S) → Parse S → Except PyErr (Parse S)
  | [], p => m.normalized p
  | a :: as, p => do
    let r ← a.normalizer p
    let f ← layeredNormalized m as r.1
    r.2 f

/-- analyzer.py:44-47, 359-369 `parse.lexeme`; each layer appends its method to each of the forms (base.py:102). -/
def Morph.lexemeL (m : Morph S) (p : LForm S) : Except PyErr (List (LForm S)) := do
  let fs ← layeredLexeme m p.layers p.form
  pure (fs.map fun f => ⟨f, p.layers⟩)

/-- analyzer.py:57-61 `parse.normalized`; each layer appends its method (base.py:92). -/
def Morph.normalizedL (m : Morph S) (p : LForm S) : Except PyErr (LForm S) := do
  let f ← layeredNormalized m p.layers p.form
  pure ⟨f, p.layers⟩

/-- analyzer.py:34-36, 371-385 `parse.inflect(required_grammemes)` -/
def Morph.inflectL (m : Morph S) (sim : Sim) (p : LForm S) (req : List Str) : Except PyErr (Option (LForm S)) := do
  let fs ← m.lexemeL p
  let poss := fs.filter fun f => decide (req.toFinset ⊆ f.form.tag.grammemes)
  match poss with
  | [] => do
    let req' := req.map fixRare1
    let poss' := fs.filter fun f => decide (req'.toFinset ⊆ f.form.tag.grammemes)
    let g ← updatedGrammemes m.cls p.form.tag req'
    pure (nlargest1 sim (fun f => similarity sim g f.form.tag) poss')
  | _ :: _ => do
    let g ← updatedGrammemes m.cls p.form.tag req
    pure (nlargest1 sim (fun f => similarity sim g f.form.tag) poss)

end Verif
