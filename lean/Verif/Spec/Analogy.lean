/-
Specification vocabulary for analogy units written by the user: a decoration that can be put on and taken off.
-/
import Verif.Model.Analogy
import Verif.Model.Parse

namespace Verif

/-- A way of decorating forms, and of taking the decoration off. -/
structure Wrapper (S : Type) where
  undo : Parse S → Parse S
  redo : Parse S → Parse S

/-- The unit which uses it in its coroutines. -/
def Wrapper.unit {S : Type} (w : Wrapper S) : Analogy S := .wrapping w.undo w.redo

/-- What is put on can be taken off, and neither looks at the score. -/
structure Wrapper.Proper {S : Type} (w : Wrapper S) : Prop where
  back : ∀ f, w.undo (w.redo f) = f
  undo_score : ∀ f s, w.undo { f with score := s } = { w.undo f with score := s }
  redo_score : ∀ f s, w.redo { f with score := s } = { w.redo f with score := s }

/-- The decorated normal form depends on the normal form only. -/
def Wrapper.KeepsNormalForms {S : Type} (w : Wrapper S) : Prop := ∀ f g, f.nf = g.nf → (w.redo f).nf = (w.redo g).nf

/-- A word which is its own normal form still is when decorated. -/
def Wrapper.KeepsNormal {S : Type} (w : Wrapper S) : Prop := ∀ f, f.word = f.nf → (w.redo f).word = (w.redo f).nf

/-- Decorating does not change the tag. -/
def Wrapper.KeepsTags {S : Type} (w : Wrapper S) : Prop := ∀ f, (w.redo f).tag = f.tag

/-- All decorations, the first one of the list outermost. -/
def dress {S : Type} (ws : List (Wrapper S)) (q : Parse S) : Parse S := ws.foldr (fun w f => w.redo f) q

/-- `p` was made from the analysis `q` by decorating it, each unit choosing the score of its result freely. -/
inductive MadeFrom {S : Type} (q : Parse S) : List (Wrapper S) → Parse S → Prop
  | base (s : S) : MadeFrom q [] { q with score := s }
  | layer {ws : List (Wrapper S)} {p : Parse S} (w : Wrapper S) (s : S) (h : MadeFrom q ws p) : MadeFrom q (w :: ws) { w.redo p with score := s }

/-- A prefix put before the word and the normal form. -/
def Wrapper.pre {S : Type} (x : Str) : Wrapper S := ⟨fun f => f.withoutPrefix x.length, fun f => f.withPrefix x⟩

/-- A suffix put after the word and the normal form. -/
def Wrapper.suf {S : Type} (x : Str) : Wrapper S := ⟨fun f => f.withoutSuffix x.length, fun f => f.withSuffix x⟩

/-- No decoration. -/
def Wrapper.same {S : Type} : Wrapper S := ⟨id, id⟩

end Verif
