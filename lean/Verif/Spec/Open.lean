/-
Specification vocabulary for units written by the user: what such a unit has to respect.
-/
import Verif.Model.OpenUnits
import Verif.Lemmas.Fuel
import Verif.Lemmas.Total

namespace Verif

variable {S : Type} [Score S]

/-- A unit that returns nothing has not touched the set of what was seen. -/
structure OpenUnit.Quiet (u : OpenUnit S) : Prop where
  parse : ∀ rec word wl seen r, u.parse rec word wl seen = .ok r → r.1 = [] → r.2 = seen
  tag : ∀ rec word wl seen r, u.tag rec word wl seen = .ok r → r.1 = [] → r.2 = seen

/-- A unit that asks the analyzer only about strictly shorter pieces of the lower-cased word. -/
def OpenUnit.AsksShorter (u : OpenUnit S) : Prop :=
  ∀ (rec rec' : Rec S) (word wl : Str), Rec.AgreeBelow wl rec rec' →
    (∀ seen, u.parse rec word wl seen = u.parse rec' word wl seen) ∧ ∀ seen, u.tag rec word wl seen = u.tag rec' word wl seen

/-- A unit that has nothing to say about the word. -/
def OpenUnit.SilentOn (u : OpenUnit S) (word wl : Str) : Prop :=
  ∀ rec, (∀ seen, u.parse rec word wl seen = .ok ([], seen)) ∧ ∀ seen, u.tag rec word wl seen = .ok ([], seen)

/-- A unit that raises nothing on the word, as long as the analyzer raises nothing on strictly shorter pieces of it. -/
def OpenUnit.SafeOn (u : OpenUnit S) (word wl : Str) : Prop :=
  ∀ rec : Rec S, rec.OkBelow wl → (∀ seen, ∃ r, u.parse rec word wl seen = .ok r) ∧ ∀ seen, ∃ r, u.tag rec word wl seen = .ok r

/-- An estimator that may change scores and the order of the results, and nothing else. -/
structure OpenEst.Reorders (e : OpenEst S) : Prop where
  parses : ∀ word wl ps out, e.parses word wl ps = .ok out → (out.map Parse.core).Perm (ps.map Parse.core)
  tags : ∀ word wl ts out, e.tags word wl ts = .ok out → out.Perm ts

/-- The results of the units of one group, one after the other, sharing one set. -/
def openGroup (rec : Rec S) (word wl : Str) : List (OpenUnit S) → Seen → Except PyErr (List (Parse S))
  | [], _ => .ok []
  | u :: us, seen => do
    let r ← u.parse rec word wl seen
    let rest ← openGroup rec word wl us r.2
    pure (r.1 ++ rest)

/-- The tags of the units of one group, one after the other, sharing one set. -/
def openGroupTag (rec : Rec S) (word wl : Str) : List (OpenUnit S) → SeenTags → Except PyErr (List Tag)
  | [], _ => .ok []
  | u :: us, seen => do
    let r ← u.tag rec word wl seen
    let rest ← openGroupTag rec word wl us r.2
    pure (r.1 ++ rest)

/-- `out` is the answer of the first group which answers (`[]` if none does). -/
def OpenFirst {G α : Type} (run : G → Except PyErr (List α)) (groups : List G) (out : List α) : Prop :=
  (out ≠ [] ∧ ∃ before g after, groups = before ++ g :: after ∧ (∀ b ∈ before, run b = .ok []) ∧ run g = .ok out) ∨
  (out = [] ∧ ∀ b ∈ groups, run b = .ok [])

end Verif
