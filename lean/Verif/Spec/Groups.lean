/-
Specification vocabulary: unit groups.  The `units` argument of `MorphAnalyzer` is a list whose items are units or
lists of units; each item is one group.
-/
import Verif.Model.Config

namespace Verif

variable {S : Type} [Score S]

/-- The results of the units of one group, one after the other (they share one `seen_parses` set). -/
def groupParse (m : Morph S) (rec : Rec S) (word wl : Str) : List (BUnit S) → Seen → Except PyErr (List (Parse S))
  | [], _ => .ok []
  | u :: us, seen => do
    let r ← unitParse m rec u word wl seen
    let rest ← groupParse m rec word wl us r.2
    pure (r.1 ++ rest)

/-- The tags of the units of one group, one after the other (they share one `seen_tags` set). -/
def groupTag (m : Morph S) (rec : Rec S) (word wl : Str) : List (BUnit S) → SeenTags → Except PyErr (List Tag)
  | [], _ => .ok []
  | u :: us, seen => do
    let r ← unitTag m rec u word wl seen
    let rest ← groupTag m rec word wl us r.2
    pure (r.1 ++ rest)

/-- `IsGroups groups units`: `units` is the flat list with `is_terminal` flags that describes `groups`: each group is
non-empty and exactly its last unit is flagged. -/
def IsGroups (groups : List (List (BUnit S))) (units : List (BUnit S × Bool)) : Prop :=
  (∀ g ∈ groups, g ≠ []) ∧ units = groups.flatMap fun g => g.mapIdx fun i u => (u, decide (i + 1 = g.length))

/-- The first group that answers: `before` groups return nothing, `g` returns the non-empty `out`; or nobody answers. -/
def FirstAnswer {α : Type} (run : List (BUnit S) → Except PyErr (List α)) (groups : List (List (BUnit S)))
    (out : List α) : Prop :=
  (out ≠ [] ∧ ∃ before g after, groups = before ++ g :: after ∧ (∀ b ∈ before, run b = .ok []) ∧ run g = .ok out) ∨
  (out = [] ∧ ∀ b ∈ groups, run b = .ok [])

end Verif

namespace Verif

variable {S : Type}

/-- What a unit is after binding (its tags are determined by its parameters). -/
def UnitSpec.bound : UnitSpec S → UnitCfg S
  | .dictionary => .dictionary
  | .firstName letters pattern score =>
    let tags := GENDERS2.flatMap fun g => CASES6.map fun c => Tag.mk (pattern g c)
    .firstName letters (tags.filter fun t => decide (c!"masc" ∈ t.grammemes))
      (tags.filter fun t => decide (c!"femn" ∈ t.grammemes)) score
  | .patronymic letters pattern score =>
    .patronymic letters (GENDERS2.flatMap fun g => CASES6.map fun c => Tag.mk (pattern g c)) score
  | .number score => .number ⟨c!"NUMB,intg"⟩ ⟨c!"NUMB,real"⟩ score
  | .punct score => .punct ⟨c!"PNCT"⟩ score
  | .latin score => .latin ⟨c!"LATN"⟩ score
  | .roman score => .roman ⟨c!"ROMN"⟩ score
  | .particle ps mult => .particle ps mult
  | .adverb mult => .adverb ⟨c!"ADVB"⟩ mult
  | .hyphenated skip mult => .hyphenated skip mult
  | .knownPrefix ps mult k => .knownPrefix ps mult k
  | .unknownPrefix mult => .unknownPrefix mult
  | .knownSuffix mult k => .knownSuffix mult k
  | .unkn => .unkn ⟨c!"UNKN"⟩

/-- The groups of bound units of a `units` argument; units are numbered from `n`. -/
def boundGroups : List (List (UnitSpec S)) → Nat → List (List (BUnit S))
  | [], _ => []
  | g :: gs, n => (g.mapIdx fun i sp => ⟨n + i, sp.bound⟩) :: boundGroups gs (n + g.length)

end Verif
