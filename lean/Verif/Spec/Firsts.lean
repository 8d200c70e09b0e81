/-
Specification vocabulary for C106: the order of tags in the answers of `parse` and of `tag`.
-/
import Verif.Spec.Order

namespace Verif

/-- The different elements of a list, in the order of their first occurrences. -/
def firsts {α : Type} [DecidableEq α] : List α → List α
  | [] => []
  | x :: l => x :: (firsts l).filter fun y => decide (y ≠ x)

/-- The methods stack has an entry `(KnownSuffixAnalyzer, …)`: the analysis was predicted by the ending of the word (perhaps after a prefix or a
particle was cut off). -/
def Stack.byEnding : Stack → Bool
  | .nil => false
  | .push rest m => (match m with | .simple u _ => decide (u.kind = .suff) | _ => false) || rest.byEnding

/-- Leave out the tags (compared as the library does) of the analyses that were predicted by the ending. -/
def notByEnding {S : Type} (ps : List (Parse S)) (t : Tag) : Bool :=
  !(ps.any fun p => p.stack.byEnding && p.tag.eqv t)

end Verif
