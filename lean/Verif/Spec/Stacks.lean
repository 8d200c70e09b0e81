/-
Specification vocabulary: the shape of methods stacks.
-/
import Verif.Model.Parse

namespace Verif

/-- The unit classes for initials. -/
def UKind.isInit : UKind → Bool
  | .firstName _ _ | .patronymic _ => true
  | _ => false

mutual
/-- No unit for initials was used anywhere in the stack. -/
def Stack.noInit : Stack → Prop
  | .nil => True
  | .push r x => r.noInit ∧ x.noInit
def Method.noInit : Method → Prop
  | .dict _ _ _ _ => True
  | .simple u _ => u.kind.isInit = false
  | .fixed _ _ r => r.noInit
  | .both _ l r => l.noInit ∧ r.noInit
end

mutual
/-- Initials do not occur inside compounds with both parts inflected. -/
def Stack.bothNoInit : Stack → Prop
  | .nil => True
  | .push r x => r.bothNoInit ∧ x.bothNoInit
def Method.bothNoInit : Method → Prop
  | .dict _ _ _ _ => True
  | .simple _ _ => True
  | .fixed _ _ r => r.bothNoInit
  | .both _ l r => l.noInit ∧ r.noInit
end

mutual
/-- The analysis is not (based on) a hyphenated compound with both parts inflected. -/
def Stack.noBoth : Stack → Prop
  | .nil => True
  | .push r x => r.noBoth ∧ x.noBoth
def Method.noBoth : Method → Prop
  | .dict _ _ _ _ => True
  | .simple _ _ => True
  | .fixed _ _ r => r.noBoth
  | .both _ _ _ => False
end

mutual
/-- Every dictionary form the analysis is based on really consists of the prefix, some stem and the suffix of its
paradigm form.  (Always so for dictionary words; for predicted words it says that prefix and suffix do not overlap.
Nothing is asked of the parts of a compound with both parts inflected.) -/
def Stack.fits (d : Dict) : Stack → Prop
  | .nil => True
  | .push r x => r.fits d ∧ x.fits d
def Method.fits (d : Dict) : Method → Prop
  | .dict _ v para idx => ∃ p pre tag suf stem, d.IsForm para idx p pre tag suf ∧ v = pre ++ stem ++ suf
  | .simple _ _ => True
  | .fixed _ _ r => r.fits d
  | .both _ _ _ => True
end

/-- In a prediction by suffix, the paradigm prefix of the predicted form does not reach into the ending. -/
def suffixRoom (d : Dict) (r : Stack) (x : Method) : Prop :=
  match r, x with
  | .push _ (.dict _ v para idx), .simple u e => u.kind = .suff →
      ∀ p pre tag suf, d.IsForm para idx p pre tag suf → pre.length + e.length ≤ v.length
  | _, _ => True

mutual
/-- This holds for every prediction by suffix the analysis is based on. -/
def Stack.roomy (d : Dict) : Stack → Prop
  | .nil => True
  | .push r x => r.roomy d ∧ x.roomy d ∧ suffixRoom d r x
def Method.roomy (d : Dict) : Method → Prop
  | .dict _ _ _ _ => True
  | .simple _ _ => True
  | .fixed _ _ r => r.roomy d
  | .both _ _ _ => True
end

/-- A lexeme that has a form without a hyphen in its paradigm prefix and suffix has only such forms. -/
def Dict.HyphenUniform (d : Dict) : Prop :=
  ∀ (para i j : Nat) (p : List Nat) (pre suf pre' suf' : Str) (tag tag' : Tag), d.IsForm para i p pre tag suf →
    d.IsForm para j p pre' tag' suf' → '-' ∉ pre → '-' ∉ suf → '-' ∉ pre' ∧ '-' ∉ suf'

mutual
theorem Stack.noInit_bothNoInit : ∀ s : Stack, s.noInit → s.bothNoInit
  | .nil, _ => trivial
  | .push r x, h => ⟨Stack.noInit_bothNoInit r h.1, Method.noInit_bothNoInit x h.2⟩
theorem Method.noInit_bothNoInit : ∀ x : Method, x.noInit → x.bothNoInit
  | .dict _ _ _ _, _ => trivial
  | .simple _ _, _ => trivial
  | .fixed _ _ r, h => Stack.noInit_bothNoInit r h
  | .both _ _ _, h => h
end

end Verif
