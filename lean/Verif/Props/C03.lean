/-
C03 — a parse result is a spelling of the input word.
-/
import Verif.Lemmas.Deriv
import Verif.Demo

set_option linter.unusedSectionVars false

namespace Verif

variable {S : Type} [Score S]

theorem Deriv.spells {m : Morph S} {wl w nf : Str} {tag : Tag} {st : Stack} (h : Deriv m wl w tag nf st) :
    Spells m.sub wl w := by
  induction h with
  | dict hs => exact hs
  | plain => exact .refl _ _
  | firstName => exact .refl _ _
  | patronymic => exact .refl _ _
  | particle _ _ _ _ _ _ ih => exact ih.append (.refl _ _)
  | fixed _ _ _ _ _ _ _ _ _ ih => exact (Spells.refl _ _).append (.cons (.inl rfl) ih)
  | both _ _ _ _ _ _ _ _ _ _ _ ih1 ih2 => exact ih1.append (.cons (.inl rfl) ih2)
  | pref _ _ _ _ _ _ ih => exact (Spells.refl _ _).append ih
  | upref _ _ _ _ _ _ hs => exact (Spells.refl _ _).append hs
  | suff _ _ hsplit _ hs => rw [hsplit]; exact (Spells.refl _ _).append hs

/-- C03.  Every result of `parse(w)`, for any unit list, dictionary and scores: same length as `w.lower()`, and at each
position the same character or a declared substitute of it. -/
theorem c03_parse_spells (m : Morph S) (hlow : m.env.LowerStable) (w : Str) (ps : List (Parse S))
    (h : m.parse w = .ok ps) (p : Parse S) (hp : p ∈ ps) :
    p.word.length = (m.env.lower w).length ∧
    ∀ (i : Nat) (c d : Char), (m.env.lower w)[i]? = some c → p.word[i]? = some d → d = c ∨ d ∈ m.sub c := by
  have := (spells_iff_get _ _ _).1 (analyze_deriv m hlow _ w ps h p hp).spells
  exact ⟨this.1.symm, this.2⟩

/-- C03 for the Russian substitutes: the only difference a result may show is `ё` where the input has `е`; an input
`ё` is never answered by `е`. -/
theorem c03_russian (m : Morph S) (hlow : m.env.LowerStable) (hsub : m.sub = ruSubst) (w : Str) (ps : List (Parse S))
    (h : m.parse w = .ok ps) (p : Parse S) (hp : p ∈ ps) :
    p.word.length = (m.env.lower w).length ∧
    ∀ (i : Nat) (c d : Char), (m.env.lower w)[i]? = some c → p.word[i]? = some d →
      d = c ∨ (c = 'е' ∧ d = 'ё') := by
  obtain ⟨h1, h2⟩ := c03_parse_spells m hlow w ps h p hp
  refine ⟨h1, fun i c d hc hd => ?_⟩
  rcases h2 i c d hc hd with h | h
  · exact .inl h
  · rw [hsub] at h
    unfold ruSubst at h
    split at h
    · next hc => exact .inr ⟨by simpa using hc, by simpa using h⟩
    · simp at h

/-! Non-vacuity (tests): the environment law holds for the demo runtime, and the demo analyzer answers `Ежи`, `еж`. -/

example : Demo.morph.env.LowerStable := demoEnv_lowerStable
example : (Demo.morph.parse (c!"Еж")).toOption.map (·.map Parse.word) = some [c!"ёж"] := by decide +kernel

end Verif
