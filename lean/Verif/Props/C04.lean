/-
C04 — `Parse.is_known` is consistent with `MorphAnalyzer.word_is_known`.
-/
import Verif.Props.C06
import Verif.Props.C05
import Verif.Props.C03

set_option linter.unusedSectionVars false

namespace Verif

variable {S : Type} [Score S]

theorem dict_known_iff (d : Dict) (w : Str) (sub : Subst) :
    d.wordIsKnown w (some sub) = true ↔ ∃ v r, Spells sub w v ∧ (v, r) ∈ d.words := by
  simp only [Dict.wordIsKnown, Bool.not_eq_true', List.isEmpty_eq_false_iff]
  constructor
  · intro h
    obtain ⟨v, hv⟩ := List.exists_mem_of_ne_nil _ h
    obtain ⟨h1, r, h2⟩ := (Dawg.mem_similarKeys _ _ _ _).1 hv
    exact ⟨v, r, h1, h2⟩
  · rintro ⟨v, r, h1, h2⟩
    exact List.ne_nil_of_mem ((Dawg.mem_similarKeys _ _ _ _).2 ⟨h1, r, h2⟩)

/-- Words of the results of the first group: the input itself or a dictionary word. -/
theorem parse_known_words (env : Env) (dict : Dict) (cls : TagCls) (sub : Subst) (g0 : List (UnitSpec S))
    (items : List (List (UnitSpec S))) (est : Option (List (Str × Nat))) (m : Morph S)
    (hm : mkMorph env dict cls sub ((.dictionary :: g0) :: items) est = .ok m)
    (hg0 : ∀ sp ∈ g0, match sp with
      | .dictionary | .firstName _ _ _ | .patronymic _ _ _ | .number _ | .punct _ | .latin _ | .roman _ => True
      | _ => False)
    (w : Str) (hknown : m.wordIsKnown w = true) (ps : List (Parse S)) (h : m.parse w = .ok ps) (p : Parse S)
    (hp : p ∈ ps) : p.word = m.env.lower w ∨ ∃ e ∈ m.dict.words, e.1 = p.word := by
  obtain ⟨r0, hr0, hperm⟩ := parse_of_first_group _ _ _ _ _ _ _ m hm w ps h
  have hne : r0 ≠ [] := by
    simp only [List.mapIdx_cons, groupParse, unitParse, UnitSpec.bound, bind_ok_iff, pure_eq_ok, Except.ok.injEq] at hr0
    obtain ⟨r, ⟨ps', hps', rfl⟩, rest, _, rfl⟩ := hr0
    have hl := dictParse_entries m _ _ _ hps'
    intro e
    have := (List.append_eq_nil_iff.1 e).1
    dsimp only at this
    subst this
    simp only [List.filterMap_nil] at hl
    unfold Morph.wordIsKnown at hknown
    simp only [Bool.false_eq_true, if_false] at hknown
    obtain ⟨v, r, h1, h2⟩ := (dict_known_iff _ _ _).1 hknown
    have := (mem_lookup _ _ _ _ _).2 ⟨h1, h2⟩
    rw [← hl] at this; simp at this
  obtain ⟨q, hq, he⟩ := List.mem_map.1 ((hperm hne).mem_iff.1 (List.mem_map.2 ⟨p, hp, rfl⟩))
  obtain ⟨u, hu, seen, r, hr, hqr⟩ := groupParse_mem _ _ _ _ _ _ _ hr0 q hq
  have key := unitParse_group0 _ _ _ _ _ _ _ hr q hqr
  have he := (core_eq_iff _ _).1 he
  rw [← he.1]
  simp only [List.mapIdx_cons, List.mem_cons] at hu
  rcases hu with rfl | hu
  · exact .inr key.2
  · obtain ⟨i, hi, rfl⟩ := List.mem_mapIdx.1 hu
    have hsp := hg0 (g0[i]) (by simp)
    generalize g0[i] = sp at hsp key
    cases sp <;> simp only [UnitSpec.bound] at key hsp
    · exact .inr key.2
    all_goals exact .inl key.2.2.1

/-- C04 from what it rests on. -/
theorem known_core (m : Morph S) (hlow : m.env.LowerStable)
    (hs : ∀ c d, d ∈ m.sub c → m.sub d = []) (w : Str) (ps : List (Parse S)) (h : m.parse w = .ok ps) (p : Parse S)
    (hp : p ∈ ps) (key : m.wordIsKnown w = true → p.word = m.env.lower w ∨ ∃ e ∈ m.dict.words, e.1 = p.word) : m.isKnown p = m.wordIsKnown w := by
  rw [Bool.eq_iff_iff]
  constructor
  · intro hk
    unfold Morph.isKnown at hk
    obtain ⟨v, r, h1, h2⟩ := (dict_known_iff _ _ _).1 hk
    unfold Morph.wordIsKnown
    simp only [Bool.false_eq_true, if_false]
    exact (dict_known_iff _ _ _).2 ⟨v, r, (analyze_deriv m hlow _ w ps h p hp).spells.trans hs h1, h2⟩
  · intro hk
    rcases key hk with e | ⟨⟨v, r⟩, he, e⟩
    · unfold Morph.isKnown; rw [e]; exact hk
    · exact (dict_known_iff _ _ _).2 ⟨p.word, r, .refl _ _, e ▸ he⟩

/-- C04.  For the default analyzers of both languages and substitutes whose targets are not themselves substitutable:
`p.is_known` equals `morph.word_is_known(w)` for every result `p` of `morph.parse(w)`. -/
theorem c04_is_known (m : Morph S) (hm : IsRu m ∨ IsUk m) (hlow : m.env.LowerStable)
    (hs : ∀ c d, d ∈ m.sub c → m.sub d = []) (w : Str) (ps : List (Parse S)) (h : m.parse w = .ok ps) (p : Parse S)
    (hp : p ∈ ps) : m.isKnown p = m.wordIsKnown w := by
  refine known_core m hlow hs w ps h p hp fun hk => ?_
  rcases hm with ⟨cls, hm⟩ | ⟨cls, hm⟩
  · unfold ruUnits at hm
    refine parse_known_words _ _ _ _ _ _ _ m hm ?_ w hk ps h p hp
    intro sp hsp
    simp only [List.mem_cons, List.not_mem_nil, or_false] at hsp
    rcases hsp with rfl | rfl <;> trivial
  · unfold ukUnits at hm
    refine parse_known_words _ _ _ _ _ _ _ m hm ?_ w hk ps h p hp
    intro sp hsp
    simp only [List.mem_cons, List.not_mem_nil, or_false] at hsp
    rcases hsp with rfl | rfl | rfl | rfl <;> trivial

/-- The default substitutes meet the hypothesis. -/
theorem c04_default_substs : (∀ c d, d ∈ ruSubst c → ruSubst d = []) ∧ (∀ c d, d ∈ ukSubst c → ukSubst d = []) := by
  constructor
  · intro c d h; unfold ruSubst at h
    split at h
    · simp at h; subst h; decide
    · simp at h
  · intro c d h; unfold ukSubst at h
    split at h
    · simp at h; subst h; decide
    · simp at h

/-- C04, second part: strict knowledge implies knowledge. -/
theorem c04_strict (m : Morph S) (w : Str) (h : m.wordIsKnown w (strict := true) = true) : m.wordIsKnown w = true := by
  unfold Morph.wordIsKnown at *
  simp only [if_true, Bool.false_eq_true, if_false] at *
  obtain ⟨r, hr⟩ := (Dawg.has_iff _ _).1 h
  exact (dict_known_iff _ _ _).2 ⟨_, r, .refl _ _, hr⟩

/-! Non-vacuity (tests): a word known only through a substitution, a predicted word, a strictly known one. -/
example : Demo.morph.wordIsKnown (c!"Еж") = true ∧ Demo.morph.wordIsKnown (c!"Еж") true = false ∧
    Demo.morph.wordIsKnown (c!"ёж") true = true ∧ Demo.morph.wordIsKnown (c!"мошка") = false := by decide +kernel
example : IsRu Demo.morph ∧ Demo.morph.env.LowerStable := ⟨Demo.morph_isRu, demoEnv_lowerStable⟩

end Verif
