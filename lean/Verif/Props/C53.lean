/-
C53 — letter case does not matter for words.
-/
import Verif.Lemmas.Fuel
import Verif.Spec.Default
import Verif.Props.C10
import Verif.Lemmas.DictCheck

set_option linter.unusedSectionVars false

namespace Verif

variable {S : Type} [Score S]

/-- Both raise the same exception, or both succeed with related values. -/
def ExceptRel {α β : Type} (R : α → β → Prop) : Except PyErr α → Except PyErr β → Prop
  | .ok a, .ok b => R a b
  | .error e, .error e' => e = e'
  | _, _ => False

/-- Two results that differ at most in the spelling recorded by the method that produced them. -/
def SameResult (w w' : Str) (p q : Parse S) : Prop :=
  p.word = q.word ∧ p.tag = q.tag ∧ p.nf = q.nf ∧ p.score = q.score ∧
    (p.stack = q.stack ∨ ∃ u, p.stack = .single (.simple u w) ∧ q.stack = .single (.simple u w'))

/-- The two spellings are the same as far as numbers, punctuation, Latin and Roman numerals are concerned. -/
structure SameShape (e : Env) (w w' : Str) : Prop where
  int : e.isInt w = e.isInt w'
  float : e.isFloat (w.map fun c => if c = ',' then '.' else c) = e.isFloat (w'.map fun c => if c = ',' then '.' else c)
  punct : isPunctuation e w = isPunctuation e w'
  latin : isLatin e w = isLatin e w'
  roman : isRomanNumber e w = isRomanNumber e w'

/-- Both or neither are on the list of initials of every unit. -/
def UnitCfg.sameInitial (w w' : Str) : UnitCfg S → Prop
  | .firstName letters _ _ _ => w ∈ letters ↔ w' ∈ letters
  | .patronymic letters _ _ => w ∈ letters ↔ w' ∈ letters
  | _ => True

theorem shapeTag_same {e : Env} {w w' : Str} (h : SameShape e w w') (c : UnitCfg S) : shapeTag e c w = shapeTag e c w' := by
  unfold shapeTag numberShape
  cases c <;> simp only [h.int, h.float, h.punct, h.latin, h.roman]

theorem SameResult.refl (w w' : Str) (p : Parse S) : SameResult w w' p p := ⟨rfl, rfl, rfl, rfl, .inl rfl⟩

theorem forall₂_refl' {α : Type} {R : α → α → Prop} (h : ∀ a, R a a) (l : List α) : List.Forall₂ R l l := by
  induction l with
  | nil => exact .nil
  | cons a l ih => exact .cons (h a) ih

theorem ExceptRel.refl {α : Type} {R : α → α → Prop} (h : ∀ a, R a a) (x : Except PyErr α) : ExceptRel R x x := by
  cases x with
  | ok a => exact h a
  | error e => rfl

/-- One unit. -/
theorem unitParse_sameCase (m : Morph S) (rec : Rec S) (u : BUnit S) (w w' wl : Str) (seen : Seen) (hs : SameShape m.env w w')
    (hl : w.length = w'.length) (hi : u.cfg.sameInitial w w') :
    ExceptRel (fun r r' => List.Forall₂ (SameResult w w') r.1 r'.1 ∧ r.2 = r'.2) (unitParse m rec u w wl seen) (unitParse m rec u w' wl seen) := by
  have same : ∀ x : Except PyErr (List (Parse S) × Seen),
      ExceptRel (fun r r' => List.Forall₂ (SameResult w w') r.1 r'.1 ∧ r.2 = r'.2) x x :=
    ExceptRel.refl fun a => ⟨forall₂_refl' (SameResult.refl w w') _, rfl⟩
  have one : ∀ (t : Tag) (x : Str) (sc : S), SameResult w w' (⟨x, t, x, sc, .single (.simple u.obj w)⟩ : Parse S) ⟨x, t, x, sc, .single (.simple u.obj w')⟩ :=
    fun t x sc => ⟨rfl, rfl, rfl, rfl, .inr ⟨_, rfl, rfl⟩⟩
  unfold unitParse
  cases hc : u.cfg <;> rw [hc] at hi <;> dsimp only
  case dictionary | particle | hyphenated | knownPrefix | unknownPrefix => exact same _
  case firstName | patronymic =>
    refine ⟨?_, rfl⟩
    simp only [UnitCfg.sameInitial] at hi
    unfold initialsParse
    by_cases h : w ∈ (‹List Str› : List Str)
    · rw [if_pos h, if_pos (hi.1 h)]
      generalize (‹List Tag› ++ ‹List Tag› : List Tag) = ts
      rw [List.forall₂_map_left_iff, List.forall₂_map_right_iff]
      exact forall₂_refl' (fun t => one t wl _) _
    · rw [if_neg h, if_neg (fun h' => h (hi.2 h'))]
      exact .nil
  case number | punct | latin | roman =>
    rw [shapeTag_same hs]
    cases shapeTag m.env _ w' with
    | error e => rfl
    | ok t =>
      refine ⟨?_, rfl⟩
      cases t with
      | none => exact .nil
      | some t => exact .cons (one t wl _) .nil
  case adverb =>
    cases adverbShould m rec wl with
    | error e => rfl
    | ok b =>
      cases b with
      | false => exact ⟨.nil, rfl⟩
      | true => exact ⟨.cons (one _ wl _) .nil, rfl⟩
  case knownSuffix =>
    unfold suffixParse
    rw [hl]
    exact same _
  case unkn =>
    refine ⟨?_, rfl⟩
    split
    · exact .cons (one _ wl _) .nil
    · exact .nil

theorem runParse_sameCase (m : Morph S) (rec : Rec S) (w w' wl : Str) (hs : SameShape m.env w w') (hl : w.length = w'.length)
    (us : List (BUnit S × Bool)) (hi : ∀ u ∈ us, u.1.cfg.sameInitial w w') (seen : Seen) (res res' : List (Parse S))
    (hr : List.Forall₂ (SameResult w w') res res') :
    ExceptRel (List.Forall₂ (SameResult w w')) (runParse m rec w wl us seen res) (runParse m rec w' wl us seen res') := by
  induction us generalizing seen res res' with
  | nil => exact hr
  | cons ut us ih =>
    obtain ⟨u, t⟩ := ut
    rw [runParse, runParse]
    have h := unitParse_sameCase m rec u w w' wl seen hs hl (hi (u, t) (by simp))
    cases hx : unitParse m rec u w wl seen with
    | error e =>
      rw [hx] at h
      cases hy : unitParse m rec u w' wl seen with
      | error e' => rw [hy] at h; exact h
      | ok r' => rw [hy] at h; exact h.elim
    | ok r =>
      rw [hx] at h
      cases hy : unitParse m rec u w' wl seen with
      | error e' => rw [hy] at h; exact h.elim
      | ok r' =>
        rw [hy] at h
        obtain ⟨h1, h2⟩ := h
        simp only [ok_bind]
        have h3 := List.rel_append hr h1
        have hne : res ++ r.1 ≠ [] ↔ res' ++ r'.1 ≠ [] := by
          have := h3.length_eq
          rw [← List.length_pos_iff, ← List.length_pos_iff, this]
        by_cases hc : t = true ∧ res ++ r.1 ≠ []
        · rw [if_pos hc, if_pos ⟨hc.1, hne.1 hc.2⟩]
          exact h3
        · rw [if_neg hc, if_neg (fun h => hc ⟨h.1, hne.2 h.2⟩), h2]
          exact ih (fun u hu => hi u (by simp [hu])) _ _ _ h3

theorem insertionSort_forall₂ {α : Type} {R : α → α → Prop} (le : α → α → Prop) [DecidableRel le]
    (hle : ∀ a a' b b', R a a' → R b b' → (le a b ↔ le a' b')) (l l' : List α) (h : List.Forall₂ R l l') :
    List.Forall₂ R (l.insertionSort le) (l'.insertionSort le) := by
  have ins : ∀ (a a' : α) (l l' : List α), R a a' → List.Forall₂ R l l' → List.Forall₂ R (l.orderedInsert le a) (l'.orderedInsert le a') := by
    intro a a' l l' ha h
    induction h with
    | nil => exact .cons ha .nil
    | @cons b b' l l' hb hl ih =>
      simp only [List.orderedInsert]
      by_cases hc : le a b
      · rw [if_pos hc, if_pos ((hle _ _ _ _ ha hb).1 hc)]
        exact .cons ha (.cons hb hl)
      · rw [if_neg hc, if_neg (fun h => hc ((hle _ _ _ _ ha hb).2 h))]
        exact .cons hb ih
  induction h with
  | nil => exact .nil
  | cons ha _ ih => exact ins _ _ _ _ ha ih

theorem applyToParses_sameCase (dawg : List (Str × Nat)) (w w' wl : Str) (ps ps' : List (Parse S)) (h : List.Forall₂ (SameResult w w') ps ps') :
    ExceptRel (List.Forall₂ (SameResult w w')) (applyToParses dawg wl ps) (applyToParses dawg wl ps') := by
  unfold applyToParses
  have hnil : ps = [] ↔ ps' = [] := by
    rw [← List.length_eq_zero_iff, ← List.length_eq_zero_iff, h.length_eq]
  by_cases h0 : ps = []
  · rw [if_pos h0, if_pos (hnil.1 h0)]; exact .nil
  rw [if_neg h0, if_neg (fun h => h0 (hnil.2 h))]
  have hprob : (ps.map fun p => (prob dawg wl p.tag : S)) = ps'.map fun p => prob dawg wl p.tag := by
    clear hnil h0
    induction h with
    | nil => rfl
    | cons ha _ ih => simp only [List.map_cons, ih, ha.2.1]
  have hscore : ps.map Parse.score = ps'.map Parse.score := by
    clear hnil h0 hprob
    induction h with
    | nil => rfl
    | cons ha _ ih => simp only [List.map_cons, ih, ha.2.2.2.1]
  dsimp only
  rw [hprob, hscore]
  split
  · split
    · rfl
    · show List.Forall₂ _ _ _
      rw [List.forall₂_map_left_iff, List.forall₂_map_right_iff]
      exact h.imp fun a b hab => ⟨hab.1, hab.2.1, hab.2.2.1, by simp only [hab.2.2.2.1], hab.2.2.2.2⟩
  · show List.Forall₂ _ _ _
    unfold sortByScore
    apply insertionSort_forall₂
    · intro a a' b b' ha hb
      rw [ha.2.2.2.1, hb.2.2.2.1]
    · rw [List.forall₂_map_left_iff, List.forall₂_map_right_iff]
      exact h.imp fun a b hab => ⟨hab.1, hab.2.1, hab.2.2.1, by simp only [hab.2.1], hab.2.2.2.2⟩

/-- C53 for `parse`. -/
theorem c53_parse (m : Morph S) (w w' : Str) (hlow : m.env.lower w = m.env.lower w') (hl : w.length = w'.length) (hs : SameShape m.env w w')
    (hi : ∀ u ∈ m.units, u.1.cfg.sameInitial w w') : ExceptRel (List.Forall₂ (SameResult w w')) (m.parse w) (m.parse w') := by
  unfold Morph.parse Morph.depth
  rw [hlow]
  show ExceptRel _ (parseStep m _ w) (parseStep m _ w')
  unfold parseStep
  dsimp only
  rw [hlow]
  have h := runParse_sameCase m (analyze m (m.env.lower w').length) w w' (m.env.lower w') hs hl m.units hi [] [] [] .nil
  cases hx : runParse m (analyze m (m.env.lower w').length) w (m.env.lower w') m.units [] [] with
  | error e =>
    rw [hx] at h
    cases hy : runParse m (analyze m (m.env.lower w').length) w' (m.env.lower w') m.units [] [] with
    | error e' => rw [hy] at h; exact h
    | ok r' => rw [hy] at h; exact h.elim
  | ok r =>
    rw [hx] at h
    cases hy : runParse m (analyze m (m.env.lower w').length) w' (m.env.lower w') m.units [] [] with
    | error e' => rw [hy] at h; exact h.elim
    | ok r' =>
      rw [hy] at h
      simp only [ok_bind]
      cases m.est with
      | none => exact h
      | some dawg => exact applyToParses_sameCase dawg w w' _ r r' h

theorem unitTag_sameCase (m : Morph S) (rec : Rec S) (u : BUnit S) (w w' wl : Str) (seen : SeenTags) (hs : SameShape m.env w w')
    (hl : w.length = w'.length) (hi : u.cfg.sameInitial w w') : unitTag m rec u w wl seen = unitTag m rec u w' wl seen := by
  unfold unitTag
  cases hc : u.cfg <;> rw [hc] at hi <;> dsimp only
  case firstName | patronymic =>
    simp only [UnitCfg.sameInitial] at hi
    unfold initialsTag
    simp only [hi]
  case number | punct | latin | roman => rw [shapeTag_same hs]
  case knownSuffix =>
    unfold suffixTag
    rw [hl]

/-- C53 for `tag`: the same tags in the same order (or the same exception). -/
theorem c53_tag (m : Morph S) (w w' : Str) (hlow : m.env.lower w = m.env.lower w') (hl : w.length = w'.length) (hs : SameShape m.env w w')
    (hi : ∀ u ∈ m.units, u.1.cfg.sameInitial w w') : m.tag w = m.tag w' := by
  unfold Morph.tag Morph.depth
  rw [hlow]
  show tagStep m _ w = tagStep m _ w'
  unfold tagStep
  dsimp only
  rw [hlow]
  have h : ∀ (us : List (BUnit S × Bool)), (∀ u ∈ us, u.1.cfg.sameInitial w w') → ∀ (seen : SeenTags) (res : List Tag),
      runTag m (analyze m (m.env.lower w').length) w (m.env.lower w') us seen res = runTag m (analyze m (m.env.lower w').length) w' (m.env.lower w') us seen res := by
    intro us hi
    induction us with
    | nil => intro _ _; rfl
    | cons ut us ih =>
      intro seen res
      obtain ⟨u, t⟩ := ut
      rw [runTag, runTag, unitTag_sameCase m _ u w w' _ seen hs hl (hi (u, t) (by simp))]
      congr 1
      funext r
      dsimp only
      rw [ih fun u hu => hi u (by simp [hu])]
  rw [h m.units hi]

/-- Neither word is on the initials list of the default units (single capital letters). -/
theorem c53_default_initials (m : Morph S) (hm : IsRu m ∨ IsUk m) (w w' : Str) (h1 : w ∉ ruInitialLetters ∧ w ∉ ukInitialLetters)
    (h2 : w' ∉ ruInitialLetters ∧ w' ∉ ukInitialLetters) : ∀ u ∈ m.units, u.1.cfg.sameInitial w w' := by
  obtain ⟨items, cls, hm, hit⟩ : ∃ (items : List (List (UnitSpec S))) (cls : TagCls), mkMorph m.env m.dict cls m.sub items m.est = .ok m ∧
      (∀ g ∈ items, ∀ sp ∈ g, sp.bound.sameInitial w w') := by
    rcases hm with ⟨cls, hm⟩ | ⟨cls, hm⟩
    · exact ⟨ruUnits, cls, hm, by simp [ruUnits, UnitSpec.bound, UnitCfg.sameInitial, h1, h2]⟩
    · exact ⟨ukUnits, cls, hm, by simp [ukUnits, UnitSpec.bound, UnitCfg.sameInitial, h1, h2]⟩
  intro u hu
  obtain ⟨g, hg, hug⟩ := (mem_of_isGroups (mkMorph_units hm).2.2.2.2 u.1).1 ⟨u.2, hu⟩
  obtain ⟨g', hg', sp, hsp, hc⟩ := mem_boundGroups items 0 g hg u.1 hug
  rw [hc]
  exact hit g' hg' sp hsp

/-! Non-vacuity: "Кошка" and "КОШКА". -/
example : SameShape demoEnv (c!"Кошка") (c!"КОШКА") := ⟨by decide +kernel, by decide +kernel, by decide +kernel, by decide +kernel, by decide +kernel⟩
example : demoEnv.lower (c!"Кошка") = demoEnv.lower (c!"КОШКА") ∧ c!"Кошка" ∉ ruInitialLetters ∧ c!"КОШКА" ∉ ruInitialLetters := by decide +kernel
/-- Why the hypothesis on initials: a capital letter alone is an initial, a small one is not. -/
theorem c53_case_can_matter : (Demo.morph.tag (c!"Б")).toOption.map List.length = some 24 ∧ (Demo.morph.tag (c!"б")).toOption.map List.length = some 1 := by
  decide +kernel

end Verif
