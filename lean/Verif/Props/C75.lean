/-
C75 — the grammeme attributes of a tag, by name.
-/
import Verif.Spec.Attributes
import Verif.Props.C24
import Verif.Props.C26

namespace Verif

/-- The sets of the code are the categories of the specification. -/
theorem mem_cat (a : Attr) (g : Str) : g ∈ a.cat ↔ g ∈ a.value := by
  have h : a.cat = a.value.toFinset := by cases a <;> decide
  rw [h, List.mem_toFinset]

/-- **C75.** Each attribute is `None` exactly if the tag has no grammeme of the category; otherwise it is a grammeme of the tag and of the
category, and if there is only one, that one, however sets are iterated. -/
theorem c75_value (pick : Grams → Option Str) (hp : IsChoice pick) (t : Tag) (a : Attr) :
    (t.attr pick a = none ↔ ∀ g ∈ a.value, g ∉ t.tuple) ∧
    (∀ g, t.attr pick a = some g → g ∈ t.tuple ∧ g ∈ a.value) ∧
    (∀ g ∈ t.tuple, g ∈ a.value → (∀ g' ∈ t.tuple, g' ∈ a.value → g' = g) → t.attr pick a = some g) := by
  obtain ⟨h1, h2, h3⟩ := c27_attribute pick hp t a.cat
  simp only [mem_cat] at h1 h2 h3
  exact ⟨h1, h2, h3⟩

/-- **C75.** No grammeme belongs to two categories: it is the value of at most one attribute, of whatever tag. -/
theorem c75_disjoint (pick : Grams → Option Str) (hp : IsChoice pick) (t t' : Tag) (a b : Attr) (g : Str) (ha : t.attr pick a = some g)
    (hb : t'.attr pick b = some g) : a = b := by
  have h1 := ((c75_value pick hp t a).2.1 g ha).2
  have h2 := ((c75_value pick hp t' b).2.1 g hb).2
  have key : ∀ g ∈ a.value, g ∈ b.value → a = b := by cases a <;> cases b <;> decide
  exact key g h1 h2

/-- **C75.** The attributes depend only on the set of the grammemes. -/
theorem c75_same (pick : Grams → Option Str) (t t' : Tag) (h : ∀ g, g ∈ t.tuple ↔ g ∈ t'.tuple) (a : Attr) : t.attr pick a = t'.attr pick a := by
  have : t.grammemes = t'.grammemes := by
    ext g; simp only [Tag.grammemes, List.mem_toFinset]; exact h g
  unfold Tag.attr Tag.category
  rw [this]

/-- **C75**, comparison: `ValueError` exactly for a value compared with a string outside the category; otherwise `==` is equality and `!=` is not. -/
theorem c75_compare (pick : Grams → Option Str) (t : Tag) (a : Attr) (other : Option Str) :
    (∀ e, t.attrIs pick a other = .error e → e = .valueError) ∧
    (t.attrIs pick a other = .error .valueError ↔ t.attr pick a ≠ none ∧ ∃ o, other = some o ∧ o ∉ a.value) ∧
    (t.attrIs pick a other = .ok true → t.attr pick a = other) ∧ (t.attrIs pick a other = .ok false → t.attr pick a ≠ other) ∧
    (∀ b, t.attrIs pick a other = .ok b ↔ t.attrIsNot pick a other = .ok !b) ∧
    (∀ e, t.attrIs pick a other = .error e ↔ t.attrIsNot pick a other = .error e) := by
  obtain ⟨h1, h2⟩ := c27_comparison pick t a.cat other
  simp only [mem_cat] at h1 h2
  unfold Tag.attrIsNot
  have h1 : t.attrIs pick a other = .error .valueError ↔ _ := h1
  have h2 : _ → t.attrIs pick a other = _ := h2
  by_cases hc : t.attr pick a ≠ none ∧ ∃ o, other = some o ∧ o ∉ a.value
  · rw [h1.2 hc]
    exact ⟨by simp, by simpa using hc, by simp, by simp, fun b => ⟨fun h => by simp at h, fun h => by cases h⟩,
      fun e => ⟨fun h => by cases h; rfl, fun h => by cases h; rfl⟩⟩
  · rw [h2 hc]
    refine ⟨by simp, ⟨fun h => by simp at h, fun h => absurd h hc⟩, ?_, ?_, ?_, ?_⟩
    · intro h; simpa [Tag.attr] using h
    · intro h; simpa [Tag.attr] using h
    · intro b
      simp only [ok_bind, pure_eq_ok, Except.ok.injEq]
      constructor
      · intro h; rw [h]
      · intro h; simpa using h
    · intro e; simp [pure_eq_ok]

/-- **C75**, `in` a list: `ValueError` exactly if the attribute is not `None` and a string outside the category comes before the value. -/
theorem c75_in (pick : Grams → Option Str) (hp : IsChoice pick) (t : Tag) (a : Attr) (l : List Str) :
    (t.attr pick a = none → t.attrIn pick a l = .ok false) ∧
    (∀ g, t.attr pick a = some g →
      (t.attrIn pick a l = .ok true ↔ ∃ before after, l = before ++ g :: after ∧ ∀ o ∈ before, o ∈ a.value) ∧
      (t.attrIn pick a l = .ok false ↔ g ∉ l ∧ ∀ o ∈ l, o ∈ a.value) ∧
      (t.attrIn pick a l = .error .valueError ↔ ∃ before o after, l = before ++ o :: after ∧ o ∉ a.value ∧ g ∉ before ∧ ∀ o ∈ before, o ∈ a.value)) := by
  constructor
  · intro hn
    induction l with
    | nil => rfl
    | cons o os ih =>
      have : t.attrIs pick a (some o) = .ok false := by unfold Tag.attrIs attrEq; rw [hn]; simp
      rw [Tag.attrIn, this, ok_bind]; simpa using ih
  · intro g hg
    have hgv := ((c75_value pick hp t a).2.1 g hg).2
    induction l with
    | nil => simp [Tag.attrIn]
    | cons o os ih =>
      obtain ⟨i1, i2, i3⟩ := ih
      by_cases ho : o ∈ a.value
      · have e : t.attrIs pick a (some o) = .ok (decide (g = o)) := by
          unfold Tag.attrIs attrEq; rw [hg]; simp [mem_cat, ho]
        rw [Tag.attrIn, e, ok_bind]
        by_cases hgo : g = o
        · subst hgo
          simp only [decide_true, if_true, pure_eq_ok, true_iff]
          refine ⟨⟨[], os, rfl, by simp⟩, by simp, ?_⟩
          simp only [reduceCtorEq, false_iff]
          rintro ⟨before, o', after, he, h1, h2, _⟩
          cases before with
          | nil => simp only [List.nil_append, List.cons.injEq] at he; exact h1 (he.1 ▸ ho)
          | cons b bs => simp only [List.cons_append, List.cons.injEq] at he; exact h2 (by simp [he.1])
        · simp only [hgo, decide_false, Bool.false_eq_true, if_false]
          rw [i1, i2, i3]
          refine ⟨⟨?_, ?_⟩, ?_, ⟨?_, ?_⟩⟩
          · rintro ⟨b, c, rfl, h⟩
            exact ⟨o :: b, c, rfl, fun x hx => by rcases List.mem_cons.1 hx with rfl | hx; exacts [ho, h x hx]⟩
          · rintro ⟨b, c, he, h⟩
            cases b with
            | nil => simp only [List.nil_append, List.cons.injEq] at he; exact absurd he.1.symm hgo
            | cons x b =>
              simp only [List.cons_append, List.cons.injEq] at he
              exact ⟨b, c, he.2, fun x hx => h x (by simp [hx])⟩
          · simp [hgo, ho]
          · rintro ⟨b, x, c, rfl, h1, h2, h3⟩
            exact ⟨o :: b, x, c, rfl, h1, by simp [hgo, h2], fun x hx => by rcases List.mem_cons.1 hx with rfl | hx; exacts [ho, h3 x hx]⟩
          · rintro ⟨b, x, c, he, h1, h2, h3⟩
            cases b with
            | nil => simp only [List.nil_append, List.cons.injEq] at he; exact absurd ho (he.1 ▸ h1)
            | cons y b =>
              simp only [List.cons_append, List.cons.injEq] at he
              exact ⟨b, x, c, he.2, h1, fun h => h2 (by simp [h]), fun x hx => h3 x (by simp [hx])⟩
      · have e : t.attrIs pick a (some o) = .error .valueError := by
          unfold Tag.attrIs attrEq; rw [hg]; simp [mem_cat, ho]
        have e' : t.attrIn pick a (o :: os) = .error .valueError := by rw [Tag.attrIn, e]; rfl
        rw [e']
        simp only [reduceCtorEq, false_iff, true_iff]
        refine ⟨?_, ?_, [], o, os, rfl, ho, by simp, by simp⟩
        · rintro ⟨b, c, he, h⟩
          cases b with
          | nil => simp only [List.nil_append, List.cons.injEq] at he; exact ho (he.1 ▸ hgv)
          | cons x b => simp only [List.cons_append, List.cons.injEq] at he; exact ho (he.1 ▸ h x (by simp))
        · rintro ⟨_, h⟩; exact ho (h o (by simp))

/-- **C75.** Tokens that are not words (numbers, punctuation, Latin words, Roman numbers, unknown words) have no attribute at all. -/
theorem c75_not_words (pick : Grams → Option Str) (hp : IsChoice pick) (a : Attr) (s : Str)
    (hs : s ∈ [c!"UNKN", c!"PNCT", c!"LATN", c!"ROMN", c!"NUMB,intg", c!"NUMB,real"]) : (⟨s⟩ : Tag).attr pick a = none := by
  rw [(c75_value pick hp _ a).1]
  revert s
  cases a <;> decide

/-- **C75.** The replacement of rare cases: the result has none of them left, and what replaced one is one of the six basic cases.  All of them but
`acc1` are values of `case`. -/
theorem c75_rare (gs : Grams) :
    (∀ g ∈ fixRareCases gs, g ∉ [c!"gen1", c!"gen2", c!"acc1", c!"acc2", c!"loc1", c!"loc2", c!"voct"]) ∧
    (∀ g ∈ fixRareCases gs, g ∈ gs ∨ g ∈ [c!"nomn", c!"gent", c!"accs", c!"loct"]) ∧
    (∀ g ∈ gs, g ∉ [c!"gen1", c!"gen2", c!"acc1", c!"acc2", c!"loc1", c!"loc2", c!"voct"] → g ∈ fixRareCases gs) ∧
    (∀ g ∈ [c!"gen1", c!"gen2", c!"acc2", c!"loc1", c!"loc2", c!"voct"], g ∈ Attr.case.value) ∧ (c!"acc1") ∉ Attr.case.value := by
  have e : ∀ g : Str, g ∉ [c!"gen1", c!"gen2", c!"acc1", c!"acc2", c!"loc1", c!"loc2", c!"voct"] → fixRare1 g = g := by
    intro g hg
    apply fixRare1_common
    simpa [isRareCase] using hg
  have e2 : ∀ g ∈ [c!"gen1", c!"gen2", c!"acc1", c!"acc2", c!"loc1", c!"loc2", c!"voct"], fixRare1 g ∈ [c!"nomn", c!"gent", c!"accs", c!"loct"] := by decide
  have e3 : ∀ g ∈ [c!"nomn", c!"gent", c!"accs", c!"loct"], g ∉ [c!"gen1", c!"gen2", c!"acc1", c!"acc2", c!"loc1", c!"loc2", c!"voct"] := by decide
  refine ⟨?_, ?_, ?_, by decide, by decide⟩
  · intro g hg
    obtain ⟨g', _, rfl⟩ := Finset.mem_image.1 hg
    by_cases h : g' ∈ [c!"gen1", c!"gen2", c!"acc1", c!"acc2", c!"loc1", c!"loc2", c!"voct"]
    · exact e3 _ (e2 _ h)
    · rw [e _ h]; exact h
  · intro g hg
    obtain ⟨g', hg', rfl⟩ := Finset.mem_image.1 hg
    by_cases h : g' ∈ [c!"gen1", c!"gen2", c!"acc1", c!"acc2", c!"loc1", c!"loc2", c!"voct"]
    · exact .inr (e2 _ h)
    · rw [e _ h]; exact .inl hg'
  · intro g hg h
    exact Finset.mem_image.2 ⟨g, hg, e g h⟩

/-- **C75.** A tag is that of an unknown word (for compounds) if its first grammeme is no part of speech; a tag that is not has a `POS`. -/
theorem c75_unknown (pick : Grams → Option Str) (hp : IsChoice pick) (t : Tag) :
    (t.isUnknown = false ↔ ∃ g rest, t.tuple = g :: rest ∧ g ∈ Attr.pos.value) ∧ (t.isUnknown = false → t.attr pick .pos ≠ none) := by
  have hne : ∃ g rest, t.tuple = g :: rest := by
    cases h : t.tuple with
    | nil => exact absurd h (by unfold Tag.tuple splitTag; exact splitC_ne_nil _ _)
    | cons g r => exact ⟨g, r, rfl⟩
  obtain ⟨g, rest, he⟩ := hne
  have h0 : t.isUnknown = false ↔ g ∈ Attr.pos.value := by
    rw [← mem_cat]
    unfold Tag.isUnknown Tag.pos0
    rw [he]
    simp [Attr.cat]
  refine ⟨?_, ?_⟩
  · rw [h0]
    constructor
    · intro h; exact ⟨g, rest, he, h⟩
    · rintro ⟨g', r', he', h⟩
      rw [he] at he'
      simp only [List.cons.injEq] at he'
      rw [he'.1]; exact h
  · intro h hn
    exact ((c75_value pick hp t .pos).1.1 hn) g (h0.1 h) (by rw [he]; simp)

/-- **C75.** Productive: none of the closed parts of speech, and not an adjectival pronoun. -/
theorem c75_productive (t : Tag) :
    t.isProductive = true ↔ ∀ g ∈ [c!"NUMR", c!"NPRO", c!"PRED", c!"PREP", c!"CONJ", c!"PRCL", c!"INTJ", c!"Apro"], g ∉ t.tuple := by
  unfold Tag.isProductive NON_PRODUCTIVE
  rw [decide_eq_true_iff, Finset.eq_empty_iff_forall_notMem]
  simp only [Finset.mem_inter, List.mem_toFinset, Tag.grammemes, not_and]
  constructor
  · intro h g hg ht; exact h g ht hg
  · intro h g ht hg; exact h g hg ht

/-! Non-vacuity. -/
example : ∃ pick, IsChoice pick ∧ (⟨c!"NOUN,inan,masc sing,nomn"⟩ : Tag).attr pick .case = some (c!"nomn") ∧
    (⟨c!"NOUN,inan,masc sing,nomn"⟩ : Tag).attr pick .voice = none ∧
    (⟨c!"NOUN,inan,masc sing,nomn"⟩ : Tag).attrIn pick .case [c!"gent", c!"plur"] = .error .valueError := by
  have hp : IsChoice (fun s : Grams => if h : s ≠ ∅ then some (Classical.choose (Finset.nonempty_iff_ne_empty.2 h)) else none) := by
    intro s hs
    exact ⟨_, Classical.choose_spec (Finset.nonempty_iff_ne_empty.2 hs), by simp [hs]⟩
  have hc := (c75_value _ hp ⟨c!"NOUN,inan,masc sing,nomn"⟩ .case).2.2 (c!"nomn") (by decide) (by decide) (by decide)
  exact ⟨_, hp, hc, (c75_value _ hp _ _).1.2 (by decide), ((c75_in _ hp _ _ _).2 _ hc).2.2.2 ⟨[c!"gent"], c!"plur", [], rfl, by decide, by decide, by decide⟩⟩

end Verif
