/-
C52 — hyphenated words.
-/
import Verif.Lemmas.Deriv
import Verif.Lemmas.DictCheck

set_option linter.unusedSectionVars false

namespace Verif

variable {S : Type} [Score S]

theorem stripC_of_ends (c : Char) (s : Str) (h1 : s.head? ≠ some c) (h2 : s.getLast? ≠ some c) : stripC c s = s := by
  have key : ∀ l : Str, l.head? ≠ some c → l.dropWhile (· == c) = l := by
    intro l hl
    cases l with
    | nil => rfl
    | cons x xs =>
      rw [List.dropWhile_cons_of_neg]
      intro hx; simp at hx; subst hx; simp at hl
  unfold stripC
  rw [key s h1, key s.reverse (by rw [List.head?_reverse]; exact h2), List.reverse_reverse]

/-- Which words the unit considers: exactly one hyphen, inside the word, and no known prefix. -/
theorem c52_should_parse (skip : List Str) (w : Str) :
    hyphenShould skip w = true ↔
      (∃ a b, w = a ++ '-' :: b ∧ a ≠ [] ∧ b ≠ [] ∧ '-' ∉ a ∧ '-' ∉ b) ∧ ∀ p ∈ skip, ¬ p <+: w := by
  constructor
  · intro h
    obtain ⟨h1, h2, h3, h4, h5, h6⟩ := hyphenShould_split skip w h
    refine ⟨⟨_, _, h1, h2, h3, h4, h5⟩, ?_⟩
    intro p hp hpre
    have : isPrefixed skip w = true := List.any_eq_true.2 ⟨p, hp, (startsWith_iff _ _).2 hpre⟩
    rw [h6] at this; exact absurd this (by simp)
  · rintro ⟨⟨a, b, rfl, ha, hb, ha', hb'⟩, hskip⟩
    unfold hyphenShould
    have hs : stripC '-' (a ++ '-' :: b) = a ++ '-' :: b := by
      apply stripC_of_ends
      · cases a with
        | nil => exact absurd rfl ha
        | cons x xs =>
          simp only [List.cons_append, List.head?_cons, ne_eq, Option.some.injEq]
          rintro rfl; exact ha' (by simp)
      · intro e
        have : '-' ∈ b := by
          obtain ⟨y, ys, rfl⟩ : ∃ y ys, b = ys ++ [y] := by
            rcases List.eq_nil_or_concat b with h | ⟨ys, y, h⟩
            · exact absurd h hb
            · exact ⟨y, ys, by simpa using h⟩
          rw [show a ++ '-' :: (ys ++ [y]) = (a ++ '-' :: ys) ++ [y] by simp, List.getLast?_concat] at e
          injection e with e
          simp [e]
        exact hb' this
    have hc : (a ++ '-' :: b).count '-' = 1 := by
      rw [List.count_append, List.count_cons_self, List.count_eq_zero.2 ha', List.count_eq_zero.2 hb']
    have hp : isPrefixed skip (a ++ '-' :: b) = false := by
      rw [Bool.eq_false_iff]
      intro h
      obtain ⟨p, hp, h⟩ := List.any_eq_true.1 h
      exact hskip p hp ((startsWith_iff _ _).1 h)
    simp [hs, hc, hp]

/-- Grammemes that name the part of speech, number, case, person or tense. -/
def compared (g : Str) : Prop := g ∈ PARTS_OF_SPEECH ∨ g ∈ NUMBERS ∨ g ∈ CASES ∨ g ∈ PERSONS ∨ g ∈ TENSES

/-- Two tags agree in part of speech, number, case, person and tense, `gen1` being read as `gent` and `loc1` as `loct`. -/
def SameForm (a b : Tag) : Prop :=
  (∀ g, compared g → g ≠ c!"gen1" → g ≠ c!"gent" → g ≠ c!"loc1" → g ≠ c!"loct" →
    (g ∈ a.grammemes ↔ g ∈ b.grammemes)) ∧
  ((c!"gen1" ∈ a.grammemes ∨ c!"gent" ∈ a.grammemes) ↔ (c!"gen1" ∈ b.grammemes ∨ c!"gent" ∈ b.grammemes)) ∧
  ((c!"loc1" ∈ a.grammemes ∨ c!"loct" ∈ a.grammemes) ↔ (c!"loc1" ∈ b.grammemes ∨ c!"loct" ∈ b.grammemes))

theorem mem_replaceGrammemes2 (x y x' y' : Str) (g : Grams) (k : Str) (h1 : x ≠ y) (h2 : x' ≠ y') (h3 : y ≠ x')
    (h4 : x ≠ x') (h5 : x ≠ y') (h6 : y ≠ y') :
    k ∈ replaceGrammemes [(x, y), (x', y')] g ↔
      (k = y ∧ (x ∈ g ∨ y ∈ g)) ∨ (k = y' ∧ (x' ∈ g ∨ y' ∈ g)) ∨
      (k ≠ x ∧ k ≠ y ∧ k ≠ x' ∧ k ≠ y' ∧ k ∈ g) := by
  simp only [replaceGrammemes, List.foldl_cons, List.foldl_nil]
  by_cases hx : x ∈ g <;> by_cases hx' : x' ∈ g <;>
    simp only [hx, hx', if_true, if_false, Finset.mem_insert, Finset.mem_erase, h3.symm, h4.symm, ne_eq,
      not_false_eq_true, true_and, false_or, not_true_eq_false, false_and] <;>
    by_cases e1 : k = x <;> by_cases e2 : k = y <;> by_cases e3 : k = x' <;> by_cases e4 : k = y' <;> simp_all

theorem similar_iff (a b : Tag) : similarityFeatures a = similarityFeatures b ↔ SameForm a b := by
  have hf : ∀ g, g ∈ FEATURE_GRAMMEMES ↔ compared g := by
    intro g; simp [FEATURE_GRAMMEMES, compared, or_assoc]
  have q1 : c!"gen1" ∈ FEATURE_GRAMMEMES := by decide
  have q2 : c!"gent" ∈ FEATURE_GRAMMEMES := by decide
  have q3 : c!"loc1" ∈ FEATURE_GRAMMEMES := by decide
  have q4 : c!"loct" ∈ FEATURE_GRAMMEMES := by decide
  have hm : ∀ t : Tag, ∀ k, k ∈ similarityFeatures t ↔ _ := fun t k =>
    mem_replaceGrammemes2 (c!"gen1") (c!"gent") (c!"loc1") (c!"loct") (t.grammemes ∩ FEATURE_GRAMMEMES) k
      (by decide) (by decide) (by decide) (by decide) (by decide) (by decide)
  simp only [Finset.mem_inter, q1, q2, q3, q4, and_true] at hm
  constructor
  · intro h
    have hk : ∀ k, k ∈ similarityFeatures a ↔ k ∈ similarityFeatures b := by rw [h]; simp
    simp only [hm] at hk
    refine ⟨?_, ?_, ?_⟩
    · intro g hg h1 h2 h3 h4
      have := hk g
      simpa [h1, h2, h3, h4, (hf g).2 hg] using this
    · have := hk (c!"gent")
      simpa using this
    · have := hk (c!"loct")
      simpa using this
  · rintro ⟨h1, h2, h3⟩
    ext k
    rw [hm, hm, h2, h3]
    refine or_congr Iff.rfl (or_congr Iff.rfl ?_)
    constructor
    · rintro ⟨a1, a2, a3, a4, a5, a6⟩
      exact ⟨a1, a2, a3, a4, (h1 k ((hf k).1 a6) a1 a2 a3 a4).1 a5, a6⟩
    · rintro ⟨a1, a2, a3, a4, a5, a6⟩
      exact ⟨a1, a2, a3, a4, (h1 k ((hf k).1 a6) a1 a2 a3 a4).2 a5, a6⟩

/-- The first grammeme of the tag is not a part of speech (numbers, punctuation, Latin, unknown words). -/
def noPos (t : Tag) : Prop := t.tuple.headD [] ∉ PARTS_OF_SPEECH

/-- C52: what `HyphenatedWordsAnalyzer.parse` returns (up to order).  It answers only for words with exactly one hyphen,
inside the word, that have no known prefix; the answers are exactly
* both parts inflected: a parse of the left half and a parse of the right half that agree in form, joined with a hyphen,
  with the tag of the left part; and
* fixed left part: the literal left half with a parse of the right half, and the tag of the latter. -/
theorem c52_answers (m : Morph S) (rec : Rec S) (u : BUnit S) (skip : List Str) (mult : S)
    (hu : u.cfg = .hyphenated skip mult) (word wl : Str) (seen : Seen) (out : List (Parse S) × Seen)
    (h : unitParse m rec u word wl seen = .ok out) (p : Parse S) :
    p ∈ out.1 ↔ ∃ a b, wl = a ++ '-' :: b ∧ a ≠ [] ∧ b ≠ [] ∧ '-' ∉ a ∧ '-' ∉ b ∧ (∀ q ∈ skip, ¬ q <+: wl) ∧
      ∃ lp rp, rec.parse a = .ok lp ∧ rec.parse b = .ok rp ∧ ∃ r ∈ rp,
        ((∃ l ∈ lp, ¬ noPos l.tag ∧ SameForm l.tag r.tag ∧
            p = ⟨l.word ++ '-' :: r.word, l.tag, l.nf ++ '-' :: r.nf, Score.mul l.score mult,
              .single (.both u.obj l.stack r.stack)⟩) ∨
         (¬ noPos r.tag ∧
            p = ⟨a ++ '-' :: r.word, r.tag, a ++ '-' :: r.nf, Score.mul r.score mult,
              .single (.fixed u.obj a r.stack)⟩)) := by
  have hpos : ∀ t : Tag, (!t.isUnknown) = true ↔ ¬ noPos t := by
    intro t; simp [Tag.isUnknown, noPos, Tag.pos0]
  simp only [unitParse, hu, bind_ok_iff, pure_eq_ok, Except.ok.injEq] at h
  obtain ⟨ps, hps, rfl⟩ := h
  unfold hyphenParse at hps
  split at hps
  swap
  · next hn =>
    simp only [Except.ok.injEq] at hps
    subst hps
    refine ⟨by simp, ?_⟩
    rintro ⟨a, b, h1, h2, h3, h4, h5, h6, _⟩
    exact absurd ((c52_should_parse skip wl).2 ⟨⟨a, b, h1, h2, h3, h4, h5⟩, h6⟩) hn
  next hs =>
  obtain ⟨h1, h2, h3, h4, h5, _⟩ := hyphenShould_split skip wl hs
  have hskip := ((c52_should_parse skip wl).1 hs).2
  simp only [bind_ok_iff, pure_eq_ok, Except.ok.injEq] at hps
  obtain ⟨lp, hlp, rp, hrp, rfl⟩ := hps
  have hmem : p ∈ parseBoth u.obj mult lp rp ++ parseFixed u.obj mult (splitHyphen wl).1 rp ↔ ∃ r ∈ rp,
      ((∃ l ∈ lp, ¬ noPos l.tag ∧ SameForm l.tag r.tag ∧
            p = ⟨l.word ++ '-' :: r.word, l.tag, l.nf ++ '-' :: r.nf, Score.mul l.score mult,
              .single (.both u.obj l.stack r.stack)⟩) ∨
         (¬ noPos r.tag ∧
            p = ⟨(splitHyphen wl).1 ++ '-' :: r.word, r.tag, (splitHyphen wl).1 ++ '-' :: r.nf, Score.mul r.score mult,
              .single (.fixed u.obj (splitHyphen wl).1 r.stack)⟩)) := by
    rw [List.mem_append]
    constructor
    · rintro (hp | hp)
      · obtain ⟨l, hl, r, hr, hk, hsim, rfl⟩ := parseBoth_mem _ _ _ _ _ hp
        exact ⟨r, hr, .inl ⟨l, hl, (hpos _).1 (by simp [hk]), (similar_iff _ _).1 hsim, rfl⟩⟩
      · simp only [parseFixed, List.mem_map, List.mem_filter] at hp
        obtain ⟨r, ⟨hr, hk⟩, rfl⟩ := hp
        exact ⟨r, hr, .inr ⟨(hpos _).1 hk, rfl⟩⟩
    · rintro ⟨r, hr, ⟨l, hl, hk, hsim, rfl⟩ | ⟨hk, rfl⟩⟩
      · refine .inl (List.mem_flatMap.2 ⟨l, hl, ?_⟩)
        have hk := (hpos _).2 hk
        rw [Bool.not_eq_true'] at hk
        rw [hk, if_neg (by simp)]
        exact List.mem_map.2 ⟨r, List.mem_filter.2 ⟨hr, by simp [(similar_iff _ _).2 hsim]⟩, rfl⟩
      · exact .inr (List.mem_map.2 ⟨r, List.mem_filter.2 ⟨hr, (hpos _).2 hk⟩, rfl⟩)
  rw [hmem]
  constructor
  · intro hp
    exact ⟨_, _, h1, h2, h3, h4, h5, hskip, lp, rp, hlp, hrp, hp⟩
  · rintro ⟨a, b, e1, ha, hb, ha', hb', _, lp', rp', hlp', hrp', hp⟩
    have hsp : splitC '-' wl = [a, b] := by
      rw [e1, splitC_append _ _ _ ha', splitC_of_not_mem _ _ hb']
    have hsp' : splitC '-' wl = [(splitHyphen wl).1, (splitHyphen wl).2] := by
      conv => lhs; rw [h1]
      rw [splitC_append _ _ _ h4, splitC_of_not_mem _ _ h5]
    rw [hsp] at hsp'
    simp only [List.cons.injEq, and_true] at hsp'
    obtain ⟨rfl, rfl⟩ := hsp'
    rw [hlp] at hlp'; rw [hrp] at hrp'
    simp only [Except.ok.injEq] at hlp' hrp'
    subst hlp' hrp'
    exact hp

/-! Non-vacuity (tests): a compound whose two halves agree, and one with a fixed left part. -/
example : (Demo.morph.parse (c!"кошка-кошка")).toOption.map (·.map Parse.word) =
    some [c!"кошка-кошка", c!"кошка-кошка"] := by decide +kernel
example : SameForm ⟨c!"NOUN,anim,femn sing,nomn"⟩ ⟨c!"NOUN,inan,masc sing,nomn"⟩ :=
  (similar_iff _ _).1 (by decide +kernel)
example : ¬ SameForm ⟨c!"NOUN,anim,femn sing,nomn"⟩ ⟨c!"NOUN,inan,masc plur,nomn"⟩ :=
  fun h => absurd ((similar_iff _ _).2 h) (by decide +kernel)

end Verif
