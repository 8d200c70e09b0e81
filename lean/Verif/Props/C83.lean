/-
C83 — texts on CPython: the tokenizer with CPython's character classes, and what the analyzers answer for the tokens.
-/
import Verif.Model.CpythonTokens
import Verif.Props.C43
import Verif.Props.C45
import Verif.Props.C80
import Verif.Props.C81

set_option linter.unusedSectionVars false

namespace Verif

open Cpython Unicode

/-! ### The character classes -/

/-- Is one range of the table around the whole range. -/
def covers (t : List (Nat × Nat)) (lo hi : Nat) : Bool := t.any fun r => Nat.ble r.1 lo && Nat.ble hi r.2

theorem inTable_of_covers {t : List (Nat × Nat)} {lo hi : Nat} (h : covers t lo hi = true) (c : Char) (h1 : lo ≤ c.toNat) (h2 : c.toNat ≤ hi) :
    inTable t c = true := by
  unfold covers at h
  rw [List.any_eq_true] at h
  obtain ⟨r, hr, h⟩ := h
  simp only [Bool.and_eq_true, Nat.ble_eq] at h
  unfold inTable
  rw [List.any_eq_true]
  exact ⟨r, hr, by simp only [Bool.and_eq_true, decide_eq_true_eq]; omega⟩

theorem alpha_covered : (alphaTable.all fun r => covers wordTable r.1 r.2) = true := by decide +kernel

theorem zeros_covered : (zeros.all fun z => covers wordTable z (z + 9)) = true := by decide +kernel

theorem space_apart : (spaceTable.all fun r => wordTable.all fun s => Nat.blt r.2 s.1 || Nat.blt s.2 r.1) = true := by decide +kernel

/-- Letters and decimal digits are word characters. -/
theorem word_of_alpha (c : Char) (h : isAlpha c = true) : isWord c = true := by
  unfold isAlpha inTable at h
  rw [List.any_eq_true] at h
  obtain ⟨r, hr, h⟩ := h
  simp only [Bool.and_eq_true, decide_eq_true_eq] at h
  exact inTable_of_covers (List.all_eq_true.1 alpha_covered r hr) c h.1 h.2

theorem word_of_decimal (c : Char) (z : Nat) (hz : z ∈ zeros) (h1 : z ≤ c.toNat) (h2 : c.toNat < z + 10) : isWord c = true :=
  inTable_of_covers (List.all_eq_true.1 zeros_covered z hz) c h1 (by omega)

/-- **C83.** On CPython white space is apart from the word characters: the assumption of C43 holds. -/
theorem c83_spaces : SpacesApart isWord cpython.isSpace := by
  intro c h
  rw [cp_isSpace] at h
  unfold isSpace inTable at h
  rw [List.any_eq_true] at h
  obtain ⟨r, hr, h⟩ := h
  simp only [Bool.and_eq_true, decide_eq_true_eq] at h
  have key : isWord c = false := by
    unfold isWord inTable
    rw [List.any_eq_false]
    intro s hs hc
    have := List.all_eq_true.1 (List.all_eq_true.1 space_apart r hr) s hs
    simp only [Bool.or_eq_true, Nat.blt_eq] at this
    simp only [Bool.and_eq_true, decide_eq_true_eq] at hc
    omega
  refine ⟨key, ?_, ?_⟩
  · rintro rfl
    exact absurd key (by decide +kernel)
  · rintro rfl
    have : isSpace '-' = false := by decide +kernel
    have h' : isSpace '-' = true := by
      unfold isSpace inTable
      rw [List.any_eq_true]
      exact ⟨r, hr, by simp only [Bool.and_eq_true, decide_eq_true_eq]; exact h⟩
    rw [this] at h'; cases h'

/-- A character words are made of, on CPython. -/
abbrev TextChar (c : Char) : Prop := WordChar isWord c

/-- A character that is a token by itself. -/
def Mark (c : Char) : Prop := ¬ TextChar c ∧ isSpace c = false

/-! ### The tokenizer -/

/-- **C83.** `simple_word_tokenize` on CPython, for every text: the tokens are the specified ones, nothing but white space is lost, and the tokens of a text
are those of its tokens separated by blanks. -/
theorem c83_tokens (text : Str) : (∀ ts, TokensOf isWord isSpace text ts ↔ tokenize text = ts) ∧
    (tokenize text).flatten = text.filter (fun c => !isSpace c) ∧ tokenize (joinC ' ' (tokenize text)) = tokenize text := by
  refine ⟨fun ts => c43_tokens isWord cpython c83_spaces text ts, c43_lossless isWord cpython c83_spaces text,
    c43_stable isWord cpython c83_spaces ?_ text⟩
  rw [cp_isSpace]; decide +kernel

/-- **C83.** A text may be cut at any character that is not a word character: the tokens of the two parts are found independently.  So a text can be
tokenized line by line. -/
theorem c83_cut (a b : Str) (c : Char) (hc : ¬ TextChar c) :
    tokenize (a ++ c :: b) = tokenize a ++ (if isSpace c then [] else [[c]]) ++ tokenize b := by
  obtain ⟨ta, ha⟩ := tokens_exist isWord isSpace a
  obtain ⟨tb, hb⟩ := tokens_exist isWord isSpace b
  rw [((c83_tokens a).1 ta).1 ha, ((c83_tokens b).1 tb).1 hb, ← (c83_tokens _).1]
  have hstart : TokensOf isWord isSpace (c :: b) ((if isSpace c then [] else [[c]]) ++ tb) := by
    cases hs : isSpace c with
    | true => exact .space c b tb hs hb
    | false => exact .mark c b tb hc hs hb
  rw [List.append_assoc]
  generalize (if isSpace c then [] else [[c]]) ++ tb = u at hstart
  induction ha with
  | done => exact hstart
  | space d t ts hd h ih => exact .space d _ _ hd ih
  | mark d t ts hd hs h ih => exact .mark d _ _ hd hs ih
  | word w t ts hne hw hmax h ih =>
    rw [List.append_assoc, List.cons_append]
    refine .word w _ _ hne hw ?_ ih
    intro d hd
    cases t with
    | nil => cases hd; exact hc
    | cons x t => cases hd; exact hmax _ rfl

/-- **C83.** A character that is not a word character never shares a token with another character. -/
theorem c83_alone (text t : Str) (ht : t ∈ tokenize text) (c : Char) (hc : c ∈ t) (hw : ¬ TextChar c) : t = [c] := by
  obtain ⟨_, _, ⟨d, rfl, _⟩ | h⟩ := c43_shape isWord cpython c83_spaces text t ht
  · simp only [List.mem_singleton] at hc; rw [hc]
  · exact absurd (h c hc) hw

theorem mark_table : ∀ c ∈ ['\'', '’', '\u0301', '\u0306', '\u0308', '\u00AD', '.', ',', '+', '/', '%', '№', '$', '°'],
    ¬ TextChar c ∧ isSpace c = false := by decide +kernel

/-- **C83, defect.** Apostrophes, stress marks and other combining accents, soft hyphens, points and commas are such characters: a word written with one inside
is never a token (Ukrainian п'ять, stressed за́мок, й as two characters, 2.5). -/
theorem c83_split (x y : Str) (c : Char) (hx : x ≠ []) (hy : y ≠ []) (hxw : ∀ d ∈ x, TextChar d) (hyw : ∀ d ∈ y, TextChar d)
    (hc : c ∈ ['\'', '’', '\u0301', '\u0306', '\u0308', '\u00AD', '.', ',', '+', '/', '%', '№', '$', '°']) :
    tokenize (x ++ c :: y) = [x, [c], y] ∧ ∀ text, x ++ c :: y ∉ tokenize text := by
  obtain ⟨h1, h2⟩ := mark_table c hc
  constructor
  · rw [c83_cut x y c h1, h2]
    have one : ∀ z : Str, z ≠ [] → (∀ d ∈ z, TextChar d) → tokenize z = [z] := by
      intro z hz hzw
      rw [← (c83_tokens z).1]
      have := TokensOf.word (isSpace := isSpace) z [] [] hz hzw (by simp) .done
      rwa [List.append_nil] at this
    rw [one x hx hxw, one y hy hyw]
    rfl
  · intro text ht
    have := congrArg List.length (c83_alone text _ ht c (by simp) h1)
    have hl : x.length ≠ 0 := fun h => hx (List.length_eq_zero_iff.1 h)
    simp at this
    omega

/-! ### Marks -/

theorem mark_not_alpha {c : Char} (h : Mark c) : isAlpha c = false := by
  cases ha : isAlpha c with
  | false => rfl
  | true =>
    refine absurd ⟨.inl (word_of_alpha c ha), ?_⟩ h.1
    rintro rfl
    exact absurd ha (by decide +kernel)

theorem mark_not_tangut {c : Char} (h : Mark c) : isTangut c = false := by
  cases ht : isTangut c with
  | false => rfl
  | true => have := mark_not_alpha h; rw [tangut_alpha c ht] at this; cases this

theorem mark_no_digit {c : Char} (h : Mark c) : cDigit (asciiOf c) = false := by
  have no : ∀ z ∈ zeros, ¬ (z ≤ c.toNat ∧ c.toNat < z + 10) := by
    intro z hz hc
    refine h.1 ⟨.inl (word_of_decimal c z hz hc.1 hc.2), ?_⟩
    rintro rfl
    have h1 : (zeros.all fun z => Nat.blt 43 z) = true := by decide +kernel
    have := List.all_eq_true.1 h1 z hz
    simp only [Nat.blt_eq] at this
    exact absurd hc.1 (by simp; omega)
  unfold asciiOf
  split
  · unfold cDigit
    have := no 48 (by decide +kernel)
    simp only [Bool.and_eq_false_iff, decide_eq_false_iff_not]
    omega
  · rw [if_neg (by rw [h.2]; simp)]
    split
    · next z hz =>
      have h1 := List.mem_of_find?_eq_some hz
      have h2 := List.find?_some hz
      simp only [Bool.and_eq_true, decide_eq_true_eq] at h2
      exact absurd h2 (no z h1)
    · decide

theorem single_not_int (c : Char) (h : cDigit c = false) : intAscii [c] = false := by
  unfold intAscii
  have : ∀ s : Str, (s = [] ∨ s = [c]) → (scanDigits '_' 0 s = none) := by
    rintro s (rfl | rfl)
    · simp [scanDigits]
    · simp [scanDigits, h]
  have hs : skipSign (List.dropWhile cSpace [c]) = [] ∨ skipSign (List.dropWhile cSpace [c]) = [c] := by
    rw [List.dropWhile_cons]
    split
    · exact .inl rfl
    · show (if c = '+' ∨ c = '-' then [] else [c]) = _ ∨ (if c = '+' ∨ c = '-' then [] else [c]) = _
      split <;> simp
  rw [this _ hs]

theorem single_not_float (c : Char) (h : cDigit c = false) : (underscoresOk ' ' (strip [c]) && floatAscii ((strip [c]).filter (· ≠ '_'))) = false := by
  have hs : strip [c] = [] ∨ strip [c] = [c] := by
    unfold strip
    by_cases hc : cSpace c = true
    · left; simp [hc]
    · right; simp [hc]
  rw [Bool.and_eq_false_iff]
  right
  have hf : (strip [c]).filter (· ≠ '_') = [] ∨ (strip [c]).filter (· ≠ '_') = [c] := by
    rcases hs with h | h <;> rw [h]
    · left; rfl
    · by_cases hc : c = '_'
      · left; simp [hc]
      · right; simp [hc]
  have no : ∀ s : Str, (s = [] ∨ s = [c]) → decimalOk s = false ∧ s.map asciiLower ∉ [c!"inf", c!"infinity", c!"nan"] := by
    rintro s (rfl | rfl)
    · exact ⟨by decide, by decide⟩
    · refine ⟨?_, by simp⟩
      by_cases hp : c = '.'
      · subst hp; decide
      · rw [decimalOk_other]
        · simp [h]
        · intro r hr
          simp [h] at hr
          exact hp hr.1
  have hk : ∀ s : Str, (s = [] ∨ s = [c]) → skipSign s = [] ∨ skipSign s = [c] := by
    rintro s (rfl | rfl)
    · exact .inl rfl
    · show (if c = '+' ∨ c = '-' then [] else [c]) = _ ∨ (if c = '+' ∨ c = '-' then [] else [c]) = _
      split <;> simp
  obtain ⟨h1, h2⟩ := no _ (hk _ hf)
  unfold floatAscii
  rw [h1, decide_eq_false h2]
  rfl

theorem comma_point (c : Char) (h : cDigit (asciiOf c) = false) : cDigit (asciiOf (if c = ',' then '.' else c)) = false := by
  split
  · decide
  · exact h

/-- A mark is no number. -/
theorem mark_no_number {c : Char} (h : Mark c) : cpython.isInt [c] = false ∧ ¬ SaysFloat cpython [c] := by
  have hd := mark_no_digit h
  constructor
  · exact single_not_int _ hd
  · intro hf
    have := single_not_float _ (comma_point c hd)
    have hf' : isFloat [if c = ',' then '.' else c] = true := hf
    exact absurd (hf'.symm.trans this) (by decide)

theorem ascii_alpha (c : Char) (h : (65 ≤ c.toNat ∧ c.toNat ≤ 90) ∨ (97 ≤ c.toNat ∧ c.toNat ≤ 122)) : isAlpha c = true := by
  rcases h with h | h
  · exact inTable_of_covers (lo := 65) (hi := 90) (by decide +kernel) c h.1 h.2
  · exact inTable_of_covers (lo := 97) (hi := 122) (by decide +kernel) c h.1 h.2

theorem mark_not_roman {c : Char} (h : Mark c) : isRomanNumber cpython [c] = false := by
  have ha := mark_not_alpha h
  have hb : ¬ ((65 ≤ c.toNat ∧ c.toNat ≤ 90) ∨ (97 ≤ c.toNat ∧ c.toNat ≤ 122)) := fun hb => by rw [ascii_alpha c hb] at ha; cases ha
  show romanMatch [reFold c] = false
  have hI : ¬ (c = 'İ' ∨ c = 'ı') := by
    rintro (rfl | rfl)
    · exact absurd ha (by decide +kernel)
    · exact absurd ha (by decide +kernel)
  have hf : reFold c = c := by
    unfold reFold
    rw [if_neg hI, if_neg (fun hc => hb (.inr hc))]
  rw [hf]
  refine roman_ne c [] ?_
  intro hc
  simp only [List.mem_cons, List.not_mem_nil, or_false] at hc
  have hs := h.2
  rcases hc with rfl | rfl | rfl | rfl | rfl | rfl | rfl | rfl
  all_goals first
    | exact hb (by decide)
    | exact absurd hs (by decide +kernel)

theorem mark_not_latin {c : Char} (h : Mark c) : isLatin cpython [c] = .ok false := by
  unfold isLatin
  have : ([c].any cpython.isAlpha) = false := by
    rw [cp_isAlpha]
    simp [mark_not_alpha h]
  rw [this]
  rfl

theorem mark_not_initial {c : Char} (h : Mark c) : ¬ RuInitial [c] ∧ ¬ UkInitial [c] := by
  have ha := mark_not_alpha h
  have key : ∀ d, d = 'Ё' ∨ d = 'Ґ' ∨ d = 'Є' ∨ d = 'І' ∨ d = 'Ї' ∨ ('А' ≤ d ∧ d ≤ 'Я') → isAlpha d = true := by
    rintro d (rfl | rfl | rfl | rfl | rfl | ⟨h1, h2⟩)
    · decide +kernel
    · decide +kernel
    · decide +kernel
    · decide +kernel
    · decide +kernel
    · exact inTable_of_covers (lo := 1040) (hi := 1071) (by decide +kernel) d h1 h2
  constructor
  · rintro ⟨d, hd, hc⟩
    cases hd
    rw [key] at ha
    · cases ha
    · rcases hc with h | h
      · exact .inl h
      · exact .inr (.inr (.inr (.inr (.inr ⟨h.1, h.2.1⟩))))
  · rintro ⟨d, hd, hc⟩
    cases hd
    rw [key] at ha
    · cases ha
    · rcases hc with h | h | h | h | h
      · exact .inr (.inl h)
      · exact .inr (.inr (.inl h))
      · exact .inr (.inr (.inr (.inl h)))
      · exact .inr (.inr (.inr (.inr (.inl h))))
      · exact .inr (.inr (.inr (.inr (.inr ⟨h.1, h.2.1⟩))))

theorem lower_single (c : Char) : (cpython.lower [c]).length ≤ 2 := by
  show (lowerAt [] c [] ++ []).length ≤ 2
  rw [List.append_nil]
  unfold lowerAt lowerFull
  split
  · split <;> simp
  · split <;> simp

variable {S : Type} [Score S]

/-- Words of one or two letters have no parts. -/
theorem short_no_parts (m : Morph S) (D : RuleData) (hD : ∀ p ∈ D.particles, 2 ≤ p.length) (w : Str) (hw : (m.env.lower w).length ≤ 2) :
    ¬ Rule.particle.applies m D w ∧ ¬ Rule.adverb.applies m D w ∧ ¬ Rule.compound.applies m D w ∧ ¬ Rule.prefixed.applies m D w := by
  have pos : ∀ l : Str, l ≠ [] → 1 ≤ l.length := fun l h => by
    cases l with
    | nil => exact absurd rfl h
    | cons => simp
  refine ⟨?_, ?_, ?_, ?_⟩
  · rintro ⟨rest, part, hp, hr, he⟩
    rw [he, List.length_append] at hw
    have := hD part hp
    have := pos rest hr
    omega
  · rintro ⟨rest, he, _⟩
    rw [he] at hw
    simp at hw
  · rintro ⟨a, b, he, ha, hb, _⟩
    rw [he] at hw
    have := pos a ha
    have := pos b hb
    simp at hw
    omega
  · rintro ⟨pre, _, rest, he, hr, _⟩
    rw [he, List.length_append] at hw
    omega

theorem guess_short (m : Morph S) (D : RuleData) (w : Str) (ps : List (Parse S)) (hne : ps ≠ []) (h1 : (m.env.lower w).length ≤ 3) (h2 : w.length ≤ 3)
    (h : Rule.guess.answers m D w ps) : Only m w (c!"UNKN") ps := by
  rcases h with h | h
  · exact h
  · obtain ⟨p, hp⟩ := List.exists_mem_of_ne_nil _ hne
    rcases h p hp with ⟨_, h⟩ | ⟨_, h⟩
    · omega
    · omega

/-- **C83.** A mark that is not in the dictionary is analyzed as punctuation if its category is punctuation, else as unknown; there is no other answer. -/
theorem c83_mark (m : Morph S) (hm : IsRu m ∨ IsUk m) (he : m.env = cpython) (c : Char) (hc : Mark c) (hu : m.wordIsKnown [c] = false)
    (ps : List (Parse S)) (h : m.parse [c] = .ok ps) :
    (isPunct c = true → Only m [c] (c!"PNCT") ps) ∧ (isPunct c = false → Only m [c] (c!"UNKN") ps) := by
  have hlow : m.env.LowerStable := he ▸ c80_lower_stable
  have hlen : (m.env.lower [c]).length ≤ 2 := by rw [he]; exact lower_single c
  obtain ⟨hr, hk⟩ := mark_not_initial hc
  have hnum := mark_no_number hc
  have hp : isPunctuation m.env [c] = isPunct c := by
    rw [he]
    unfold isPunctuation isSpaceStr
    rw [cp_isSpace, cp_isPunct]
    simp [hc.2]
  have no_word : ∀ D : RuleData, ¬ D.initial [c] → ¬ Rule.word.applies m D [c] ∧ ¬ Rule.wordOrForeign.applies m D [c] := by
    intro D hD
    constructor
    · rintro (h | h)
      · rw [hu] at h; cases h
      · exact hD h
    · rintro (h | h | h | h)
      · rw [hu] at h; cases h
      · exact hD h
      · rw [he, mark_not_roman hc] at h; cases h
      · rw [he, mark_not_latin hc] at h; cases h
  have no_number : ∀ D : RuleData, ¬ Rule.number.applies m D [c] := by
    rintro D (h | h)
    · rw [he, hnum.1] at h; cases h
    · rw [he] at h; exact hnum.2 h
  have no_foreign : ∀ D : RuleData, ¬ Rule.foreign.applies m D [c] := by
    rintro D (h | h)
    · rw [he, mark_not_roman hc] at h; cases h
    · rw [he, mark_not_latin hc] at h; cases h
  have punct : ∀ D : RuleData, Rule.punct.applies m D [c] ↔ isPunct c = true := by
    intro D
    show isPunctuation m.env [c] = true ↔ _
    rw [hp]
  rcases hm with hm | hm
  · obtain ⟨n1, n2, n3, n4⟩ := short_no_parts m ruData (by decide) [c] hlen
    constructor
    · intro hpc
      refine (c71_ru m hm hlow [c] ps h [.word, .number] .punct _ rfl ?_ ((punct _).2 hpc)).2
      intro σ hσ
      simp only [List.mem_cons, List.not_mem_nil, or_false] at hσ
      rcases hσ with rfl | rfl
      · exact (no_word _ hr).1
      · exact no_number _
    · intro hpc
      have := c71_ru m hm hlow [c] ps h [.word, .number, .punct, .foreign, .particle, .adverb, .compound, .prefixed] .guess _ rfl ?_ trivial
      · exact guess_short m ruData [c] ps this.1 (by omega) (by simp) this.2
      · intro σ hσ
        simp only [List.mem_cons, List.not_mem_nil, or_false] at hσ
        rcases hσ with rfl | rfl | rfl | rfl | rfl | rfl | rfl | rfl
        · exact (no_word _ hr).1
        · exact no_number _
        · rw [punct, hpc]; simp
        · exact no_foreign _
        · exact n1
        · exact n2
        · exact n3
        · exact n4
  · obtain ⟨n1, n2, n3, n4⟩ := short_no_parts m ukData (by decide) [c] hlen
    constructor
    · intro hpc
      refine (c71_uk m hm hlow [c] ps h [.wordOrForeign, .number] .punct _ rfl ?_ ((punct _).2 hpc)).2
      intro σ hσ
      simp only [List.mem_cons, List.not_mem_nil, or_false] at hσ
      rcases hσ with rfl | rfl
      · exact (no_word _ hk).2
      · exact no_number _
    · intro hpc
      have := c71_uk m hm hlow [c] ps h [.wordOrForeign, .number, .punct, .particle, .compound, .prefixed] .guess _ rfl ?_ trivial
      · exact guess_short m ukData [c] ps this.1 (by omega) (by simp) this.2
      · intro σ hσ
        simp only [List.mem_cons, List.not_mem_nil, or_false] at hσ
        rcases hσ with rfl | rfl | rfl | rfl | rfl | rfl
        · exact (no_word _ hk).2
        · exact no_number _
        · rw [punct, hpc]; simp
        · exact n1
        · exact n3
        · exact n4

/-- **C83, whole texts.** With the default units over a sound dictionary, every token of a text without Tangut ideographs is analyzed, by `parse` and by `tag`;
the marks that are not in the dictionary come out as PNCT or UNKN. -/
theorem c83_text (m : Morph Rat) (hm : IsRu m ∨ IsUk m) (he : m.env = cpython) (hd : m.dict.WF)
    (hk : ∀ g ∈ [c!"ADJF", c!"sing", c!"datv"], g ∈ m.cls.known) (hp : m.DataComplete) (text : Str) (hw : ∀ c ∈ text, isTangut c = false)
    (t : Str) (ht : t ∈ tokenize text) :
    ∃ ps ts, m.parse t = .ok ps ∧ ps ≠ [] ∧ m.tag t = .ok ts ∧ ts ≠ [] ∧
      ∀ c, t = [c] → ¬ TextChar c → m.wordIsKnown t = false → Only m t (if isPunct c then c!"PNCT" else c!"UNKN") ps := by
  have hsub : ∀ c ∈ t, isTangut c = false := by
    intro c hc
    have : c ∈ (tokenize text).flatten := List.mem_flatten.2 ⟨t, ht, hc⟩
    rw [(c83_tokens text).2.1] at this
    exact hw c (List.mem_filter.1 this).1
  obtain ⟨⟨ps, h1, h2, _⟩, ts, h3, h4⟩ := c80_total m hm he hd hk hp t hsub
  refine ⟨ps, ts, h1, h2, h3, h4, ?_⟩
  rintro c rfl hc hu
  have hs : isSpace c = false := (c43_shape isWord cpython c83_spaces text [c] ht).2.1 c (by simp)
  obtain ⟨k1, k2⟩ := c83_mark m hm he c ⟨hc, hs⟩ hu ps h1
  cases hpc : isPunct c with
  | true => exact k1 hpc
  | false => exact k2 hpc

/-! ### Non-vacuity -/

/-- A text with a stressed word, an apostrophe, a number with a comma and signs, on CPython with the small dictionary. -/
example : tokenize (c!"За\u0301мок п'ять 2,5-10 «ёж»+№ 1…\n") =
    [c!"За", c!"\u0301", c!"мок", c!"п", c!"'", c!"ять", c!"2", c!",", c!"5-10", c!"«", c!"ёж", c!"»", c!"+", c!"№", c!"1", c!"…"] := by
  decide +kernel

example : (∀ t ∈ tokenize (c!"За\u0301мок п'ять 2,5-10 «ёж»+№ 1…\n"), ∃ ps ts, Demo.morphC.parse t = .ok ps ∧ ps ≠ [] ∧ Demo.morphC.tag t = .ok ts ∧ ts ≠ []) ∧
    (∃ ps, Demo.morphC.parse (c!"«") = .ok ps ∧ Only Demo.morphC (c!"«") (c!"PNCT") ps) ∧
    (∃ ps, Demo.morphC.parse (c!"+") = .ok ps ∧ Only Demo.morphC (c!"+") (c!"UNKN") ps) ∧
    (∃ ps, Demo.morphC.parse (c!"\u0301") = .ok ps ∧ Only Demo.morphC (c!"\u0301") (c!"UNKN") ps) := by
  have key := fun text hw t ht => c83_text Demo.morphC (.inl Demo.morphC_isRu) rfl Demo.dict_wf (by decide +kernel)
    (by intro dawg h; simp [Demo.morphC, Demo.morph] at h) text hw t ht
  refine ⟨fun t ht => ?_, ?_, ?_, ?_⟩
  · obtain ⟨ps, ts, h1, h2, h3, h4, _⟩ := key _ (by decide) t ht
    exact ⟨ps, ts, h1, h2, h3, h4⟩
  · obtain ⟨ps, _, h1, _, _, _, h⟩ := key (c!"«") (by decide) (c!"«") (by decide +kernel)
    refine ⟨ps, h1, ?_⟩
    have := h '«' rfl (by decide +kernel) (by decide +kernel)
    rwa [if_pos (by decide +kernel)] at this
  · obtain ⟨ps, _, h1, _, _, _, h⟩ := key (c!"+") (by decide) (c!"+") (by decide +kernel)
    refine ⟨ps, h1, ?_⟩
    have := h '+' rfl (by decide +kernel) (by decide +kernel)
    rwa [if_neg (by decide +kernel)] at this
  · obtain ⟨ps, _, h1, _, _, _, h⟩ := key (c!"\u0301") (by decide) (c!"\u0301") (by decide +kernel)
    refine ⟨ps, h1, ?_⟩
    have := h '\u0301' rfl (by decide +kernel) (by decide +kernel)
    rwa [if_neg (by decide +kernel)] at this

end Verif
