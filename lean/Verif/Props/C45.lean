/-
C45 — Roman numbers; C46 — Latin and punctuation shapes.
-/
import Verif.Model.Shapes
import Verif.Demo
import Verif.Lemmas.DictCheck

namespace Verif

/-! ### C45 -/

/-- The values of the Roman symbols and subtractive pairs, largest first. -/
def romanTable : List (Nat × Str) := [(1000, c!"M"), (900, c!"CM"), (500, c!"D"), (400, c!"CD"), (100, c!"C"),
  (90, c!"XC"), (50, c!"L"), (40, c!"XL"), (10, c!"X"), (9, c!"IX"), (5, c!"V"), (4, c!"IV"), (1, c!"I")]

/-- Greedy notation: write each symbol as often as it fits. -/
def romanGreedy : List (Nat × Str) → Nat → Str
  | [], _ => []
  | (v, s) :: rest, n => (List.replicate (n / v) s).flatten ++ romanGreedy rest (n % v)

/-- The canonical Roman numeral of a number. -/
def roman (n : Nat) : Str := romanGreedy romanTable n

/-- The value of a Roman numeral: a symbol before a larger one is subtracted. -/
def romanValue : Str → Int
  | [] => 0
  | [x] => v x
  | x :: y :: r => (if v x < v y then - v x else v x) + romanValue (y :: r)
where v (c : Char) : Int :=
  if c = 'M' then 1000 else if c = 'D' then 500 else if c = 'C' then 100 else if c = 'L' then 50
  else if c = 'X' then 10 else if c = 'V' then 5 else if c = 'I' then 1 else 0

theorem reAlt_iff (alts : List Str) (k : Str → Bool) (s : Str) :
    reAlt alts k s = true ↔ ∃ a ∈ alts, ∃ r, s = a ++ r ∧ k r = true := by
  simp only [reAlt, List.any_eq_true, Bool.and_eq_true, List.isPrefixOf_iff_prefix]
  constructor
  · rintro ⟨a, ha, ⟨r, rfl⟩, h⟩
    exact ⟨a, ha, r, rfl, by simpa using h⟩
  · rintro ⟨a, ha, r, rfl, h⟩
    exact ⟨a, ha, ⟨r, rfl⟩, by simpa using h⟩

theorem reEnd_iff (s : Str) : reEnd s = true ↔ s = [] ∨ s = ['\n'] := by
  simp [reEnd]

/-- The digits of the regular expression, by value. -/
def rT (a : Nat) : Str := List.replicate a 'M'
def rH : Nat → Str
  | 0 => [] | 1 => c!"C" | 2 => c!"CC" | 3 => c!"CCC" | 4 => c!"CD" | 5 => c!"D" | 6 => c!"DC" | 7 => c!"DCC"
  | 8 => c!"DCCC" | _ => c!"CM"
def rX : Nat → Str
  | 0 => [] | 1 => c!"X" | 2 => c!"XX" | 3 => c!"XXX" | 4 => c!"XL" | 5 => c!"L" | 6 => c!"LX" | 7 => c!"LXX"
  | 8 => c!"LXXX" | _ => c!"XC"
def rI : Nat → Str
  | 0 => [] | 1 => c!"I" | 2 => c!"II" | 3 => c!"III" | 4 => c!"IV" | 5 => c!"V" | 6 => c!"VI" | 7 => c!"VII"
  | 8 => c!"VIII" | _ => c!"IX"

theorem roman_digits : ∀ a < 5, ∀ b < 10, ∀ c < 10, ∀ d < 10,
    roman (1000 * a + 100 * b + 10 * c + d) = rT a ++ rH b ++ rX c ++ rI d := by decide +kernel

theorem roman_value_digits : ∀ a < 5, ∀ b < 10, ∀ c < 10, ∀ d < 10,
    romanValue (roman (1000 * a + 100 * b + 10 * c + d)) = ((1000 * a + 100 * b + 10 * c + d : Nat) : Int) := by
  decide +kernel

theorem digits (n : Nat) (h : n < 5000) : n / 1000 < 5 ∧ n / 100 % 10 < 10 ∧ n / 10 % 10 < 10 ∧ n % 10 < 10 ∧
    1000 * (n / 1000) + 100 * (n / 100 % 10) + 10 * (n / 10 % 10) + n % 10 = n := by omega

theorem mem_romanThousands (s : Str) : s ∈ romanThousands ↔ ∃ a < 5, s = rT a := by
  constructor
  · intro h
    have : ∀ s ∈ romanThousands, ∃ a < 5, s = rT a := by decide
    exact this s h
  · rintro ⟨a, ha, rfl⟩
    have : ∀ a < 5, rT a ∈ romanThousands := by decide
    exact this a ha

theorem mem_romanHundreds (s : Str) : s ∈ romanHundreds ↔ ∃ a < 10, s = rH a := by
  constructor
  · intro h
    have : ∀ s ∈ romanHundreds, ∃ a < 10, s = rH a := by decide
    exact this s h
  · rintro ⟨a, ha, rfl⟩
    have : ∀ a < 10, rH a ∈ romanHundreds := by decide
    exact this a ha

theorem mem_romanTens (s : Str) : s ∈ romanTens ↔ ∃ a < 10, s = rX a := by
  constructor
  · intro h
    have : ∀ s ∈ romanTens, ∃ a < 10, s = rX a := by decide
    exact this s h
  · rintro ⟨a, ha, rfl⟩
    have : ∀ a < 10, rX a ∈ romanTens := by decide
    exact this a ha

theorem mem_romanOnes (s : Str) : s ∈ romanOnes ↔ ∃ a < 10, s = rI a := by
  constructor
  · intro h
    have : ∀ s ∈ romanOnes, ∃ a < 10, s = rI a := by decide
    exact this s h
  · rintro ⟨a, ha, rfl⟩
    have : ∀ a < 10, rI a ∈ romanOnes := by decide
    exact this a ha

theorem romanMatch_iff (s : Str) : romanMatch s = true ↔ ∃ n < 5000, s = roman n ∨ s = roman n ++ ['\n'] := by
  simp only [romanMatch, reAlt_iff, reEnd_iff]
  constructor
  · rintro ⟨t, ht, _, rfl, h, hh, _, rfl, x, hx, _, rfl, i, hi, e, rfl, he⟩
    obtain ⟨a, ha, rfl⟩ := (mem_romanThousands _).1 ht
    obtain ⟨b, hb, rfl⟩ := (mem_romanHundreds _).1 hh
    obtain ⟨c, hc, rfl⟩ := (mem_romanTens _).1 hx
    obtain ⟨d, hd, rfl⟩ := (mem_romanOnes _).1 hi
    refine ⟨1000 * a + 100 * b + 10 * c + d, by omega, ?_⟩
    rw [roman_digits a ha b hb c hc d hd]
    rcases he with rfl | rfl
    · left; simp
    · right; simp
  · rintro ⟨n, hn, h⟩
    obtain ⟨ha, hb, hc, hd, he⟩ := digits n hn
    have hr := roman_digits _ ha _ hb _ hc _ hd
    rw [he] at hr
    rw [hr] at h
    refine ⟨_, (mem_romanThousands _).2 ⟨_, ha, rfl⟩, _, ?_, _, (mem_romanHundreds _).2 ⟨_, hb, rfl⟩, _, rfl,
      _, (mem_romanTens _).2 ⟨_, hc, rfl⟩, _, rfl, _, (mem_romanOnes _).2 ⟨_, hd, rfl⟩,
      if s = rT (n / 1000) ++ rH (n / 100 % 10) ++ rX (n / 10 % 10) ++ rI (n % 10) then [] else ['\n'], rfl, ?_⟩
    · rcases h with h | h
      · rw [if_pos h]; rw [h]; simp
      · rw [if_neg, h]
        · simp
        · rw [h]; simp
    · split <;> simp

/-- C45: `is_roman_number` accepts exactly the canonical numerals of 1…4999 in any letter case, optionally followed by one
newline — and, besides, the string consisting of a single newline (`roman 0` is empty). -/
theorem c45_roman (e : Env) (t : Str) :
    isRomanNumber e t = true ↔
      (∃ n, 1 ≤ n ∧ n ≤ 4999 ∧ (t.map e.reFold = roman n ∨ t.map e.reFold = roman n ++ ['\n'])) ∨
      t.map e.reFold = ['\n'] := by
  have h0 : roman 0 = [] := by decide
  have hne : ∀ n, 1 ≤ n → n < 5000 → roman n ≠ [] := by
    intro n h1 h2 e
    obtain ⟨ha, hb, hc, hd, he⟩ := digits n h2
    have := roman_value_digits _ ha _ hb _ hc _ hd
    rw [he, e] at this
    simp [romanValue] at this; omega
  unfold isRomanNumber
  by_cases ht : t = []
  · subst ht
    simp only [List.isEmpty_nil, if_true, List.map_nil, Bool.false_eq_true, false_iff, not_or, not_exists, not_and]
    refine ⟨?_, by simp⟩
    intro n h1 h2
    exact ⟨fun h => hne n h1 (by omega) h.symm, by simp⟩
  · rw [if_neg (by simpa using ht), romanMatch_iff]
    constructor
    · rintro ⟨n, hn, h⟩
      rcases Nat.eq_zero_or_pos n with rfl | hp
      · rw [h0] at h
        right
        rcases h with h | h
        · exact absurd (List.map_eq_nil_iff.1 h) ht
        · simpa using h
      · exact .inl ⟨n, hp, by omega, h⟩
    · rintro (⟨n, h1, h2, h⟩ | h)
      · exact ⟨n, by omega, h⟩
      · exact ⟨0, by omega, .inr (by rw [h0]; simpa using h)⟩

/-- Different numbers have different numerals (the value can be read off). -/
theorem c45_injective (m n : Nat) (hm : m ≤ 4999) (hn : n ≤ 4999) : (romanValue (roman n) = n) ∧ (roman m = roman n → m = n) := by
  have key : ∀ n ≤ 4999, romanValue (roman n) = (n : Int) := by
    intro n hn
    obtain ⟨ha, hb, hc, hd, he⟩ := digits n (by omega)
    have := roman_value_digits _ ha _ hb _ hc _ hd
    rwa [he] at this
  refine ⟨key n hn, fun h => ?_⟩
  have h1 := key m hm
  rw [h, key n hn] at h1
  omega

/-- The empty string is not accepted. -/
theorem c45_empty (e : Env) : isRomanNumber e [] = false := rfl

/-- A lone newline is accepted as a Roman number, and the analyzer therefore tags it `ROMN`. -/
theorem c45_newline_defect : (∀ e : Env, e.reFold '\n' = '\n' → isRomanNumber e ['\n'] = true) ∧
    (Demo.morph.parse ['\n']).toOption.map (·.map (·.tag.str)) = some [c!"ROMN"] := by
  constructor
  · intro e h
    rw [c45_roman]
    right; simp [h]
  · decide +kernel

example : roman 1994 = c!"MCMXCIV" := by decide
example : isRomanNumber demoEnv (c!"mcmxciv") = true := by decide
example : isRomanNumber demoEnv (c!"XIIIII") = false := by decide

/-! ### C46 -/

/-- The character has a Unicode name, and it contains the word LATIN. -/
def isLatinLetter (e : Env) (c : Char) : Prop := ∃ n, e.charName c = some n ∧ c!"LATIN" <:+: n

theorem allLatin_true (e : Env) (t : Str) :
    allLatin e t = .ok true ↔ ∀ c ∈ t, e.isAlpha c = true → isLatinLetter e c := by
  induction t with
  | nil => simp [allLatin]
  | cons c cs ih =>
    rw [allLatin]
    by_cases ha : e.isAlpha c = true
    · rw [if_pos ha]
      cases hn : e.charName c with
      | none => simp [isLatinChar, isLatinLetter, hn, ha]
      | some n =>
        have hl : isLatinLetter e c ↔ isSub (c!"LATIN") n = true := by
          rw [isSub_iff]; simp [isLatinLetter, hn]
        by_cases hs : isSub (c!"LATIN") n = true
        · simp [isLatinChar, hn, hs, ih, hl, ha]
        · simp only [isLatinChar, hn, ok_bind, hs, pure_eq_ok]
          simp [hl, hs, ha]
    · rw [if_neg ha, ih]
      simp [ha]

/-- C46: `is_latin(t)` is `True` iff `t` has a letter and all its letters are Latin. -/
theorem c46_is_latin (e : Env) (t : Str) :
    isLatin e t = .ok true ↔ (∃ c ∈ t, e.isAlpha c = true) ∧ ∀ c ∈ t, e.isAlpha c = true → isLatinLetter e c := by
  unfold isLatin
  by_cases h : t.any e.isAlpha = true
  · rw [if_pos h, allLatin_true]
    simp only [List.any_eq_true] at h
    simp [h]
  · rw [if_neg h]
    simp only [List.any_eq_true] at h
    simp [h]

/-- C46: it returns a Boolean whenever all letters of `t` have Unicode names; it can only raise `ValueError`. -/
theorem c46_is_latin_total (e : Env) (t : Str) :
    ((∀ c ∈ t, e.isAlpha c = true → (e.charName c).isSome = true) → ∃ b, isLatin e t = .ok b) ∧
    (∀ x, isLatin e t = .error x → x = .valueError ∧ ∃ c ∈ t, e.isAlpha c = true ∧ e.charName c = none) := by
  have key : (∃ b, allLatin e t = .ok b) ∨
      (allLatin e t = .error .valueError ∧ ∃ c ∈ t, e.isAlpha c = true ∧ e.charName c = none) := by
    induction t with
    | nil => simp [allLatin]
    | cons c cs ih =>
      rw [allLatin]
      by_cases ha : e.isAlpha c = true
      · rw [if_pos ha]
        cases hn : e.charName c with
        | none => exact .inr ⟨by simp [isLatinChar, hn], c, by simp, ha, hn⟩
        | some n =>
          by_cases hs : isSub (c!"LATIN") n = true
          · simp only [isLatinChar, hn, ok_bind, hs, if_true]
            rcases ih with h | ⟨h, c', hc', h'⟩
            · exact .inl h
            · exact .inr ⟨h, c', by simp [hc'], h'⟩
          · simp only [isLatinChar, hn, ok_bind, hs]; simp
      · rw [if_neg ha]
        rcases ih with h | ⟨h, c', hc', h'⟩
        · exact .inl h
        · exact .inr ⟨h, c', by simp [hc'], h'⟩
  unfold isLatin
  split
  · constructor
    · intro hall
      rcases key with h | ⟨_, c, hc, ha, hn⟩
      · exact h
      · have := hall c hc ha; rw [hn] at this; simp at this
    · intro x hx
      rcases key with ⟨b, h⟩ | ⟨h, h'⟩
      · rw [h] at hx; simp at hx
      · rw [h] at hx; injection hx with hx; exact ⟨hx.symm, h'⟩
  · simp

/-- C46: `is_punctuation(t)` iff `t` has a non-space character and all of them are punctuation. -/
theorem c46_is_punctuation (e : Env) (t : Str) :
    isPunctuation e t = true ↔
      (∃ c ∈ t, e.isSpace c = false) ∧ ∀ c ∈ t, e.isSpace c = false → e.isPunct c = true := by
  simp only [isPunctuation, isSpaceStr, Bool.and_eq_true, Bool.not_eq_true', Bool.and_eq_false_iff, List.all_eq_true,
    Bool.or_eq_true, List.isEmpty_eq_false_iff]
  constructor
  · rintro ⟨⟨h1, h2⟩, h3⟩
    refine ⟨?_, ?_⟩
    · rcases h2 with h2 | h2
      · simp [h1] at h2
      · have := h2
        rw [List.all_eq_false] at this
        obtain ⟨c, hc, h⟩ := this
        exact ⟨c, hc, by simpa using h⟩
    · intro c hc hs
      rcases h3 c hc with h | h
      · rw [hs] at h; simp at h
      · exact h
  · rintro ⟨⟨c, hc, hs⟩, h⟩
    refine ⟨⟨List.ne_nil_of_mem hc, .inr ?_⟩, ?_⟩
    · rw [List.all_eq_false]; exact ⟨c, hc, by simp [hs]⟩
    · intro d hd
      cases hd' : e.isSpace d
      · exact .inr (h d hd hd')
      · exact .inl rfl

/-- C46: if letters are neither punctuation nor spaces, no string is both; neither predicate accepts the empty string. -/
theorem c46_disjoint (e : Env) (hl : ∀ c, e.isAlpha c = true → e.isSpace c = false ∧ e.isPunct c = false) (t : Str) :
    ¬ (isLatin e t = .ok true ∧ isPunctuation e t = true) ∧ isLatin e [] = .ok false ∧ isPunctuation e [] = false := by
  refine ⟨?_, rfl, rfl⟩
  rintro ⟨h1, h2⟩
  obtain ⟨⟨c, hc, ha⟩, _⟩ := (c46_is_latin e t).1 h1
  obtain ⟨_, h⟩ := (c46_is_punctuation e t).1 h2
  have := h c hc (hl c ha).1
  rw [(hl c ha).2] at this; simp at this

example : isLatin demoEnv (c!"123-FOO") = .ok true := by decide
example : isLatin demoEnv (c!"fooЖ") = .ok false := by decide
example : isPunctuation demoEnv (c!", ") = true := by decide

end Verif
