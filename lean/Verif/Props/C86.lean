/-
C86 — numbers in texts, on CPython.
-/
import Verif.Props.C83

set_option linter.unusedSectionVars false

open Verif.Numbers

namespace Verif

open Cpython Unicode

/-! ### Specification -/

/-- A minus sign or nothing. -/
def Minus (s : Str) : Prop := s = [] ∨ s = ['-']

/-- A whole number as it can stand in a text: digits of any script, at most 4300, perhaps with single underscores inside and a minus sign before. -/
def WholeToken (t : Str) : Prop := ∃ s r n, t = s ++ r ∧ Minus s ∧ Run Decimal r n ∧ n ≤ 4300

/-- Other numbers as they can stand in a text: without a point.  `1e5`, `1e-5`, a long whole number, or `inf`, `infinity`, `nan`. -/
def RealToken (t : Str) : Prop := ∃ s x, t = s ++ x ∧ Minus s ∧
  (Special x ∨ (∃ n, Run Decimal x n) ∨
    ∃ r n c s' q k, x = r ++ c :: (s' ++ q) ∧ Run Decimal r n ∧ (c = 'e' ∨ c = 'E') ∧ Minus s' ∧ Run Decimal q k)

/-- The Roman letter `p` is written `c`: capital or small, I also as the Turkish İ and ı. -/
def RomanLetter (p c : Char) : Prop := c = p ∨ c.toNat = p.toNat + 32 ∨ (p = 'I' ∧ (c = 'İ' ∨ c = 'ı'))

/-- The text writes this Roman number letter by letter. -/
def WritesRoman (t : Str) (n : Nat) : Prop := List.Forall₂ RomanLetter (roman n) t

/-! ### Tokens -/

theorem blank_space (c : Char) (h : Blank c) : isSpace c = true := by
  rcases h with h | h | h
  · exact inTable_of_covers (lo := 32) (hi := 32) (by decide +kernel) c (by omega) (by omega)
  · exact inTable_of_covers (lo := 9) (hi := 13) (by decide +kernel) c h.1 h.2
  · exact h.2

theorem token_no_blank {text t : Str} (ht : t ∈ tokenize text) (a b x : Str) (he : t = a ++ x ++ b) (ha : ∀ c ∈ a, Blank c) (hb : ∀ c ∈ b, Blank c) :
    a = [] ∧ b = [] := by
  obtain ⟨_, hs, _⟩ := c43_shape isWord cpython c83_spaces text t ht
  rw [cp_isSpace] at hs
  constructor
  · rw [List.eq_nil_iff_forall_not_mem]
    intro c hc
    have h := hs c (by rw [he]; simp [hc])
    rw [blank_space c (ha c hc)] at h; cases h
  · rw [List.eq_nil_iff_forall_not_mem]
    intro c hc
    have h := hs c (by rw [he]; simp [hc])
    rw [blank_space c (hb c hc)] at h; cases h

/-- A mark stands only in tokens of one character. -/
theorem token_mark {text t : Str} (ht : t ∈ tokenize text) (c : Char) (hm : c ∈ ['.', ',', '+']) (hc : c ∈ t) : t = [c] := by
  refine c83_alone text t ht c hc (mark_table c ?_).1
  simp only [List.mem_cons, List.not_mem_nil, or_false] at hm ⊢
  tauto

theorem minus_of_sign {s : Str} (h : Sign s) (hp : '+' ∉ s) : Minus s := by
  rcases h with h | h | h
  · exact .inl h
  · rw [h] at hp; simp at hp
  · exact .inr h

theorem sign_of_minus {s : Str} (h : Minus s) : Sign s := by
  rcases h with h | h
  · exact .inl h
  · exact .inr (.inr h)

theorem run_pos {D : Char → Prop} {r : Str} {n : Nat} (h : Run D r n) : 1 ≤ r.length := by
  obtain ⟨d, s, rfl, _⟩ := run_ne h
  simp

/-- **C86.** Which tokens are whole numbers for the analyzer. -/
theorem c86_whole (text t : Str) (ht : t ∈ tokenize text) : cpython.isInt t = true ↔ WholeToken t := by
  rw [c81_int]
  constructor
  · rintro ⟨a, s, r, b, n, he, ha, hs, hr, hn, hb⟩
    obtain ⟨rfl, rfl⟩ := token_no_blank ht a b _ he ha hb
    simp only [List.nil_append, List.append_nil] at he
    refine ⟨s, r, n, he, minus_of_sign hs fun hp => ?_, hr, hn⟩
    have := congrArg List.length (token_mark ht '+' (by simp) (by rw [he]; simp [hp]))
    have h1 := run_pos hr
    have h2 : 1 ≤ s.length := List.length_pos_of_mem hp
    rw [he] at this
    simp at this
    omega
  · rintro ⟨s, r, n, he, hs, hr, hn⟩
    exact ⟨[], s, r, [], n, by simpa using he, by simp, sign_of_minus hs, hr, hn, by simp⟩

theorem decimal_ne {c : Char} (h : Decimal c) : c ≠ '.' ∧ c ≠ ',' ∧ c ≠ '+' ∧ c ≠ '-' ∧ c ≠ '_' := by
  have hz : zeros.all (fun z => Nat.blt 95 z || Nat.beq z 48) = true := by decide +kernel
  obtain ⟨z, hm, h1, h2⟩ := h
  have := List.all_eq_true.1 hz z hm
  simp only [Bool.or_eq_true, Nat.blt_eq, Nat.beq_eq] at this
  refine ⟨?_, ?_, ?_, ?_, ?_⟩ <;> rintro rfl <;> simp only [show '.'.toNat = 46 from rfl, show ','.toNat = 44 from rfl, show '+'.toNat = 43 from rfl,
    show '-'.toNat = 45 from rfl, show '_'.toNat = 95 from rfl] at h1 h2 <;> omega

/-- **C86.** Which tokens are other numbers for the analyzer. -/
theorem c86_real (text t : Str) (ht : t ∈ tokenize text) : RealText t ↔ RealToken t := by
  constructor
  · rintro ⟨a, s, x, b, he, ha, hs, hx, hb⟩
    obtain ⟨rfl, rfl⟩ := token_no_blank ht a b _ he ha hb
    simp only [List.nil_append, List.append_nil] at he
    have hlen : ∀ c ∈ ['.', ',', '+'], c ∈ t → t.length = 1 := fun c hc hct => by rw [token_mark ht c hc hct]; rfl
    have hxne : 1 ≤ x.length := by
      rcases hx with hx | ⟨m, e, rfl, hm, _⟩
      · exact List.length_pos_iff.2 (special_chars hx).1
      · rw [List.length_append]
        have : 1 ≤ m.length := by
          cases hm with
          | whole h => exact run_pos h
          | point h => simp
          | both h => simp only [List.length_append, List.length_cons]; omega
          | fraction h => simp
        omega
    have hplus : '+' ∉ s := fun hp => by
      have h1 := hlen '+' (by simp) (by rw [he]; simp [hp])
      have h2 : 1 ≤ s.length := List.length_pos_of_mem hp
      rw [he, List.length_append] at h1
      omega
    refine ⟨s, x, he, minus_of_sign hs hplus, ?_⟩
    rcases hx with hx | ⟨m, e, rfl, hm, hxe⟩
    · exact .inl hx
    · -- the mantissa has no point
      have point : ∀ p, (p = '.' ∨ p = ',') → p ∈ m → 2 ≤ m.length → False := by
        intro p hp hpm h2
        have h1 := hlen p (by rcases hp with rfl | rfl <;> simp) (by rw [he]; simp [hpm])
        rw [he] at h1
        simp only [List.length_append] at h1
        omega
      have hr : ∃ n, Run Decimal m n := by
        cases hm with
        | whole h => exact ⟨_, h⟩
        | point h hp =>
          have := run_pos h
          exact (point _ hp (by simp) (by simp only [List.length_append, List.length_cons, List.length_nil]; omega)).elim
        | both h hp h' =>
          have := run_pos h
          exact (point _ hp (by simp) (by simp only [List.length_append, List.length_cons]; omega)).elim
        | fraction hp h' =>
          have := run_pos h'
          exact (point _ hp (by simp) (by simp only [List.length_cons]; omega)).elim
      obtain ⟨n, hr⟩ := hr
      rcases hxe with rfl | ⟨c, s', q, k, rfl, hc, hs', hq⟩
      · exact .inr (.inl ⟨n, by simpa using hr⟩)
      · refine .inr (.inr ⟨m, n, c, s', q, k, rfl, hr, hc, minus_of_sign hs' fun hp => ?_, hq⟩)
        have h1 := hlen '+' (by simp) (by rw [he]; simp [hp])
        have h2 := run_pos hr
        rw [he] at h1
        simp only [List.length_append, List.length_cons] at h1
        omega
  · rintro ⟨s, x, he, hs, hx⟩
    refine ⟨[], s, x, [], by simpa using he, by simp, sign_of_minus hs, ?_, by simp⟩
    rcases hx with hx | ⟨n, hx⟩ | ⟨r, n, c, s', q, k, rfl, hr, hc, hs', hq⟩
    · exact .inl hx
    · exact .inr ⟨x, [], by simp, .whole hx, .inl rfl⟩
    · exact .inr ⟨r, c :: (s' ++ q), rfl, .whole hr, .inr ⟨c, s', q, k, rfl, hc, sign_of_minus hs', hq⟩⟩

/-! ### Digits are no letters -/

theorem decimal_not_alpha {c : Char} (h : Decimal c) : isAlpha c = false := by
  have ht : zeros.all (fun z => alphaTable.all fun r => Nat.blt r.2 z || Nat.blt (z + 9) r.1) = true := by decide +kernel
  obtain ⟨z, hz, h1, h2⟩ := h
  have := List.all_eq_true.1 (List.all_eq_true.1 ht z hz)
  unfold isAlpha inTable
  rw [List.any_eq_false]
  intro r hr hc
  have := this r hr
  simp only [Bool.or_eq_true, Bool.and_eq_true, Nat.blt_eq, decide_eq_true_eq] at this hc
  omega

theorem decimal_text {c : Char} (h : Decimal c) : TextChar c := by
  refine ⟨.inl ?_, (decimal_ne h).2.2.1⟩
  obtain ⟨z, hz, h1, h2⟩ := h
  exact word_of_decimal c z hz h1 (by omega)

theorem run_chars {r : Str} {n : Nat} (h : Run Decimal r n) : ∀ c ∈ r, TextChar c ∧ isAlpha c = false := by
  have hu : TextChar '_' ∧ isAlpha '_' = false := by decide +kernel
  induction h with
  | one h => intro c hc; simp only [List.mem_singleton] at hc; subst hc; exact ⟨decimal_text h, decimal_not_alpha h⟩
  | next h _ ih =>
    intro c hc
    rcases List.mem_cons.1 hc with rfl | hc
    · exact ⟨decimal_text h, decimal_not_alpha h⟩
    · exact ih c hc
  | under h _ ih =>
    intro c hc
    simp only [List.mem_cons] at hc
    rcases hc with rfl | rfl | hc
    · exact ⟨decimal_text h, decimal_not_alpha h⟩
    · exact hu
    · exact ih c hc

theorem fold_plain {c : Char} (ha : isAlpha c = false) : reFold c = c := by
  have hI : ¬ (c = 'İ' ∨ c = 'ı') := by
    rintro (rfl | rfl)
    · exact absurd ha (by decide +kernel)
    · exact absurd ha (by decide +kernel)
  have hb : ¬ (97 ≤ c.toNat ∧ c.toNat ≤ 122) := fun hb => by rw [ascii_alpha c (.inr hb)] at ha; cases ha
  unfold reFold
  rw [if_neg hI, if_neg hb]

/-- Digits are neither initials nor Roman numbers nor Latin words. -/
theorem run_no_word {r : Str} {n : Nat} (h : Run Decimal r n) :
    ¬ RuInitial r ∧ ¬ UkInitial r ∧ isRomanNumber cpython r = false ∧ isLatin cpython r = .ok false := by
  have hch := run_chars h
  obtain ⟨d, s, rfl, hd⟩ := run_ne h
  have ha := decimal_not_alpha hd
  have key : ∀ d, d = 'Ё' ∨ d = 'Ґ' ∨ d = 'Є' ∨ d = 'І' ∨ d = 'Ї' ∨ ('А' ≤ d ∧ d ≤ 'Я') → isAlpha d = true := by
    rintro d (rfl | rfl | rfl | rfl | rfl | ⟨h1, h2⟩)
    · decide +kernel
    · decide +kernel
    · decide +kernel
    · decide +kernel
    · decide +kernel
    · exact inTable_of_covers (lo := 1040) (hi := 1071) (by decide +kernel) d h1 h2
  refine ⟨?_, ?_, ?_, ?_⟩
  · rintro ⟨x, hx, hc⟩
    cases hx
    rw [key] at ha
    · cases ha
    · rcases hc with h | h
      · exact .inl h
      · exact .inr (.inr (.inr (.inr (.inr ⟨h.1, h.2.1⟩))))
  · rintro ⟨x, hx, hc⟩
    cases hx
    rw [key] at ha
    · cases ha
    · rcases hc with h | h | h | h | h
      · exact .inr (.inl h)
      · exact .inr (.inr (.inl h))
      · exact .inr (.inr (.inr (.inl h)))
      · exact .inr (.inr (.inr (.inr (.inl h))))
      · exact .inr (.inr (.inr (.inr (.inr ⟨h.1, h.2.1⟩))))
  · show romanMatch (reFold d :: s.map reFold) = false
    rw [fold_plain ha]
    refine roman_ne d _ fun hc => ?_
    have hsp := decimal_not_space d hd
    simp only [List.mem_cons, List.not_mem_nil, or_false] at hc
    rcases hc with rfl | rfl | rfl | rfl | rfl | rfl | rfl | rfl
    all_goals first
      | exact absurd ha (by decide +kernel)
      | exact absurd hsp (by decide +kernel)
  · unfold isLatin
    have : ((d :: s).any cpython.isAlpha) = false := by
      rw [cp_isAlpha, List.any_eq_false]
      intro c hc
      rw [(hch c hc).2]; simp
    rw [this]
    rfl

variable {S : Type} [Score S]

/-- Digits that are not in the dictionary are a whole number and nothing else. -/
theorem run_only (m : Morph S) (hm : IsRu m ∨ IsUk m) (he : m.env = cpython) (r : Str) (n : Nat) (hr : Run Decimal r n) (hn : n ≤ 4300)
    (hu : m.wordIsKnown r = false) (ps : List (Parse S)) (h : m.parse r = .ok ps) : Only m r (c!"NUMB,intg") ps := by
  obtain ⟨h1, h2, h3, h4⟩ := run_no_word hr
  have hi : IntText Blank Decimal r := ⟨[], [], r, [], n, by simp, by simp, .inl rfl, hr, hn, by simp⟩
  refine (c81_analysis m he r ps h ?_).1 hi
  rcases hm with hm | hm
  · refine .inl ⟨hm, ?_⟩
    rintro (h | h)
    · rw [hu] at h; cases h
    · exact h1 h
  · refine .inr ⟨hm, ?_⟩
    rintro (h | h | h | h)
    · rw [hu] at h; cases h
    · exact h2 h
    · rw [he, h3] at h; cases h
    · rw [he, h4] at h; cases h

/-- **C86, decimal fractions.** A number with a point or a comma inside is never one token: it is split in three, the two digit groups are analyzed as whole
numbers of their own and the point as punctuation (unless the dictionary has them). -/
theorem c86_fraction (x y : Str) (n k : Nat) (p : Char) (hx : Run Decimal x n) (hy : Run Decimal y k) (hn : n ≤ 4300) (hk : k ≤ 4300)
    (hp : p = '.' ∨ p = ',') :
    tokenize (x ++ p :: y) = [x, [p], y] ∧ (∀ text, x ++ p :: y ∉ tokenize text) ∧
    ∀ (m : Morph S), IsRu m ∨ IsUk m → m.env = cpython →
      (∀ t ∈ [x, y], m.wordIsKnown t = false → ∀ ps, m.parse t = .ok ps → Only m t (c!"NUMB,intg") ps) ∧
      (m.wordIsKnown [p] = false → ∀ ps, m.parse [p] = .ok ps → Only m [p] (c!"PNCT") ps) := by
  have hne : ∀ {r : Str} {n : Nat}, Run Decimal r n → r ≠ [] := fun h => by
    obtain ⟨d, s, rfl, _⟩ := run_ne h
    simp
  have hmem : p ∈ ['\'', '’', '\u0301', '\u0306', '\u0308', '\u00AD', '.', ',', '+', '/', '%', '№', '$', '°'] := by
    rcases hp with rfl | rfl <;> simp
  obtain ⟨h1, h2⟩ := c83_split x y p (hne hx) (hne hy) (fun c hc => (run_chars hx c hc).1) (fun c hc => (run_chars hy c hc).1) hmem
  refine ⟨h1, h2, fun m hm he => ⟨fun t ht hu ps h => ?_, fun hu ps h => ?_⟩⟩
  · simp only [List.mem_cons, List.not_mem_nil, or_false] at ht
    rcases ht with rfl | rfl
    · exact run_only m hm he _ n hx hn hu ps h
    · exact run_only m hm he _ k hy hk hu ps h
  · refine (c83_mark m hm he p (mark_table p hmem) hu ps h).1 ?_
    rcases hp with rfl | rfl <;> decide +kernel

/-- **C86, plus signs.** A plus sign is split off the number. -/
theorem c86_plus (x : Str) (n : Nat) (hx : Run Decimal x n) : tokenize ('+' :: x) = [['+'], x] := by
  have h := c83_cut [] x '+' (mark_table '+' (by simp)).1
  rw [(mark_table '+' (by simp)).2] at h
  have h0 : tokenize [] = [] := by decide +kernel
  have h1 : tokenize x = [x] := by
    rw [← (c83_tokens x).1]
    have := TokensOf.word (isSpace := isSpace) x [] [] (by obtain ⟨d, s, rfl, _⟩ := run_ne hx; simp) (fun c hc => (run_chars hx c hc).1) (by simp) .done
    rwa [List.append_nil] at this
  rw [h0, h1] at h
  simpa using h

/-! ### Roman numbers -/

theorem roman_letters : ∀ a < 5, ∀ b < 10, ∀ c < 10, ∀ d < 10, (roman (1000 * a + 100 * b + 10 * c + d)).all (fun p => (c!"MDCLXVI").elem p) = true := by
  decide +kernel

theorem fold_letter (p c : Char) (hp : p ∈ c!"MDCLXVI") : reFold c = p ↔ RomanLetter p c := by
  unfold reFold RomanLetter
  have hI : c = 'İ' ∨ c = 'ı' → (p = 'I' ↔ c = p ∨ c.toNat = p.toNat + 32 ∨ (p = 'I' ∧ (c = 'İ' ∨ c = 'ı'))) := by
    intro h
    constructor
    · exact fun h' => .inr (.inr ⟨h', h⟩)
    · rintro (h' | h' | h')
      · subst h'
        rcases h with rfl | rfl <;> exact absurd hp (by decide)
      · have hle : p.toNat ≤ 90 := by
          have : ∀ q ∈ c!"MDCLXVI", q.toNat ≤ 90 := by decide
          exact this p hp
        rcases h with rfl | rfl
        · rw [show 'İ'.toNat = 304 from rfl] at h'; omega
        · rw [show 'ı'.toNat = 305 from rfl] at h'; omega
      · exact h'.1
  by_cases h : c = 'İ' ∨ c = 'ı'
  · rw [if_pos h]
    exact eq_comm.trans (hI h)
  · rw [if_neg h]
    have hle : 67 ≤ p.toNat ∧ p.toNat ≤ 90 := by
      have : ∀ q ∈ c!"MDCLXVI", 67 ≤ q.toNat ∧ q.toNat ≤ 90 := by decide
      exact this p hp
    by_cases h2 : 97 ≤ c.toNat ∧ c.toNat ≤ 122
    · rw [if_pos h2]
      constructor
      · intro h3
        right; left
        rw [← h3, toNat_ofNat_valid (by left; omega)]
        omega
      · rintro (rfl | h3 | h3)
        · omega
        · have : c.toNat - 32 = p.toNat := by omega
          rw [this]
          exact Char.ofNat_toNat p
        · exact absurd h3.2 h
    · rw [if_neg h2]
      constructor
      · exact fun h => .inl h
      · rintro (rfl | h3 | h3)
        · rfl
        · omega
        · exact absurd h3.2 h

/-- **C86.** Which tokens are Roman numbers for the analyzer: those from 1 to 4999, capital or small, with İ and ı allowed for I. -/
theorem c86_roman (text t : Str) (ht : t ∈ tokenize text) : isRomanNumber cpython t = true ↔ ∃ n, 1 ≤ n ∧ n ≤ 4999 ∧ WritesRoman t n := by
  have hs := (c43_shape isWord cpython c83_spaces text t ht).2.1
  rw [cp_isSpace] at hs
  have hnl : '\n' ∉ t.map reFold := by
    intro h
    obtain ⟨c, hc, he⟩ := List.mem_map.1 h
    have : c = '\n' := by
      unfold reFold at he
      split at he
      · exact absurd he (by decide)
      · split at he
        · next h2 =>
          have := congrArg Char.toNat he
          rw [toNat_ofNat_valid (by left; omega), show '\n'.toNat = 10 from rfl] at this
          omega
        · exact he
    subst this
    exact absurd (hs _ hc) (by decide +kernel)
  have hw : ∀ n, n ≤ 4999 → (t.map reFold = roman n ↔ WritesRoman t n) := by
    intro n hn
    have hl : ∀ p ∈ roman n, p ∈ c!"MDCLXVI" := by
      obtain ⟨ha, hb, hc, hd, he⟩ := digits n (by omega)
      have := roman_letters _ ha _ hb _ hc _ hd
      rw [he] at this
      intro p hp
      exact List.elem_iff.1 (List.all_eq_true.1 this p hp)
    unfold WritesRoman
    generalize roman n = r at hl
    clear ht hs hnl
    induction t generalizing r with
    | nil => cases r <;> simp
    | cons c t ih =>
      cases r with
      | nil => simp
      | cons p r =>
        have h1 : t.map reFold = r ↔ List.Forall₂ RomanLetter r t := ih r fun q hq => hl q (List.mem_cons_of_mem _ hq)
        have h2 := fold_letter p c (hl p (List.mem_cons_self ..))
        rw [List.map_cons, List.cons.injEq, List.forall₂_cons, h1, h2]
  rw [c45_roman]
  constructor
  · rintro (⟨n, h1, h2, h | h⟩ | h)
    · exact ⟨n, h1, h2, (hw n h2).1 h⟩
    · exact absurd (show '\n' ∈ t.map reFold by show '\n' ∈ t.map cpython.reFold; rw [h]; simp) hnl
    · exact absurd (show '\n' ∈ t.map reFold by show '\n' ∈ t.map cpython.reFold; rw [h]; simp) hnl
  · rintro ⟨n, h1, h2, h⟩
    exact .inl ⟨n, h1, h2, .inl ((hw n h2).2 h)⟩

/-! ### Cases -/

/-- `-12`, `1e-5`, `nan` and ımı are tokens and a whole number, a real number, a real number, no Roman number; `ml` (millilitre) is the Roman number 1050; `3,14` is
three tokens. -/
example : tokenize (c!"-12, 1e-5 nan; 20 ml mix İV") = [c!"-12", [','], c!"1e-5", c!"nan", [';'], c!"20", c!"ml", c!"mix", c!"İV"] ∧
    cpython.isInt (c!"-12") = true ∧ isFloat (c!"1e-5") = true ∧ isFloat (c!"nan") = true ∧
    isRomanNumber cpython (c!"ml") = true ∧ isRomanNumber cpython (c!"mix") = true ∧ isRomanNumber cpython (c!"İV") = true := by
  refine ⟨by decide +kernel, by decide +kernel, by decide +kernel, by decide +kernel, by decide +kernel, by decide +kernel, by decide +kernel⟩

example : WritesRoman (c!"ml") 1050 ∧ WritesRoman (c!"İV") 4 := by
  have h1 : roman 1050 = c!"ML" := by decide +kernel
  have h2 : roman 4 = c!"IV" := by decide +kernel
  unfold WritesRoman
  rw [h1, h2]
  exact ⟨.cons (.inr (.inl (by decide))) (.cons (.inr (.inl (by decide))) .nil), .cons (.inr (.inr ⟨rfl, .inl rfl⟩)) (.cons (.inl rfl) .nil)⟩

example : tokenize (c!"3,14") = [c!"3", [','], c!"14"] ∧
    (∀ ps, Demo.morphC.parse (c!"14") = .ok ps → Only Demo.morphC (c!"14") (c!"NUMB,intg") ps) := by
  have d : ∀ c : Char, '0' ≤ c → c ≤ '9' → Decimal c := fun c h1 h2 => ⟨48, by decide +kernel, h1, h2⟩
  obtain ⟨h1, _, h3⟩ := c86_fraction (S := Rat) (c!"3") (c!"14") 1 2 ',' (.one (d _ (by decide) (by decide)))
    (.next (d _ (by decide) (by decide)) (.one (d _ (by decide) (by decide)))) (by decide) (by decide) (.inr rfl)
  exact ⟨h1, (h3 Demo.morphC (.inl Demo.morphC_isRu) rfl).1 _ (by simp) (by decide +kernel)⟩

end Verif
