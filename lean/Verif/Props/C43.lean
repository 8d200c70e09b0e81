/-
C43: the tokenizer.
-/
import Verif.Model.Tokens
import Mathlib.Data.List.TakeWhile

namespace Verif

/-- Assumption about the character classes: white space is neither a word character nor one of `_`, `-`. -/
def SpacesApart (isWord isSpace : Char → Bool) : Prop := ∀ c, isSpace c = true → isWord c = false ∧ c ≠ '_' ∧ c ≠ '-'

/-- Specification: the characters words are made of. -/
def WordChar (isWord : Char → Bool) (c : Char) : Prop := (isWord c = true ∨ c = '_' ∨ c = '-') ∧ c ≠ '+'

/-- Specification: `toks` are the tokens of `text`.  White space separates; every other character that is no word character is a token;
a maximal run of word characters is a token. -/
inductive TokensOf (isWord isSpace : Char → Bool) : Str → List Str → Prop
  | done : TokensOf isWord isSpace [] []
  | space (c : Char) (t : Str) (ts : List Str) (hc : isSpace c = true) (h : TokensOf isWord isSpace t ts) : TokensOf isWord isSpace (c :: t) ts
  | mark (c : Char) (t : Str) (ts : List Str) (hc : ¬ WordChar isWord c) (hs : isSpace c = false) (h : TokensOf isWord isSpace t ts) :
      TokensOf isWord isSpace (c :: t) ([c] :: ts)
  | word (w t : Str) (ts : List Str) (hne : w ≠ []) (hw : ∀ c ∈ w, WordChar isWord c) (hmax : ∀ c, t.head? = some c → ¬ WordChar isWord c)
      (h : TokensOf isWord isSpace t ts) : TokensOf isWord isSpace (w ++ t) (w :: ts)

theorem sep_iff (isWord : Char → Bool) (c : Char) : isSepChar isWord c = false ↔ WordChar isWord c := by
  unfold isSepChar WordChar
  simp only [Bool.or_eq_false_iff, Bool.not_eq_false', Bool.or_eq_true, beq_iff_eq, beq_eq_false_iff_ne, or_assoc]

theorem reSplit_ne_nil (sep : Char → Bool) (s : Str) : reSplit sep s ≠ [] := by
  cases s with
  | nil => simp [reSplit]
  | cons c s =>
    unfold reSplit
    split
    · simp
    · cases h : reSplit sep s <;> simp [consHead]

theorem reSplit_run (sep : Char → Bool) (w t : Str) (hw : ∀ c ∈ w, sep c = false) :
    ∃ a l, reSplit sep t = a :: l ∧ reSplit sep (w ++ t) = (w ++ a) :: l := by
  induction w with
  | nil =>
    cases h : reSplit sep t with
    | nil => exact absurd h (reSplit_ne_nil sep t)
    | cons a l => exact ⟨a, l, rfl, by simpa using h⟩
  | cons c w ih =>
    obtain ⟨a, l, h1, h2⟩ := ih fun c hc => hw c (by simp [hc])
    refine ⟨a, l, h1, ?_⟩
    rw [List.cons_append, reSplit, hw c (by simp), h2]
    rfl

theorem reSplit_stop (sep : Char → Bool) (t : Str) (ht : ∀ c, t.head? = some c → sep c = true) :
    ∃ l, reSplit sep t = [] :: l := by
  cases t with
  | nil => exact ⟨[], rfl⟩
  | cons c t => rw [reSplit, ht c rfl]; exact ⟨_, rfl⟩

theorem wordChar_not_space {isWord isSpace : Char → Bool} (ha : SpacesApart isWord isSpace) {c : Char} (h : WordChar isWord c) : isSpace c = false := by
  cases hs : isSpace c with
  | false => rfl
  | true =>
    obtain ⟨h1, h2, h3⟩ := ha c hs
    rcases h.1 with h | h | h
    · rw [h1] at h; cases h
    · exact absurd h h2
    · exact absurd h h3

theorem tokens_sound (isWord : Char → Bool) (e : Env) (ha : SpacesApart isWord e.isSpace) (text : Str) (ts : List Str)
    (h : TokensOf isWord e.isSpace text ts) : simpleWordTokenize isWord e text = ts := by
  induction h with
  | done => rfl
  | space c t ts hc h ih =>
    have hsep : isSepChar isWord c = true := by
      cases hs : isSepChar isWord c with
      | true => rfl
      | false => rw [sep_iff] at hs; rw [wordChar_not_space ha hs] at hc; cases hc
    unfold simpleWordTokenize at *
    rw [reSplit, hsep, if_pos rfl]
    rw [List.filter_cons_of_neg (by simp), List.filter_cons_of_neg (by simp [isSpaceStr, hc]), ih]
  | mark c t ts hc hs h ih =>
    have hsep : isSepChar isWord c = true := by
      cases hs : isSepChar isWord c with
      | true => rfl
      | false => exact absurd ((sep_iff _ _).1 hs) hc
    unfold simpleWordTokenize at *
    rw [reSplit, hsep, if_pos rfl]
    rw [List.filter_cons_of_neg (by simp), List.filter_cons_of_pos (by simp [isSpaceStr, hs]), ih]
  | word w t ts hne hw hmax h ih =>
    obtain ⟨a, l, h1, h2⟩ := reSplit_run (isSepChar isWord) w t fun c hc => (sep_iff _ _).2 (hw c hc)
    obtain ⟨l', h3⟩ := reSplit_stop (isSepChar isWord) t (by
      intro c hc
      cases hs : isSepChar isWord c with
      | true => rfl
      | false => exact absurd ((sep_iff _ _).1 hs) (hmax c hc))
    rw [h1] at h3
    cases h3
    unfold simpleWordTokenize at *
    rw [h1] at ih
    rw [h2, List.append_nil]
    have hsp : isSpaceStr e w = false := by
      cases w with
      | nil => exact absurd rfl hne
      | cons c w => simp [isSpaceStr, wordChar_not_space ha (hw c (by simp))]
    have hem : w.isEmpty = false := by cases w with
      | nil => exact absurd rfl hne
      | cons c w => rfl
    rw [List.filter_cons_of_pos (by simp [hsp, hem])]
    rw [List.filter_cons_of_neg (by simp)] at ih
    rw [ih]

instance (isWord : Char → Bool) (c : Char) : Decidable (WordChar isWord c) := by unfold WordChar; infer_instance

theorem tokens_exist (isWord isSpace : Char → Bool) (text : Str) : ∃ ts, TokensOf isWord isSpace text ts := by
  induction h : text.length using Nat.strongRecOn generalizing text with
  | _ n ih =>
    cases text with
    | nil => exact ⟨[], .done⟩
    | cons c t =>
      by_cases hc : WordChar isWord c
      · let w := (c :: t).takeWhile fun c => decide (WordChar isWord c)
        let r := (c :: t).dropWhile fun c => decide (WordChar isWord c)
        have hwr : w ++ r = c :: t := List.takeWhile_append_dropWhile
        have hw0 : w = c :: t.takeWhile fun c => decide (WordChar isWord c) := by simp [w, hc]
        have hlen : r.length < n := by
          have := congrArg List.length hwr
          rw [hw0] at this
          simp at this h
          omega
        obtain ⟨ts, hts⟩ := ih _ hlen r rfl
        refine ⟨w :: ts, ?_⟩
        rw [← hwr]
        refine .word w r ts (by rw [hw0]; simp) ?_ ?_ hts
        · intro x hx
          have := List.mem_takeWhile_imp hx
          simpa using this
        · intro x hx hxw
          have := List.head?_dropWhile_not (fun c => decide (WordChar isWord c)) (c :: t)
          change (List.dropWhile _ (c :: t)).head? = some x at hx
          rw [hx] at this
          simp at this
          exact this hxw
      · obtain ⟨ts, hts⟩ := ih t.length (by simp at h; omega) t rfl
        cases hs : isSpace c with
        | true => exact ⟨ts, .space c t ts hs hts⟩
        | false => exact ⟨[c] :: ts, .mark c t ts hc hs hts⟩

/-- **C43.** `simple_word_tokenize(text)` are the tokens of `text`, and no other list is. -/
theorem c43_tokens (isWord : Char → Bool) (e : Env) (ha : SpacesApart isWord e.isSpace) (text : Str) (ts : List Str) :
    TokensOf isWord e.isSpace text ts ↔ simpleWordTokenize isWord e text = ts := by
  refine ⟨tokens_sound isWord e ha text ts, fun h => ?_⟩
  obtain ⟨ts', h'⟩ := tokens_exist isWord e.isSpace text
  rw [tokens_sound isWord e ha text ts' h'] at h
  exact h ▸ h'

/-- **C43.** Nothing but white space is lost: the tokens, glued together, are the text without white space. -/
theorem c43_lossless (isWord : Char → Bool) (e : Env) (ha : SpacesApart isWord e.isSpace) (text : Str) :
    (simpleWordTokenize isWord e text).flatten = text.filter fun c => !e.isSpace c := by
  obtain ⟨ts, h⟩ := tokens_exist isWord e.isSpace text
  rw [tokens_sound isWord e ha text ts h]
  induction h with
  | done => rfl
  | space c t ts hc h ih => rw [List.filter_cons_of_neg (by simp [hc])]; exact ih
  | mark c t ts hc hs h ih => rw [List.filter_cons_of_pos (by simp [hs]), List.flatten_cons, ih]; rfl
  | word w t ts hne hw hmax h ih =>
    have : w.filter (fun c => !e.isSpace c) = w :=
      List.filter_eq_self.2 fun c hc => by rw [wordChar_not_space ha (hw c hc)]; rfl
    rw [List.flatten_cons, ih, List.filter_append, this]

/-- **C43.** Every token is a single mark or consists of word characters; it is not empty and has no white space in it. -/
theorem c43_shape (isWord : Char → Bool) (e : Env) (ha : SpacesApart isWord e.isSpace) (text : Str) :
    ∀ t ∈ simpleWordTokenize isWord e text, t ≠ [] ∧ (∀ c ∈ t, e.isSpace c = false) ∧
      ((∃ c, t = [c] ∧ ¬ WordChar isWord c) ∨ ∀ c ∈ t, WordChar isWord c) := by
  obtain ⟨ts, h⟩ := tokens_exist isWord e.isSpace text
  rw [tokens_sound isWord e ha text ts h]
  induction h with
  | done => simp
  | space c t ts hc h ih => exact ih
  | mark c t ts hc hs h ih =>
    intro x hx
    rcases List.mem_cons.1 hx with rfl | hx
    · exact ⟨by simp, by simpa using hs, .inl ⟨c, rfl, hc⟩⟩
    · exact ih x hx
  | word w t ts hne hw hmax h ih =>
    intro x hx
    rcases List.mem_cons.1 hx with rfl | hx
    · exact ⟨hne, fun c hc => wordChar_not_space ha (hw c hc), .inr hw⟩
    · exact ih x hx

/-- **C43.** Tokenizing the tokens separated by white space gives the same tokens. -/
theorem c43_stable (isWord : Char → Bool) (e : Env) (ha : SpacesApart isWord e.isSpace) (hsp : e.isSpace ' ' = true) (text : Str) :
    simpleWordTokenize isWord e (joinC ' ' (simpleWordTokenize isWord e text)) = simpleWordTokenize isWord e text := by
  have hshape := c43_shape isWord e ha text
  generalize simpleWordTokenize isWord e text = toks at *
  rw [← c43_tokens isWord e ha]
  have hnsp : ¬ WordChar isWord ' ' := fun h => by rw [wordChar_not_space ha h] at hsp; cases hsp
  have one : ∀ (t rest : Str) ts, (t ≠ [] ∧ (∀ c ∈ t, e.isSpace c = false) ∧
      ((∃ c, t = [c] ∧ ¬ WordChar isWord c) ∨ ∀ c ∈ t, WordChar isWord c)) → (∀ c, rest.head? = some c → c = ' ') →
      TokensOf isWord e.isSpace rest ts → TokensOf isWord e.isSpace (t ++ rest) (t :: ts) := by
    rintro t rest ts ⟨h1, h2, h3⟩ hr h
    rcases h3 with ⟨c, rfl, hc⟩ | h3
    · exact .mark c rest ts hc (h2 c (by simp)) h
    · exact .word t rest ts h1 h3 (fun c hc => by rw [hr c hc]; exact hnsp) h
  induction toks with
  | nil => exact .done
  | cons t toks ih =>
    have ih := ih fun x hx => hshape x (by simp [hx])
    have ht := hshape t (by simp)
    cases toks with
    | nil => simpa [joinC] using one t [] [] ht (by simp) .done
    | cons u toks =>
      rw [show joinC ' ' (t :: u :: toks) = t ++ (' ' :: joinC ' ' (u :: toks)) by simp [joinC]]
      exact one t _ _ ht (by simp) (.space ' ' _ _ hsp ih)

/-- The assumption holds for ASCII and Cyrillic; a text with punctuation, a hyphen, a plus sign and an underscore. -/
def Demo.isWord (c : Char) : Bool := isAsciiLetter c || isCyrLetter c || c.isDigit || c == '_'

theorem Demo.spacesApart : SpacesApart Demo.isWord demoEnv.isSpace := by
  intro c h
  simp only [demoEnv, Bool.or_eq_true, beq_iff_eq] at h
  rcases h with (rfl | rfl) | rfl <;> decide +kernel

example : simpleWordTokenize Demo.isWord demoEnv (c!" Кто-то, где_то: a+b  2.5\n") =
    [c!"Кто-то", c!",", c!"где_то", c!":", c!"a", c!"+", c!"b", c!"2", c!".", c!"5"] := by
  decide +kernel

end Verif
