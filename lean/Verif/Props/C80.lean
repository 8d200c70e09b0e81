/-
C80 — the interpreter: what CPython's string functions guarantee, and on which characters they fail.
-/
import Verif.Model.Cpython
import Verif.Props.C01b
import Verif.Props.C13
import Verif.Props.C71
import Verif.Props.C77

set_option linter.unusedSectionVars false

namespace Verif

open Cpython Unicode

/-! ### Lower case -/

/-- Not changed by the table of lower-case letters. -/
def outside (n : Nat) : Bool := lowerTable.all fun r => Nat.blt n r.1 || (Nat.blt r.2.1 n || !Nat.beq ((n - r.1) % r.2.2.1) 0)

/-- Everything that is needed of the image of a lower-cased character. -/
def lowOk (n : Nat) : Bool :=
  outside n && !Nat.beq n 0x130 && !Nat.beq n 0x3A3 && (Nat.blt n 0xD800 || (Nat.blt 0xDFFF n && Nat.blt n 0x110000)) &&
  namelessTable.all fun r => Nat.blt n r.1 || Nat.blt r.2 n

theorem lowerTable_ok :
    (lowerTable.all fun r => (List.range (r.2.1 - r.1 + 1)).all fun k => !Nat.beq (k % r.2.2.1) 0 || lowOk (r.2.2.2 + k)) = true := by
  decide +kernel

theorem lowerNat_outside (n : Nat) (h : outside n = true) : lowerNat n = n := by
  unfold lowerNat
  have : lowerTable.find? (fun r => r.1 ≤ n && n ≤ r.2.1 && (n - r.1) % r.2.2.1 == 0) = none := by
    rw [List.find?_eq_none]
    intro r hr
    have := List.all_eq_true.1 h r hr
    simp only [Bool.or_eq_true, Bool.not_eq_true', Nat.blt_eq] at this
    simp only [Bool.and_eq_true, decide_eq_true_eq, beq_iff_eq]
    rintro ⟨⟨h1, h2⟩, h3⟩
    rcases this with h | h | h
    · omega
    · omega
    · rw [h3] at h; cases h
  rw [this]

theorem lowerNat_cases (n : Nat) : lowerNat n = n ∨ lowOk (lowerNat n) = true := by
  unfold lowerNat
  cases h : lowerTable.find? (fun r => r.1 ≤ n && n ≤ r.2.1 && (n - r.1) % r.2.2.1 == 0) with
  | none => exact .inl rfl
  | some r =>
    right
    have hr := List.mem_of_find?_eq_some h
    have hp := List.find?_some h
    simp only [Bool.and_eq_true, decide_eq_true_eq, beq_iff_eq] at hp
    have := List.all_eq_true.1 (List.all_eq_true.1 lowerTable_ok r hr) (n - r.1) (List.mem_range.2 (by omega))
    rw [hp.2] at this
    simpa using this

/-- A character that `str.lower` does not change, wherever it stands. -/
structure Settled (c : Char) : Prop where
  same : lowerFull c = [c]
  notSigma : c ≠ 'Σ'

theorem lowOk_spec {n : Nat} (h : lowOk n = true) : lowerNat n = n ∧ n ≠ 0x130 ∧ n ≠ 0x3A3 ∧ (Char.ofNat n).toNat = n ∧
    ∀ r ∈ namelessTable, ¬ (r.1 ≤ n ∧ n ≤ r.2) := by
  unfold lowOk at h
  simp only [Bool.and_eq_true, Bool.not_eq_true', Bool.or_eq_true, Nat.blt_eq, List.all_eq_true] at h
  obtain ⟨⟨⟨⟨h1, h2⟩, h3⟩, h4⟩, h5⟩ := h
  refine ⟨lowerNat_outside n h1, fun e => ?_, fun e => ?_, ?_, fun r hr => ?_⟩
  · subst e; revert h2; decide
  · subst e; revert h3; decide
  · rcases h4 with h4 | h4
    · exact toNat_ofNat_valid (.inl h4)
    · exact toNat_ofNat_valid (.inr h4)
  · have := h5 r hr
    omega

theorem settled_of (c : Char) (d : Char) (hc : c ≠ 'Σ') (hd : d ∈ lowerFull c) : Settled d ∧ (inTable namelessTable d = true → d = c) := by
  unfold lowerFull at hd
  split at hd
  · next hi =>
    simp only [List.mem_cons, List.not_mem_nil, or_false] at hd
    rcases hd with rfl | rfl
    · exact ⟨⟨by decide +kernel, by decide⟩, fun h => absurd h (by decide)⟩
    · exact ⟨⟨by decide +kernel, by decide⟩, fun h => absurd h (by decide)⟩
  · next hi =>
    simp only [List.mem_singleton] at hd
    rcases lowerNat_cases c.toNat with h | h
    · rw [h, Char.ofNat_toNat] at hd
      subst hd
      refine ⟨⟨?_, hc⟩, fun _ => rfl⟩
      unfold lowerFull
      rw [if_neg hi, h, Char.ofNat_toNat]
    · obtain ⟨h1, h2, h3, h4, h5⟩ := lowOk_spec h
      rw [← hd] at h4
      refine ⟨⟨?_, ?_⟩, fun hn => ?_⟩
      · unfold lowerFull
        rw [if_neg, h4, h1, ← hd]
        rintro rfl
        exact h2 h4.symm
      · rintro rfl
        exact h3 h4.symm
      · unfold inTable at hn
        rw [List.any_eq_true] at hn
        obtain ⟨r, hr, hn⟩ := hn
        simp only [Bool.and_eq_true, decide_eq_true_eq] at hn
        rw [h4] at hn
        exact absurd hn (h5 r hr)

theorem settled_lowerFrom (before w : Str) (d : Char) (hd : d ∈ lowerFrom before w) : Settled d ∧ (inTable namelessTable d = true → d ∈ w) := by
  induction w generalizing before with
  | nil => simp [lowerFrom] at hd
  | cons c w ih =>
    rw [lowerFrom, List.mem_append] at hd
    rcases hd with hd | hd
    · unfold lowerAt at hd
      split at hd
      · have : d = 'ς' ∨ d = 'σ' := by split at hd <;> simp_all
        rcases this with rfl | rfl
        · exact ⟨⟨by decide +kernel, by decide⟩, fun h => absurd h (by decide)⟩
        · exact ⟨⟨by decide +kernel, by decide⟩, fun h => absurd h (by decide)⟩
      · next hc =>
        obtain ⟨h1, h2⟩ := settled_of c d hc hd
        exact ⟨h1, fun h => by rw [h2 h]; simp⟩
    · obtain ⟨h1, h2⟩ := ih _ hd
      exact ⟨h1, fun h => List.mem_cons_of_mem _ (h2 h)⟩

theorem lowerFrom_settled (before w : Str) (h : ∀ c ∈ w, Settled c) : lowerFrom before w = w := by
  induction w generalizing before with
  | nil => rfl
  | cons c w ih =>
    have hc := h c (by simp)
    rw [lowerFrom, ih _ fun d hd => h d (by simp [hd])]
    unfold lowerAt
    rw [if_neg hc.notSigma, hc.same]
    rfl

/-- **C80.** Lower-casing is stable: any piece of a lower-cased string is its own lower case (context-dependent Σ included). -/
theorem c80_lower_stable : cpython.LowerStable := by
  intro w x hx
  exact lowerFrom_settled [] x fun c hc => (settled_lowerFrom [] w c (hx.subset hc)).1

theorem capital_unsettled : (((List.range 26).map (65 + ·)) ++ ((List.range 32).map (0x410 + ·)) ++ [0x401, 0x404, 0x406, 0x407, 0x490]).all
    (fun n => !Nat.beq (lowerNat n) n) = true := by decide +kernel

/-- No capital Latin, Russian or Ukrainian letter is left (used in C77). -/
theorem c80_lowers_capitals : cpython.LowersCapitals := by
  intro w c hc
  have hs := (settled_lowerFrom [] w c hc).1
  cases h : isCapital c with
  | false => rfl
  | true =>
    exfalso
    have hcase : (65 ≤ c.toNat ∧ c.toNat ≤ 90) ∨ (0x410 ≤ c.toNat ∧ c.toNat ≤ 0x42F) ∨
        c.toNat = 0x401 ∨ c.toNat = 0x404 ∨ c.toNat = 0x406 ∨ c.toNat = 0x407 ∨ c.toNat = 0x490 := by
      simp only [isCapital, Bool.or_eq_true, Bool.and_eq_true, decide_eq_true_eq, List.contains_iff_mem] at h
      rcases h with (h | h) | h
      · exact .inl h
      · exact .inr (.inl h)
      · have : c = 'Ё' ∨ c = 'Є' ∨ c = 'І' ∨ c = 'Ї' ∨ c = 'Ґ' := by simpa using h
        rcases this with rfl | rfl | rfl | rfl | rfl
        all_goals decide
    have hmem : c.toNat ∈ ((List.range 26).map (65 + ·)) ++ ((List.range 32).map (0x410 + ·)) ++ [0x401, 0x404, 0x406, 0x407, 0x490] := by
      simp only [List.mem_append, List.mem_map, List.mem_range, List.mem_cons, List.not_mem_nil, or_false]
      rcases hcase with h | h | h
      · exact .inl (.inl ⟨c.toNat - 65, by omega, by omega⟩)
      · exact .inl (.inr ⟨c.toNat - 0x410, by omega, by omega⟩)
      · exact .inr h
    have hne := List.all_eq_true.1 capital_unsettled _ hmem
    have hsame := hs.same
    unfold lowerFull at hsame
    have hI : c ≠ 'İ' := by rintro rfl; exact absurd hcase (by decide)
    rw [if_neg hI] at hsame
    simp only [List.cons.injEq, and_true] at hsame
    rcases lowerNat_cases c.toNat with h | h
    · rw [h] at hne; simp at hne
    · obtain ⟨_, _, _, h4, _⟩ := lowOk_spec h
      rw [hsame] at h4
      rw [← h4] at hne
      simp at hne

/-! ### Names -/

/-- Tangut ideographs (Unicode 14.0), the letters for which CPython 3.11 has no name. -/
def isTangut (c : Char) : Bool := (0x17000 ≤ c.toNat && c.toNat ≤ 0x187F7) || (0x18D00 ≤ c.toNat && c.toNat ≤ 0x18D08)

theorem nameless_iff (c : Char) : inTable namelessTable c = isTangut c := by
  simp [inTable, namelessTable, isTangut]

theorem tangut_alpha (c : Char) (h : isTangut c = true) : isAlpha c = true := by
  have h1 : (0x17000, 0x187F7) ∈ alphaTable := by decide +kernel
  have h2 : (0x18D00, 0x18D08) ∈ alphaTable := by decide +kernel
  simp only [isTangut, Bool.or_eq_true, Bool.and_eq_true, decide_eq_true_eq] at h
  unfold isAlpha inTable
  rw [List.any_eq_true]
  rcases h with h | h
  · exact ⟨_, h1, by simpa using h⟩
  · exact ⟨_, h2, by simpa using h⟩

/-- **C80.** All letters of a word have Unicode names exactly if none is a Tangut ideograph; lower-casing brings none in. -/
theorem c80_named (w : Str) : (cpython.Named w ↔ ∀ c ∈ w, isTangut c = false) ∧
    ((∀ c ∈ w, isTangut c = false) → ∀ c ∈ cpython.lower w, isTangut c = false) := by
  constructor
  · unfold Env.Named
    refine forall₂_congr fun c _ => ?_
    show (isAlpha c = true → (charName c).isSome = true) ↔ _
    unfold charName
    rw [nameless_iff]
    cases ht : isTangut c with
    | false =>
      simp only [Bool.false_eq_true, if_false, iff_true]
      intro _
      split <;> rfl
    | true => simp [tangut_alpha c ht]
  · intro h c hc
    cases ht : isTangut c with
    | false => rfl
    | true =>
      have := (settled_lowerFrom [] w c hc).2 (by rw [nameless_iff, ht])
      rw [h c this] at ht
      cases ht

/-- **C80, totality on CPython.** With the default Russian or Ukrainian units over a sound dictionary `parse(w)` and `tag(w)` return non-empty lists for every
string without Tangut ideographs. -/
theorem c80_total (m : Morph Rat) (hm : IsRu m ∨ IsUk m) (he : m.env = cpython) (hd : m.dict.WF)
    (hk : ∀ g ∈ [c!"ADJF", c!"sing", c!"datv"], g ∈ m.cls.known) (hp : m.DataComplete) (w : Str) (hw : ∀ c ∈ w, isTangut c = false) :
    (∃ ps, m.parse w = .ok ps ∧ ps ≠ [] ∧ ∀ p ∈ ps, 0 < p.score) ∧ ∃ ts, m.tag w = .ok ts ∧ ts ≠ [] := by
  refine c01_total m hm ⟨he ▸ c80_lower_stable, hd, hk, hp⟩ w ?_ ?_
  · rw [he]; exact (c80_named w).1.2 hw
  · rw [he]; exact (c80_named _).1.2 ((c80_named w).2 hw)

/-! ### Words that are no numbers -/

theorem mem_dropWhile_of {α : Type} (p : α → Bool) (c : α) (hc : p c = false) (s : List α) (h : c ∈ s) : c ∈ s.dropWhile p := by
  induction s with
  | nil => cases h
  | cons a s ih =>
    rw [List.dropWhile_cons]
    split
    · next ha =>
      rcases List.mem_cons.1 h with rfl | h
      · rw [hc] at ha; cases ha
      · exact ih h
    · exact h

theorem mem_skipSign (c : Char) (hc : c ≠ '+' ∧ c ≠ '-') (s : Str) (h : c ∈ s) : c ∈ skipSign s := by
  cases s with
  | nil => cases h
  | cons a s =>
    show c ∈ if a = '+' ∨ a = '-' then s else a :: s
    split
    · next ha =>
      rcases List.mem_cons.1 h with rfl | h
      · exact absurd ha (by simp [hc])
      · exact h
    · exact h

theorem mem_scanDigits (c : Char) (hc : c ≠ '_' ∧ cDigit c = false) (s : Str) (prev : Char) (n : Nat) (r : Str × Nat)
    (hs : scanDigits prev n s = some r) (h : c ∈ s) : c ∈ r.1 := by
  induction s generalizing prev n with
  | nil => cases h
  | cons a s ih =>
    rw [scanDigits] at hs
    rcases List.mem_cons.1 h with rfl | h'
    · rw [if_neg hc.1, if_neg (by simp [hc.2])] at hs
      split at hs
      · cases hs
      · simp only [Option.some.injEq] at hs
        rw [← hs]; simp
    · split at hs
      · split at hs
        · cases hs
        · exact ih _ _ hs h'
      · split at hs
        · exact ih _ _ hs h'
        · split at hs
          · cases hs
          · simp only [Option.some.injEq] at hs
            rw [← hs]; exact h

theorem intAscii_strange (s : Str) (h : '?' ∈ s) : intAscii s = false := by
  unfold intAscii
  split
  · rfl
  · next rest n hs =>
    have h1 := mem_dropWhile_of cSpace '?' (by decide) s h
    have h2 := mem_skipSign '?' (by decide) _ h1
    have h3 := mem_scanDigits '?' (by decide) _ _ _ _ hs h2
    have h4 := mem_dropWhile_of cSpace '?' (by decide) _ h3
    rw [Bool.and_eq_false_iff]
    left
    cases hd : rest.dropWhile cSpace with
    | nil => rw [hd] at h4; cases h4
    | cons => rfl

theorem expOk_strange (s : Str) (h : '?' ∈ s) : expOk s = false := by
  cases s with
  | nil => cases h
  | cons c s =>
    unfold expOk
    rw [Bool.and_eq_false_iff]
    rcases List.mem_cons.1 h with rfl | h
    · left
      rw [Bool.and_eq_false_iff]
      left; decide
    · right
      rw [List.all_eq_false]
      exact ⟨'?', mem_skipSign '?' (by decide) _ h, by decide⟩

theorem decimalOk_strange (s : Str) (h : '?' ∈ s) : decimalOk s = false := by
  have hd := mem_dropWhile_of cDigit '?' (by decide) s h
  unfold decimalOk
  dsimp only
  split
  · next r hr =>
    rw [hr] at hd
    have : '?' ∈ r := by
      rcases List.mem_cons.1 hd with h | h
      · cases h
      · exact h
    rw [expOk_strange _ (mem_dropWhile_of cDigit '?' (by decide) r this), Bool.and_false]
  · rw [expOk_strange _ hd, Bool.and_false]

theorem floatAscii_strange (s : Str) (h : '?' ∈ s) : floatAscii s = false := by
  have h1 := mem_skipSign '?' (by decide) s h
  unfold floatAscii
  rw [decimalOk_strange _ h1, Bool.false_or]
  have : '?' ∈ (skipSign s).map asciiLower := List.mem_map.2 ⟨'?', h1, by decide⟩
  rw [decide_eq_false_iff_not]
  intro hm
  simp only [List.mem_cons, List.not_mem_nil, or_false] at hm
  rcases hm with h | h | h <;> rw [h] at this <;> exact absurd this (by decide)

/-- A word with a non-ASCII character that is neither a space nor a digit is not a number. -/
theorem no_number (w : Str) (c : Char) (hc : c ∈ w) (ha : asciiOf c = '?') :
    cpython.isInt w = false ∧ cpython.isFloat (w.map fun c => if c = ',' then '.' else c) = false := by
  constructor
  · exact intAscii_strange _ (List.mem_map.2 ⟨c, hc, ha⟩)
  · show isFloat _ = false
    have hcomma : c ≠ ',' := by rintro rfl; exact absurd ha (by decide)
    have h0 : '?' ∈ (w.map fun c => if c = ',' then '.' else c).map asciiOf :=
      List.mem_map.2 ⟨c, List.mem_map.2 ⟨c, hc, by rw [if_neg hcomma]⟩, ha⟩
    have h1 := mem_dropWhile_of cSpace '?' (by decide) _ h0
    have h2 := List.mem_reverse.2 (mem_dropWhile_of cSpace '?' (by decide) _ (List.mem_reverse.2 h1))
    unfold isFloat
    dsimp only
    rw [floatAscii_strange, Bool.and_false]
    exact List.mem_filter.2 ⟨h2, by decide⟩

theorem no_float (w : Str) (c : Char) (hc : c ∈ w) (ha : asciiOf c = '?') : cpython.isFloat w = false := by
  have h1 := mem_dropWhile_of cSpace '?' (by decide) _ (List.mem_map.2 ⟨c, hc, ha⟩ : '?' ∈ w.map asciiOf)
  have h2 := List.mem_reverse.2 (mem_dropWhile_of cSpace '?' (by decide) _ (List.mem_reverse.2 h1))
  show isFloat _ = false
  unfold isFloat
  dsimp only
  rw [floatAscii_strange, Bool.and_false]
  exact List.mem_filter.2 ⟨h2, by decide⟩

theorem capital_initials : ∀ l ∈ ruInitialLetters ++ ukInitialLetters, lower l ≠ l := by decide +kernel

theorem ne_lower (k : Nat) : cpython.lower (neWord k) = neWord k := by
  apply lowerFrom_settled
  intro c hc
  rcases neWord_chars _ _ hc with rfl | rfl
  · exact ⟨by decide +kernel, by decide⟩
  · exact ⟨by decide +kernel, by decide⟩

theorem ne_strange : asciiOf 'н' = '?' := by decide +kernel
theorem ne_alpha : isAlpha 'н' = true := by decide +kernel
theorem ne_name : charName 'н' = some (c!"OTHER") := by decide +kernel
theorem ne_space : isSpace 'н' = false := by decide +kernel
theorem ne_punct : isPunct 'н' = false := by decide +kernel
theorem ne_fold : reFold 'н' ∉ c!"MDCLXVI\n" := by decide +kernel

theorem cp_isPunct : cpython.isPunct = isPunct := rfl
theorem cp_isSpace : cpython.isSpace = isSpace := rfl
theorem cp_isAlpha : cpython.isAlpha = isAlpha := rfl
theorem cp_charName : cpython.charName = charName := rfl
theorem cp_reFold : cpython.reFold = reFold := rfl

theorem ne_notInt (k : Nat) : cpython.isInt (neWord (k + 1)) = false := (no_number _ 'н' (by simp [neWord]) ne_strange).1

theorem ne_notFloat (k : Nat) : cpython.isFloat (neWord (k + 1)) = false := no_float _ 'н' (by simp [neWord]) ne_strange

theorem cpython_nePlain : cpython.NePlain where
  lower := ne_lower
  notInt := ne_notInt
  notFloat := ne_notFloat
  alpha := by rw [cp_isAlpha]; exact ne_alpha
  name := ⟨c!"OTHER", by rw [cp_charName]; exact ne_name, by decide⟩
  notSpace := by rw [cp_isSpace]; exact ne_space
  notPunct := by rw [cp_isPunct]; exact ne_punct
  fold := by rw [cp_reFold]; exact ne_fold

/-- The other facts about the interpreter that theorems of this development ask for: the initials are capitals (C13), не… is an ordinary word (C01). -/
theorem c80_interpreter : cpython.CapitalInitials ∧ cpython.NePlain := ⟨capital_initials, cpython_nePlain⟩

/-! ### The Tangut letters -/

/-- A Tangut ideograph stands before every letter, if any, that is not Latin. -/
def TangutFirst (w : Str) : Prop := ∃ a c b, w = a ++ c :: b ∧ isTangut c = true ∧ ∀ x ∈ a, isAlpha x = true → inTable latinTable x = true

theorem tangut_strange (c : Char) (h : isTangut c = true) : asciiOf c = '?' := by
  have hs : spaceTable.all (fun r => Nat.blt r.2 0x17000) = true := by decide +kernel
  have hz : zeros.all (fun z => Nat.blt (z + 10) 0x17000 || Nat.blt 0x18D08 z) = true := by decide +kernel
  have hb : 0x17000 ≤ c.toNat ∧ c.toNat ≤ 0x18D08 := by
    simp only [isTangut, Bool.or_eq_true, Bool.and_eq_true, decide_eq_true_eq] at h
    omega
  have h1 : isSpace c = false := by
    unfold isSpace inTable
    rw [List.any_eq_false]
    intro r hr hc
    have := List.all_eq_true.1 hs r hr
    simp only [Nat.blt_eq] at this
    simp only [Bool.and_eq_true, decide_eq_true_eq] at hc
    omega
  have h2 : zeros.find? (fun z => z ≤ c.toNat && c.toNat < z + 10) = none := by
    rw [List.find?_eq_none]
    intro z hz' hc
    have := List.all_eq_true.1 hz z hz'
    simp only [Bool.or_eq_true, Nat.blt_eq] at this
    simp only [Bool.and_eq_true, decide_eq_true_eq] at hc
    omega
  unfold asciiOf
  rw [if_neg (by omega), h1, h2]
  simp

/-- `is_latin` raises exactly on these words (`ValueError: no such name`); on the others it answers. -/
theorem isLatin_cpython (w : Str) : (TangutFirst w → isLatin cpython w = .error .valueError) ∧
    (¬ TangutFirst w → ∃ b, isLatin cpython w = .ok b) := by
  have hlat : isSub (c!"LATIN") (c!"LATIN") = true := by decide
  have hoth : isSub (c!"LATIN") (c!"OTHER") = false := by decide
  have key : (TangutFirst w → allLatin cpython w = .error .valueError) ∧ (¬ TangutFirst w → ∃ b, allLatin cpython w = .ok b) := by
    induction w with
    | nil =>
      refine ⟨?_, fun _ => ⟨true, rfl⟩⟩
      rintro ⟨a, c, b, h, _⟩
      cases a <;> cases h
    | cons d w ih =>
      have hstep : allLatin cpython (d :: w) = if isAlpha d then (if isTangut d then .error .valueError else
          if inTable latinTable d then allLatin cpython w else .ok false) else allLatin cpython w := by
        rw [allLatin]
        show (if isAlpha d then _ else _) = _
        split
        · have : isLatinChar cpython d = if isTangut d then .error .valueError else .ok (inTable latinTable d) := by
            unfold isLatinChar
            have : cpython.charName d = charName d := rfl
            rw [this]
            unfold charName
            rw [nameless_iff]
            by_cases h1 : isTangut d = true
            · simp [h1]
            · by_cases h2 : inTable latinTable d = true
              · simp [h1, h2, hlat]
              · simp [h1, h2, hoth]
          rw [this]
          by_cases h1 : isTangut d = true
          · simp [h1]
          · by_cases h2 : inTable latinTable d = true
            · simp [h1, h2]
            · simp [h1, h2]
        · rfl
      have hcons : (isAlpha d = true → inTable latinTable d = true) → isTangut d = false → (TangutFirst (d :: w) ↔ TangutFirst w) := by
        intro h1 h2
        constructor
        · rintro ⟨a, c, b, h, hc, ha⟩
          cases a with
          | nil => cases h; rw [h2] at hc; cases hc
          | cons x a => cases h; exact ⟨a, c, b, rfl, hc, fun x hx => ha x (by simp [hx])⟩
        · rintro ⟨a, c, b, rfl, hc, ha⟩
          refine ⟨d :: a, c, b, rfl, hc, fun x hx => ?_⟩
          rcases List.mem_cons.1 hx with rfl | hx
          · exact h1
          · exact ha x hx
      rw [hstep]
      by_cases hal : isAlpha d = true
      · rw [if_pos hal]
        by_cases ht : isTangut d = true
        · rw [if_pos ht]
          exact ⟨fun _ => rfl, fun h => absurd ⟨[], d, w, rfl, ht, by simp⟩ h⟩
        · rw [if_neg ht]
          by_cases hl : inTable latinTable d = true
          · rw [if_pos hl, hcons (fun _ => hl) (by simpa using ht)]
            exact ih
          · rw [if_neg hl]
            refine ⟨?_, fun _ => ⟨_, rfl⟩⟩
            rintro ⟨a, c, b, h, hc, ha⟩
            cases a with
            | nil => cases h; exact absurd hc ht
            | cons x a => cases h; exact absurd (ha d (by simp) hal) hl
      · rw [if_neg hal, hcons (fun h => absurd h hal)]
        · exact ih
        · cases ht : isTangut d with
          | false => rfl
          | true => exact absurd (tangut_alpha d ht) hal
  unfold isLatin
  constructor
  · intro h
    rw [if_pos]
    · exact key.1 h
    · obtain ⟨a, c, b, rfl, hc, _⟩ := h
      rw [List.any_eq_true]
      exact ⟨c, by simp, tangut_alpha c hc⟩
  · intro h
    split
    · exact key.2 h
    · exact ⟨_, rfl⟩

theorem tangut_no_punct (c : Char) (h : isTangut c = true) : cpython.isSpace c = false ∧ cpython.isPunct c = false := by
  have hs : spaceTable.all (fun r => Nat.blt r.2 0x17000) = true := by decide +kernel
  have hz : punctTable.all (fun r => Nat.blt r.2 0x17000 || Nat.blt 0x18D08 r.1) = true := by decide +kernel
  have hb : 0x17000 ≤ c.toNat ∧ c.toNat ≤ 0x18D08 := by
    simp only [isTangut, Bool.or_eq_true, Bool.and_eq_true, decide_eq_true_eq] at h
    omega
  constructor
  · show isSpace c = false
    unfold isSpace inTable
    rw [List.any_eq_false]
    intro r hr hc
    have := List.all_eq_true.1 hs r hr
    simp only [Nat.blt_eq] at this
    simp only [Bool.and_eq_true, decide_eq_true_eq] at hc
    omega
  · show isPunct c = false
    unfold isPunct inTable
    rw [List.any_eq_false]
    intro r hr hc
    have := List.all_eq_true.1 hz r hr
    simp only [Bool.or_eq_true, Nat.blt_eq] at this
    simp only [Bool.and_eq_true, decide_eq_true_eq] at hc
    omega

theorem initials_no_tangut : ∀ l ∈ ruInitialLetters ++ ukInitialLetters, ∀ c ∈ l, isTangut c = false := by decide +kernel

/-- **C80, defect.** With the default units, `parse(w)` and `tag(w)` raise `ValueError` for every unknown word in which a Tangut ideograph comes before every
letter that is not Latin. -/
theorem c80_tangut {S : Type} [Score S] (m : Morph S) (hm : IsRu m ∨ IsUk m) (he : m.env = cpython) (w : Str) (hw : TangutFirst w)
    (hu : m.wordIsKnown w = false) : m.parse w = .error .valueError ∧ m.tag w = .error .valueError := by
  obtain ⟨a, c, b, hwe, hc, ha⟩ := id hw
  have hmem : c ∈ w := by rw [hwe]; simp
  have hn := no_number w c hmem (tangut_strange c hc)
  have hl : w ∉ ruInitialLetters ++ ukInitialLetters := fun hl => by
    have := initials_no_tangut w hl c hmem
    rw [hc] at this; cases this
  have hl1 : w ∉ ruInitialLetters := fun h => hl (by simp [h])
  have hl2 : w ∉ ukInitialLetters := fun h => hl (by simp [h])
  have hd : lookup m.dict.words m.sub (m.env.lower w) = [] := by
    by_contra hne
    have := (known_iff m w).2 hne
    rw [hu] at this
    exact absurd this (by simp)
  have hdt : (m.dict.words.similarItemValues m.sub (m.env.lower w)).flatten = [] := by
    have hk : m.dict.words.similarKeys m.sub (m.env.lower w) = [] := by
      have := hu
      simpa [Morph.wordIsKnown, Dict.wordIsKnown] using this
    simp [Dawg.similarItemValues, hk]
  have hp : isPunctuation cpython w = false := by
    unfold isPunctuation
    rw [Bool.and_eq_false_iff]
    right
    rw [List.all_eq_false]
    exact ⟨c, hmem, by simp [tangut_no_punct c hc]⟩
  have hlat := (isLatin_cpython w).1 hw
  have hd' : lookup m.dict.words m.sub (cpython.lower w) = [] := he ▸ hd
  have hdt' : (m.dict.words.similarItemValues m.sub (cpython.lower w)).flatten = [] := he ▸ hdt
  rcases hm with ⟨cls, hm⟩ | ⟨cls, hm⟩
  · obtain ⟨_, _, _, _, hg⟩ := mkMorph_units hm
    constructor
    · show parseStep m (analyze m _) w = _
      unfold parseStep
      dsimp only
      rw [runParse_eq_firstGroup m _ w _ _ _ hg]
      simp [ruUnits, boundGroups, UnitSpec.bound, firstGroup, groupParse, unitParse, dictParse, he, hd', mapE, initialsParse, hl1, shapeTag, numberShape,
        hn.1, hn.2, hp, hlat, shapeParse]
    · show tagStep m (analyze m _) w = _
      unfold tagStep
      dsimp only
      rw [runTag_eq_firstGroup m _ w _ _ _ hg]
      simp [ruUnits, boundGroups, UnitSpec.bound, firstGroup, groupTag, unitTag, dictTag, he, hdt', mapE, initialsTag, hl1, shapeTag, numberShape,
        hn.1, hn.2, hp, hlat]
  · obtain ⟨_, _, _, _, hg⟩ := mkMorph_units hm
    constructor
    · show parseStep m (analyze m _) w = _
      unfold parseStep
      dsimp only
      rw [runParse_eq_firstGroup m _ w _ _ _ hg]
      simp [ukUnits, boundGroups, UnitSpec.bound, firstGroup, groupParse, unitParse, dictParse, he, hd', mapE, initialsParse, hl2, shapeTag,
        hlat, shapeParse]
    · show tagStep m (analyze m _) w = _
      unfold tagStep
      dsimp only
      rw [runTag_eq_firstGroup m _ w _ _ _ hg]
      simp [ukUnits, boundGroups, UnitSpec.bound, firstGroup, groupTag, unitTag, dictTag, he, hdt', mapE, initialsTag, hl2, shapeTag, hlat]

/-! ### Non-vacuity -/

/-- The small dictionary, run on CPython. -/
def Demo.morphC : Morph Rat := { Demo.morph with env := cpython }

theorem Demo.morphC_isRu : IsRu Demo.morphC := by
  refine ⟨Demo.cls, ?_⟩
  unfold mkMorph
  show (initUnits (ruUnits (S := Rat)) Demo.cls >>= fun r =>
    pure (⟨cpython, Demo.morph.dict, r.1, Demo.morph.sub, r.2, Demo.morph.est⟩ : Morph Rat)) = _
  rw [Demo.bound_ok]; rfl

/-- Every string without Tangut ideographs is analyzed; a Tangut ideograph alone, or after Latin letters, is not; after a Cyrillic letter it does no harm. -/
example : (∀ w, (∀ c ∈ w, isTangut c = false) → ∃ ps, Demo.morphC.parse w = .ok ps ∧ ps ≠ []) ∧
    Demo.morphC.parse (c!"𗀀") = .error .valueError ∧ Demo.morphC.tag (c!"a-𗀀ж") = .error .valueError ∧
    ¬ TangutFirst (c!"ж𗀀") := by
  refine ⟨fun w hw => ?_, ?_, ?_, ?_⟩
  · obtain ⟨⟨ps, h1, h2, _⟩, _⟩ := c80_total Demo.morphC (.inl Demo.morphC_isRu) rfl Demo.dict_wf (by decide +kernel)
      (by intro dawg h; simp [Demo.morphC, Demo.morph] at h) w hw
    exact ⟨ps, h1, h2⟩
  · exact (c80_tangut Demo.morphC (.inl Demo.morphC_isRu) rfl _ ⟨[], '𗀀', [], rfl, by decide, by simp⟩ (by decide +kernel)).1
  · exact (c80_tangut Demo.morphC (.inl Demo.morphC_isRu) rfl _ ⟨c!"a-", '𗀀', c!"ж", rfl, by decide, by decide +kernel⟩ (by decide +kernel)).2
  · intro h
    have := (isLatin_cpython _).1 h
    exact absurd this (by decide +kernel)

end Verif
