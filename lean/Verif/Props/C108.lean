/-
C108 — the layout of the word files is unambiguous; in what order records come out of them.
-/
import Verif.Model.DawgKeys
import Verif.Model.Compile
import Verif.Lemmas.JsonText
import Mathlib.Tactic.SplitIfs
import Mathlib.Data.Char

namespace Verif

/-! ### Reading back -/

theorem b64Value_digit (d : Nat) (h : d < 64) : b64Value (b64Digit d) = d := by
  have : ∀ d < 64, b64Value (b64Digit d) = d := by decide
  exact this d h

theorem b64Digit_facts (d : Nat) (h : d < 64) : b64Digit d ≠ 61 ∧ 1 < b64Digit d := by
  unfold b64Digit
  split
  · omega
  · split
    · omega
    · split
      · omega
      · split <;> omega

theorem unb64_b64 (l : List Nat) (h : ∀ b ∈ l, b < 256) : unb64 (b64 l ++ [10]) = l := by
  induction l using b64.induct with
  | case1 a b c r ih =>
    simp only [List.mem_cons, forall_eq_or_imp] at h
    obtain ⟨ha, hb, hc, hr⟩ := h
    have f3 := (b64Digit_facts (b % 16 * 4 + c / 64) (by omega)).1
    have f4 := (b64Digit_facts (c % 64) (by omega)).1
    simp only [b64, List.cons_append, unb64]
    rw [if_neg f3, if_neg f4, ih hr, b64Value_digit _ (by omega), b64Value_digit _ (by omega), b64Value_digit _ (by omega), b64Value_digit _ (by omega)]
    congr 1
    · omega
    · congr 1
      · omega
      · congr 1; omega
  | case2 a b =>
    simp only [List.mem_cons, forall_eq_or_imp] at h
    obtain ⟨ha, hb, -⟩ := h
    have f3 := (b64Digit_facts (b % 16 * 4) (by omega)).1
    simp only [b64, List.cons_append, unb64]
    rw [if_neg f3, if_pos trivial, b64Value_digit _ (by omega), b64Value_digit _ (by omega), b64Value_digit _ (by omega)]
    congr 1
    · omega
    · congr 1; omega
  | case3 a =>
    simp only [List.mem_cons, forall_eq_or_imp] at h
    obtain ⟨ha, -⟩ := h
    simp only [b64, List.cons_append, unb64]
    rw [if_pos trivial, b64Value_digit _ (by omega), b64Value_digit _ (by omega)]
    congr 1; omega
  | case4 => rfl

theorem b64_no_sep (l : List Nat) (h : ∀ b ∈ l, b < 256) : ∀ c ∈ b64 l, c ≠ 1 := by
  induction l using b64.induct with
  | case1 a b c r ih =>
    simp only [List.mem_cons, forall_eq_or_imp] at h
    obtain ⟨ha, hb, hc, hr⟩ := h
    have f1 := (b64Digit_facts (a / 4) (by omega)).2
    have f2 := (b64Digit_facts (a % 4 * 16 + b / 16) (by omega)).2
    have f3 := (b64Digit_facts (b % 16 * 4 + c / 64) (by omega)).2
    have f4 := (b64Digit_facts (c % 64) (by omega)).2
    simp only [b64, List.mem_cons, forall_eq_or_imp]
    exact ⟨by omega, by omega, by omega, by omega, ih hr⟩
  | case2 a b =>
    simp only [List.mem_cons, forall_eq_or_imp] at h
    obtain ⟨ha, hb, -⟩ := h
    have f1 := (b64Digit_facts (a / 4) (by omega)).2
    have f2 := (b64Digit_facts (a % 4 * 16 + b / 16) (by omega)).2
    have f3 := (b64Digit_facts (b % 16 * 4) (by omega)).2
    simp only [b64, List.mem_cons, forall_eq_or_imp]
    exact ⟨by omega, by omega, by omega, by omega, by simp⟩
  | case3 a =>
    simp only [List.mem_cons, forall_eq_or_imp] at h
    obtain ⟨ha, -⟩ := h
    have f1 := (b64Digit_facts (a / 4) (by omega)).2
    have f2 := (b64Digit_facts (a % 4 * 16) (by omega)).2
    simp only [b64, List.mem_cons, forall_eq_or_imp]
    exact ⟨by omega, by omega, by omega, by omega, by simp⟩
  | case4 => simp [b64]

theorem pack_bytes (r : List Nat) (h : ∀ n ∈ r, n ≤ 65535) : ∀ b ∈ packRecord r, b < 256 := by
  intro b hb
  obtain ⟨n, hn, hb⟩ := List.mem_flatMap.1 hb
  have := h n hn
  simp only [packBE, List.mem_cons, List.not_mem_nil, or_false] at hb
  omega

theorem unpack_pack (r : List Nat) : unpackRecord (packRecord r) = r := by
  induction r with
  | nil => rfl
  | cons n r ih =>
    simp only [packRecord, List.flatMap_cons, packBE, List.cons_append, List.nil_append, unpackRecord]
    rw [show r.flatMap packBE = packRecord r from rfl, ih]
    congr 1; omega

/-! ### UTF-8 -/

theorem utf8_cons (c : Char) (s : Str) : utf8 (c :: s) = utf8Char c ++ utf8 s := by rw [utf8, List.flatMap_cons, ← utf8]
theorem utf8_append (s t : Str) : utf8 (s ++ t) = utf8 s ++ utf8 t := by simp [utf8]

theorem utf8_inj {s t : Str} (h : utf8 s = utf8 t) : s = t := by
  have := decode_utf8 s
  rw [h, decode_utf8 t] at this
  simpa using this.symm

/-- A byte of a character other than U+0000 and U+0001 is greater than 1. -/
theorem utf8Char_big (c : Char) (h : 1 < c.toNat) : ∀ b ∈ utf8Char c, 1 < b := by
  intro b hb
  unfold utf8Char at hb
  dsimp only at hb
  split at hb
  · simp at hb; omega
  · split at hb
    · simp at hb; omega
    · split at hb <;> simp at hb <;> omega

theorem utf8_big (s : Str) (h : ∀ c ∈ s, 1 < c.toNat) : ∀ b ∈ utf8 s, 1 < b := by
  intro b hb
  obtain ⟨c, hc, hb⟩ := List.mem_flatMap.1 hb
  exact utf8Char_big c (h c hc) b hb

/-- Characters in order have bytes in order. -/
theorem utf8Char_lt (a b : Char) (h : a < b) (x y : List Nat) : utf8Char a ++ x < utf8Char b ++ y := by
  have h' : a.toNat < b.toNat := h
  have ra := char_range a
  have rb := char_range b
  unfold utf8Char
  generalize a.toNat = n at *
  generalize b.toNat = k at *
  dsimp only
  split_ifs
  all_goals simp only [List.cons_append, List.nil_append, List.cons_lt_cons_iff]
  all_goals omega

theorem utf8Char_ne_nil (c : Char) : utf8Char c ≠ [] := by
  unfold utf8Char
  dsimp only
  split
  · simp
  · split
    · simp
    · split <;> simp

/-! ### Keys -/

/-- What can be stored: words without the characters U+0000 and U+0001, numbers of 16 bits. -/
def Storable (e : Str × List Nat) : Prop := (∀ c ∈ e.1, 1 < c.toNat) ∧ ∀ n ∈ e.2, n ≤ 65535

theorem recordText_no_sep (r : List Nat) (h : ∀ n ∈ r, n ≤ 65535) : (1 : Nat) ∉ recordText r := by
  intro hm
  rcases List.mem_append.1 hm with hm | hm
  · exact b64_no_sep _ (pack_bytes r h) 1 hm rfl
  · simp at hm

theorem recordText_read (r : List Nat) (h : ∀ n ∈ r, n ≤ 65535) : unpackRecord (unb64 (recordText r)) = r := by
  unfold recordText
  rw [unb64_b64 _ (pack_bytes r h), unpack_pack]

theorem utf8_no_sep (s : Str) (h : ∀ c ∈ s, 1 < c.toNat) : (1 : Nat) ∉ utf8 s := fun hm => absurd (utf8_big s h 1 hm) (by decide)

theorem takeWhile_sep (U R : List Nat) (h : (1 : Nat) ∉ U) : (U ++ 1 :: R).takeWhile (· ≠ 1) = U ∧ (U ++ 1 :: R).dropWhile (· ≠ 1) = 1 :: R := by
  induction U with
  | nil => simp
  | cons a U ih =>
    have ha : a ≠ 1 := fun e => h (by simp [e])
    have := ih (fun hm => h (by simp [hm]))
    simp only [List.cons_append, List.takeWhile_cons, List.dropWhile_cons]
    rw [if_pos (by simpa using ha), if_pos (by simpa using ha), this.1, this.2]
    exact ⟨rfl, rfl⟩

theorem sep_unique {A t U R : List Nat} (hU : (1 : Nat) ∉ U) (hR : (1 : Nat) ∉ R) (h : A ++ 1 :: t = U ++ 1 :: R) : A = U ∧ t = R := by
  have hc := congrArg (List.count 1) h
  simp only [List.count_append, List.count_cons_self, List.count_eq_zero_of_not_mem hU, List.count_eq_zero_of_not_mem hR] at hc
  have hA : (1 : Nat) ∉ A := by rw [← List.count_eq_zero]; omega
  have h1 := (takeWhile_sep A t hA).1
  rw [h, (takeWhile_sep U R hU).1] at h1
  subst h1
  simpa using h

theorem readKey_dawgKey (e : Str × List Nat) (he : Storable e) : readKey (dawgKey e) = e := by
  unfold readKey dawgKey
  obtain ⟨h1, h2⟩ := takeWhile_sep (utf8 e.1) (recordText e.2) (utf8_no_sep _ he.1)
  rw [h1, h2, decode_utf8, List.drop_one, List.tail_cons, recordText_read _ he.2]
  rfl

theorem dawgKey_inj {e e' : Str × List Nat} (he : Storable e) (he' : Storable e') (h : dawgKey e = dawgKey e') : e = e' := by
  rw [← readKey_dawgKey e he, h, readKey_dawgKey e' he']

theorem prefix_sep_iff (w : Str) (e : Str × List Nat) (he : Storable e) : (utf8 w ++ [1]) <+: dawgKey e ↔ e.1 = w := by
  constructor
  · rintro ⟨t, ht⟩
    rw [List.append_assoc, List.singleton_append] at ht
    exact (utf8_inj (sep_unique (utf8_no_sep _ he.1) (recordText_no_sep _ he.2) ht).1).symm
  · rintro rfl
    exact ⟨recordText e.2, by simp [dawgKey]⟩

theorem utf8_prefix_iff (p v : Str) : utf8 p <+: utf8 v ↔ p <+: v := by
  constructor
  · intro h
    by_cases he : utf8 p = utf8 v
    · exact (utf8_inj he) ▸ List.prefix_rfl
    · obtain ⟨q, t, hq, hv, -⟩ := decode_cut v _ h he
      rw [decode_utf8] at hq
      simp only [Option.some.injEq] at hq
      subst hq
      exact ⟨t, hv.symm⟩
  · rintro ⟨t, rfl⟩
    exact ⟨utf8 t, (utf8_append p t).symm⟩

theorem prefix_iff (p : Str) (hp : ∀ c ∈ p, 1 < c.toNat) (e : Str × List Nat) : utf8 p <+: dawgKey e ↔ p <+: e.1 := by
  rw [← utf8_prefix_iff]
  constructor
  · intro h
    rcases List.prefix_or_prefix_of_prefix h (List.prefix_append (utf8 e.1) (1 :: recordText e.2)) with h' | h'
    · exact h'
    · obtain ⟨t, ht⟩ := h'
      cases t with
      | nil => rw [List.append_nil] at ht; rw [ht]
      | cons b t =>
        exfalso
        obtain ⟨x, hx⟩ := h
        unfold dawgKey at hx
        rw [← ht, List.append_assoc, List.append_cancel_left_eq, List.cons_append, List.cons.injEq] at hx
        have : (1 : Nat) ∈ utf8 p := by rw [← ht, ← hx.1]; simp
        exact utf8_no_sep p hp this
  · intro h
    exact h.trans (List.prefix_append _ _)

/-! ### Order -/

theorem key_lt {s t : Str} (h : s < t) (hs : ∀ c ∈ s, 1 < c.toNat) (ht : ∀ c ∈ t, 1 < c.toNat) (x y : List Nat) : utf8 s ++ 1 :: x < utf8 t ++ 1 :: y := by
  induction s generalizing t with
  | nil =>
    cases t with
    | nil => exact absurd h (lt_irrefl _)
    | cons c t =>
      rw [utf8_cons]
      have hb := utf8Char_big c (ht c (by simp))
      have hn := utf8Char_ne_nil c
      cases hc : utf8Char c with
      | nil => exact absurd hc hn
      | cons b bs =>
        have := hb b (by rw [hc]; simp)
        simp only [utf8, List.flatMap_nil, List.nil_append, List.cons_append, List.cons_lt_cons_iff]
        exact .inl this
  | cons a s ih =>
    cases t with
    | nil => exact absurd h (by simp)
    | cons c t =>
      rw [utf8_cons, utf8_cons, List.append_assoc, List.append_assoc]
      rcases List.cons_lt_cons_iff.1 h with h1 | ⟨rfl, h1⟩
      · exact utf8Char_lt a c h1 _ _
      · exact List.append_left_lt (ih h1 (fun d hd => hs d (by simp [hd])) (fun d hd => ht d (by simp [hd])))

theorem key_order {e e' : Str × List Nat} (he : Storable e) (he' : Storable e') (h : dawgKey e < dawgKey e') :
    e.1 < e'.1 ∨ e.1 = e'.1 ∧ recordText e.2 < recordText e'.2 := by
  rcases lt_trichotomy e.1 e'.1 with h1 | h1 | h1
  · exact .inl h1
  · right
    refine ⟨h1, ?_⟩
    unfold dawgKey at h
    rw [h1] at h
    by_contra hn
    rcases (not_lt.1 hn).lt_or_eq with h2 | h2
    · exact absurd (lt_trans h (List.append_left_lt (List.cons_lt_cons_iff.2 (.inr ⟨rfl, h2⟩)))) (lt_irrefl _)
    · rw [h2] at h; exact absurd h (lt_irrefl _)
  · exact absurd (lt_trans h (key_lt h1 he'.1 he.1 _ _)) (lt_irrefl _)

/-! ### C108 -/

/-- **C108.** The documented layout of the word files implements what the rest of the model assumes of them: for every list of storable records there is a
list of the same records, each once, such that looking for the keys that begin with a word and the separator gives the records of this word in this list,
for any word asked, and listing the keys with a prefix gives the records of the words with the prefix.  In this list the words come in the order of their
code points, and the records of one word in the order of their texts. -/
theorem c108_layout (l : List (Str × List Nat)) (hl : ∀ e ∈ l, Storable e) :
    ∃ d : Dawg (List Nat), (∀ e, e ∈ d ↔ e ∈ l) ∧ d.Nodup ∧ (∀ w, fileVals (dawgFile l) w = d.vals w) ∧ (∀ w, fileHas (dawgFile l) w = d.has w) ∧
      (∀ p : Str, (∀ c ∈ p, 1 < c.toNat) → fileItems (dawgFile l) p = d.iteritems p) ∧
      d.Pairwise fun e e' => e.1 < e'.1 ∨ e.1 = e'.1 ∧ recordText e.2 < recordText e'.2 := by
  have hmem : ∀ k, k ∈ dawgFile l ↔ ∃ e ∈ l, dawgKey e = k := by
    intro k
    unfold dawgFile
    rw [List.mem_insertionSort, List.mem_dedup, List.mem_map]
  have hnd : (dawgFile l).Nodup := (List.perm_insertionSort _ _).nodup_iff.2 (List.nodup_dedup _)
  have hsort : (dawgFile l).Pairwise (· < ·) := by
    have h1 : (dawgFile l).Pairwise (· ≤ ·) := List.pairwise_insertionSort _ _
    exact (h1.and hnd).imp fun h => lt_of_le_of_ne h.1 h.2
  have hfile : dawgFile l = ((dawgFile l).map readKey).map dawgKey := by
    rw [List.map_map]
    conv_lhs => rw [← List.map_id (dawgFile l)]
    apply List.map_congr_left
    intro k hk
    obtain ⟨e, he, rfl⟩ := (hmem k).1 hk
    simp [readKey_dawgKey e (hl e he)]
  have hd : ∀ e, e ∈ (dawgFile l).map readKey ↔ e ∈ l := by
    intro e
    rw [List.mem_map]
    constructor
    · rintro ⟨k, hk, rfl⟩
      obtain ⟨e, he, rfl⟩ := (hmem k).1 hk
      rw [readKey_dawgKey e (hl e he)]; exact he
    · intro he
      exact ⟨dawgKey e, (hmem _).2 ⟨e, he, rfl⟩, readKey_dawgKey e (hl e he)⟩
  generalize hD : (dawgFile l).map readKey = d at hfile hd
  have hs : ∀ e ∈ d, Storable e := fun e he => hl e ((hd e).1 he)
  rw [hfile] at hnd hsort
  refine ⟨d, hd, List.Nodup.of_map _ hnd, ?_, ?_, ?_, ?_⟩
  · intro w
    rw [hfile]
    unfold fileVals Dawg.vals
    rw [List.filter_map, List.map_map]
    have : d.filter ((fun k => (utf8 w ++ [1]).isPrefixOf k) ∘ dawgKey) = d.filter fun e => decide (e.1 = w) := by
      apply List.filter_congr
      intro e he
      have := prefix_sep_iff w e (hs e he)
      rw [Bool.eq_iff_iff]
      simp only [Function.comp, List.isPrefixOf_iff_prefix, decide_eq_true_eq]
      exact this
    rw [this]
    apply List.map_congr_left
    intro e he
    have he' := List.mem_filter.1 he
    have hw : e.1 = w := of_decide_eq_true he'.2
    subst hw
    simp only [Function.comp]
    have : dawgKey e = (utf8 e.1 ++ [1]) ++ recordText e.2 := by simp [dawgKey]
    rw [this, List.drop_left, recordText_read _ (hs e he'.1).2]
  · intro w
    rw [hfile]
    unfold fileHas Dawg.has
    rw [List.any_map, Bool.eq_iff_iff]
    simp only [List.any_eq_true, Function.comp, List.isPrefixOf_iff_prefix, decide_eq_true_eq]
    constructor
    · rintro ⟨e, he, h⟩; exact ⟨e, he, (prefix_sep_iff w e (hs e he)).1 h⟩
    · rintro ⟨e, he, h⟩; exact ⟨e, he, (prefix_sep_iff w e (hs e he)).2 h⟩
  · intro p hp
    rw [hfile]
    unfold fileItems Dawg.iteritems
    rw [List.filter_map, List.map_map]
    have : d.filter ((fun k => (utf8 p).isPrefixOf k) ∘ dawgKey) = d.filter fun e => startsWith e.1 p := by
      apply List.filter_congr
      intro e he
      rw [Bool.eq_iff_iff]
      simp only [Function.comp, List.isPrefixOf_iff_prefix, startsWith_iff]
      exact prefix_iff p hp e
    rw [this]
    conv_rhs => rw [← List.map_id (d.filter fun e => startsWith e.1 p)]
    apply List.map_congr_left
    intro e he
    simp [readKey_dawgKey e (hs e (List.mem_filter.1 he).1)]
  · rw [List.pairwise_map] at hsort
    exact hsort.imp_of_mem fun ha hb h => key_order (hs _ ha) (hs _ hb) h

theorem form_text_lt (p i j : Nat) (h : i < j) (hj : j < 208) : recordText [p, i] < recordText [p, j] := by
  have dig : ∀ a b, a < b → b < 52 → b64Digit a < b64Digit b := by
    intro a b h1 h2
    unfold b64Digit
    split_ifs <;> omega
  have low : ∀ b < 4, ∀ a < b, b64Digit (a * 16) < b64Digit (b * 16) := by decide
  have e : ∀ k, k < 208 → recordText [p, k] = [b64Digit (p / 256 / 4), b64Digit (p / 256 % 4 * 16 + p % 256 / 16), b64Digit (p % 256 % 16 * 4 + 0 / 64),
      b64Digit (0 % 64), b64Digit (k / 4), b64Digit (k % 4 * 16), 61, 61, 10] := by
    intro k hk
    have h1 : k / 256 = 0 := by omega
    have h2 : k % 256 = k := by omega
    simp [recordText, packRecord, packBE, b64, h1, h2]
  rw [e i (by omega), e j hj]
  simp only [List.cons_lt_cons_iff, lt_self_iff_false, true_and, false_or]
  by_cases hq : i / 4 = j / 4
  · right
    exact ⟨by rw [hq], .inl (low _ (by omega) _ (by omega))⟩
  · left
    exact dig _ _ (by omega) (by omega)

/-- dawg.py:27 "this makes word forms properly sorted": the forms of one paradigm that have the same spelling come in the order of their numbers, as long as
the numbers are below 208. -/
theorem c108_forms (l : List (Str × List Nat)) (hl : ∀ e ∈ l, Storable e) (w : Str) :
    (fileVals (dawgFile l) w).Pairwise fun r r' => ∀ p i j, r = [p, i] → r' = [p, j] → i < 208 → j < 208 → i < j := by
  obtain ⟨d, -, -, hv, -, -, ho⟩ := c108_layout l hl
  rw [hv]
  unfold Dawg.vals
  rw [List.pairwise_map]
  refine (ho.filter _).imp_of_mem ?_
  rintro ⟨u, r⟩ ⟨u', r'⟩ h1 h2 h p i j rfl rfl hi hj
  have e1 : u = w := of_decide_eq_true (List.mem_filter.1 h1).2
  have e2 : u' = w := of_decide_eq_true (List.mem_filter.1 h2).2
  subst e1
  subst e2
  rcases h with h | ⟨-, h⟩
  · exact absurd h (lt_irrefl _)
  · by_contra hn
    rcases (not_lt.1 hn).lt_or_eq with h3 | h3
    · exact absurd (lt_trans h (form_text_lt p j i h3 hi)) (lt_irrefl _)
    · simp only at h
      rw [h3] at h
      exact absurd h (lt_irrefl _)

/-- Beyond that the records are not sorted by their numbers, as base64 does not keep the order of bytes: paradigm 13 comes before paradigm 0, and form 208
before form 0. -/
theorem c108_not_sorted : ∃ l : List (Str × List Nat), (∀ e ∈ l, Storable e) ∧
    fileVals (dawgFile l) (c!"стали") = [[13, 0], [0, 208], [0, 0]] := by
  refine ⟨[(c!"стали", [0, 0]), (c!"стали", [0, 208]), (c!"стали", [13, 0])], ?_, by decide +kernel⟩
  unfold Storable
  decide +kernel

/-! ### The compiler -/

/-- A `RecordDAWG` of pairs of numbers that is stored in this layout meets the contract of the compiler's model (`DawgBuild`), for what can be stored. -/
theorem c108_build : ∃ b : DawgBuild (Nat × Nat), ∀ l : List (Str × Nat × Nat), (∀ e ∈ l, Storable (e.1, [e.2.1, e.2.2])) → ∀ w,
    (b.build l).vals w = (fileVals (dawgFile (l.map fun e => (e.1, [e.2.1, e.2.2]))) w).map fun r => (r.getD 0 0, r.getD 1 0) := by
  classical
  have key : ∀ l : List (Str × Nat × Nat), ∃ d : Dawg (Nat × Nat), (∀ e, e ∈ d ↔ e ∈ l) ∧ d.Nodup ∧ ((∀ e ∈ l, Storable (e.1, [e.2.1, e.2.2])) → ∀ w,
      d.vals w = (fileVals (dawgFile (l.map fun e => (e.1, [e.2.1, e.2.2]))) w).map fun r => (r.getD 0 0, r.getD 1 0)) := by
    intro l
    by_cases hl : ∀ e ∈ l, Storable (e.1, [e.2.1, e.2.2])
    · obtain ⟨d, hm, hn, hv, -, -, -⟩ := c108_layout (l.map fun e => (e.1, [e.2.1, e.2.2])) (by
        intro e he
        obtain ⟨x, hx, rfl⟩ := List.mem_map.1 he
        exact hl x hx)
      have hpair : ∀ e ∈ d, e = (e.1, [e.2.getD 0 0, e.2.getD 1 0]) := by
        intro e he
        obtain ⟨x, hx, rfl⟩ := List.mem_map.1 ((hm e).1 he)
        simp
      refine ⟨d.map fun e => (e.1, e.2.getD 0 0, e.2.getD 1 0), ?_, ?_, ?_⟩
      · intro e
        rw [List.mem_map]
        constructor
        · rintro ⟨x, hx, rfl⟩
          obtain ⟨y, hy, rfl⟩ := List.mem_map.1 ((hm x).1 hx)
          simpa using hy
        · intro he
          exact ⟨(e.1, [e.2.1, e.2.2]), (hm _).2 (List.mem_map.2 ⟨e, he, rfl⟩), by simp⟩
      · refine List.Nodup.map_on ?_ hn
        intro x hx y hy hxy
        rw [hpair x hx, hpair y hy]
        simp only [Prod.mk.injEq] at hxy
        rw [hxy.1, hxy.2.1, hxy.2.2]
      · intro _ w
        rw [hv w]
        unfold Dawg.vals
        rw [List.filter_map, List.map_map, List.map_map]
        rfl
    · exact ⟨l.dedup, fun e => List.mem_dedup, List.nodup_dedup _, fun h => absurd h hl⟩
  choose f hf using key
  exact ⟨⟨f, fun l => (hf l).1, fun l => (hf l).2.1⟩, fun l => (hf l).2.2⟩

/-! ### Non-vacuity -/

/-- The words of docs/internals/dict.rst. -/
def Demo.records108 : List (Str × List Nat) :=
  [(c!"двор", [103, 0]), (c!"ёж", [104, 0]), (c!"дворник", [101, 2]), (c!"дворник", [102, 2]), (c!"ёжик", [101, 2]), (c!"ёжик", [102, 2])]

theorem Demo.records108_ok : ∀ e ∈ Demo.records108, Storable e := by
  unfold Storable
  decide +kernel

example : fileVals (dawgFile Demo.records108) (c!"дворник") = [[101, 2], [102, 2]] ∧ fileVals (dawgFile Demo.records108) (c!"дворни") = [] ∧
    (fileItems (dawgFile Demo.records108) (c!"дво")).map Prod.fst = [c!"двор", c!"дворник", c!"дворник"] := by
  decide +kernel

end Verif
