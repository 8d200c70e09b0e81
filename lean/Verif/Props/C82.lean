/-
C82 — restore_capitalization on CPython 3.11: the facts about letter case that C47 asks for.
-/
import Verif.Lemmas.CaseTables
import Verif.Props.C47

namespace Verif

open Cpython Unicode

/-- "Equal up to letter case": every character is lower-cased by itself, then upper-cased (`''.join(c.lower().upper() for c in s)`). -/
def pyFold (s : Str) : Str := s.flatMap fun c => cpythonCase.upper (cpythonCase.lower [c])

/-! ### Characters and code points -/

theorem validNat_spec {n : Nat} (h : validNat n = true) : (Char.ofNat n).toNat = n := by
  simp only [validNat, Bool.or_eq_true, Bool.and_eq_true, Nat.blt_eq] at h
  rcases h with h | h
  · exact toNat_ofNat_valid (.inl h)
  · exact toNat_ofNat_valid (.inr h)

theorem toNat_eq_iff (c d : Char) : c = d ↔ c.toNat = d.toNat := ⟨fun h => by rw [h], char_ext⟩

theorem lower_one (c : Char) : lower [c] = (lowNats c.toNat).map Char.ofNat := by
  unfold lower lowerFrom lowerAt lowNats
  by_cases h1 : c = 'Σ'
  · subst h1; decide
  · have e1 : Nat.beq c.toNat 0x3A3 = false := by
      cases h : Nat.beq c.toNat 0x3A3 with
      | false => rfl
      | true => exact absurd (char_ext ((Nat.eq_of_beq_eq_true h).trans (by decide))) h1
    rw [if_neg h1, e1]
    unfold lowerFull
    by_cases h2 : c = 'İ'
    · subst h2; decide
    · have e2 : Nat.beq c.toNat 0x130 = false := by
        cases h : Nat.beq c.toNat 0x130 with
        | false => rfl
        | true => exact absurd (char_ext ((Nat.eq_of_beq_eq_true h).trans (by decide))) h2
      rw [if_neg h2, e2, lowerNat_eq]
      simp [lowerFrom]

theorem lower_one_full (c : Char) (h : c ≠ 'Σ') : lower [c] = lowerFull c := by
  simp [lower, lowerFrom, lowerAt, h]

theorem settled_one (c d : Char) (h : d ∈ lower [c]) : Settled d := (settled_lowerFrom [] [c] d h).1

theorem lower_settled {d : Char} (h : Settled d) : lower [d] = [d] := lowerFrom_settled [] [d] (by simpa using h)

theorem lowNats_valid (c : Char) (t : Nat) (ht : t ∈ lowNats c.toNat) : (Char.ofNat t).toNat = t := by
  unfold lowNats at ht
  split at ht
  · simp only [List.mem_singleton] at ht; subst ht; decide
  · split at ht
    · simp only [List.mem_cons, List.not_mem_nil, or_false] at ht
      rcases ht with rfl | rfl <;> decide
    · simp only [List.mem_singleton] at ht
      rw [ht, ← lowerNat_eq]
      rcases lowerNat_cases c.toNat with h | h
      · rw [h, Char.ofNat_toNat]
      · exact (lowOk_spec h).2.2.2.1

theorem flatMap_ofNat (f : Nat → List Nat) (l : List Nat) (h : ∀ t ∈ l, (Char.ofNat t).toNat = t) :
    (l.map Char.ofNat).flatMap (fun c : Char => (f c.toNat).map Char.ofNat) = (l.flatMap f).map Char.ofNat := by
  induction l with
  | nil => rfl
  | cons t l ih =>
    rw [List.map_cons, List.flatMap_cons, List.flatMap_cons, List.map_append, ih fun t ht => h t (by simp [ht]), h t (by simp)]

theorem fold_one (c : Char) : cpythonCase.upper (cpythonCase.lower [c]) = (foldNats c.toNat).map Char.ofNat := by
  show (lower [c]).flatMap upperFull = _
  rw [lower_one]
  exact flatMap_ofNat upperNats _ (lowNats_valid c)

theorem pyFold_cons (c : Char) (s : Str) : pyFold (c :: s) = cpythonCase.upper (cpythonCase.lower [c]) ++ pyFold s := rfl

theorem pyFold_append (a b : Str) : pyFold (a ++ b) = pyFold a ++ pyFold b := List.flatMap_append

theorem pyFold_map (l : List Nat) (h : ∀ t ∈ l, (Char.ofNat t).toNat = t) : pyFold (l.map Char.ofNat) = (l.flatMap foldNats).map Char.ofNat := by
  rw [← flatMap_ofNat foldNats l h]
  unfold pyFold
  congr 1
  funext c
  exact fold_one c

theorem pyFold_upperFull (c : Char) : pyFold (upperFull c) = pyFold [c] := by
  unfold upperFull
  rcases upFacts c.toNat with h | h
  · rw [h]; simp [Char.ofNat_toNat]
  · rw [pyFold_map _ fun t ht => validNat_spec (h.valid t ht), h.fold, pyFold_cons, fold_one]
    simp [pyFold]

theorem pyFold_titleFull (c : Char) : pyFold (titleFull c) = pyFold [c] := by
  unfold titleFull
  rcases titleFacts c.toNat with h | h
  · rw [h]; simp [Char.ofNat_toNat]
  · rw [pyFold_map _ fun t ht => validNat_spec (h.valid t ht), h.fold, pyFold_cons, fold_one]
    simp [pyFold]

theorem pyFold_settled (l : Str) (h : ∀ d ∈ l, Settled d) : pyFold l = upper l := by
  induction l with
  | nil => rfl
  | cons d l ih =>
    rw [pyFold_cons, ih fun d hd => h d (by simp [hd])]
    show upper (lower [d]) ++ _ = _
    rw [lower_settled (h d (by simp))]
    simp [upper]

theorem pyFold_lowerAt (b : Str) (c : Char) (a : Str) : pyFold (lowerAt b c a) = pyFold [c] := by
  by_cases h : c = 'Σ'
  · subst h
    unfold lowerAt
    rw [if_pos rfl]
    split <;> decide +kernel
  · have : lowerAt b c a = lower [c] := by rw [lower_one_full c h]; simp [lowerAt, h]
    rw [this, pyFold_settled _ (settled_one c), pyFold_cons]
    simp [pyFold]
    rfl

theorem pyFold_lowerFrom (b s : Str) : pyFold (lowerFrom b s) = pyFold s := by
  induction s generalizing b with
  | nil => rfl
  | cons c s ih =>
    rw [lowerFrom, pyFold_append, ih, pyFold_lowerAt, ← pyFold_append]; rfl

theorem pyFold_upper (s : Str) : pyFold (upper s) = pyFold s := by
  induction s with
  | nil => rfl
  | cons c s ih =>
    show pyFold (upperFull c ++ upper s) = _
    rw [pyFold_append, ih, pyFold_upperFull, ← pyFold_append]; rfl

theorem pyFold_titleLoop (b : Str) (p : Bool) (s : Str) : pyFold (titleLoop b p s) = pyFold s := by
  induction s generalizing b p with
  | nil => rfl
  | cons c s ih =>
    rw [titleLoop, pyFold_append, ih]
    have : pyFold (if p = true then lowerAt b c s else titleFull c) = pyFold [c] := by
      split
      · exact pyFold_lowerAt b c s
      · exact pyFold_titleFull c
    rw [this, ← pyFold_append]; rfl

/-! ### Hyphens -/

theorem count_ofNat (l : List Nat) (hv : ∀ t ∈ l, validNat t = true) (h : ∀ t ∈ l, t ≠ 45) : (l.map Char.ofNat).count '-' = 0 := by
  rw [List.count_eq_zero]
  intro hm
  obtain ⟨t, ht, e⟩ := List.mem_map.1 hm
  have := congrArg Char.toNat e
  rw [validNat_spec (hv t ht)] at this
  exact h t ht (this.trans (by decide))

theorem count_not_hyphen (c : Char) (h : c.toNat ≠ 45) : [c].count '-' = 0 := by
  rw [List.count_eq_zero]
  intro hm
  rw [List.mem_singleton] at hm
  exact h (by rw [← hm]; decide)

theorem count_upperFull (c : Char) : (upperFull c).count '-' = [c].count '-' := by
  unfold upperFull
  rcases upFacts c.toNat with h | h
  · rw [h]; simp [Char.ofNat_toNat]
  · rw [count_ofNat _ h.valid h.hyphen, count_not_hyphen c h.notHyphen]

theorem count_titleFull (c : Char) : (titleFull c).count '-' = [c].count '-' := by
  unfold titleFull
  rcases titleFacts c.toNat with h | h
  · rw [h]; simp [Char.ofNat_toNat]
  · rw [count_ofNat _ h.valid h.hyphen, count_not_hyphen c h.notHyphen]

/-- What happens to one character that is lower-cased. -/
theorem lowerAt_cases (b : Str) (c : Char) (a : Str) :
    lowerAt b c a = [c] ∨ (c = 'İ' ∧ lowerAt b c a = ['i', '\u0307']) ∨
    (∃ d, lowerAt b c a = [d] ∧ (isU c = true ∨ isT c = true) ∧ isL d = true ∧ c ≠ '-' ∧ d ≠ '-') := by
  by_cases h1 : c = 'Σ'
  · subst h1
    right; right
    unfold lowerAt
    rw [if_pos rfl]
    split
    · exact ⟨'ς', rfl, by decide +kernel, by decide +kernel, by decide, by decide⟩
    · exact ⟨'σ', rfl, by decide +kernel, by decide +kernel, by decide, by decide⟩
  · by_cases h2 : c = 'İ'
    · right; left
      refine ⟨h2, ?_⟩
      subst h2; rfl
    · have e : lowerAt b c a = [Char.ofNat (lowerNat c.toNat)] := by simp [lowerAt, h1, lowerFull, h2]
      rw [e, lowerNat_eq]
      rcases everyEntry_spec lowerEntries_ok c.toNat with ⟨_, h⟩ | ⟨lo, hi, tlo, thi, t, he, e1, e2, e3, e4, e5⟩
      · left; rw [h, Char.ofNat_toNat]
      · right; right
        have hv : (Char.ofNat t).toNat = t := by
          rw [← e5, ← lowerNat_eq]
          rcases lowerNat_cases c.toNat with h | h
          · rw [h, Char.ofNat_toNat]
          · exact (lowOk_spec h).2.2.2.1
        simp only [lowerEntry, Bool.and_eq_true, Bool.or_eq_true, inTab_near e1 e2, inTab_near e3 e4] at he
        obtain ⟨⟨⟨hu, hl⟩, h45⟩, ht45⟩ := he
        refine ⟨Char.ofNat t, by rw [e5], ?_, ?_, ?_, ?_⟩
        · simpa only [isU, isT, inTab_iff] using hu
        · unfold isL; rw [inTab_iff, hv]; exact hl
        · rintro rfl; revert h45; decide
        · intro ht
          have := congrArg Char.toNat ht
          rw [hv] at this
          subst this; revert ht45; decide

theorem count_lowerAt (b : Str) (c : Char) (a : Str) : (lowerAt b c a).count '-' = [c].count '-' := by
  rcases lowerAt_cases b c a with h | ⟨rfl, h⟩ | ⟨d, h, _, _, h1, h2⟩
  · rw [h]
  · rw [h]; decide
  · rw [h]
    have e1 : [d].count '-' = 0 := by rw [List.count_eq_zero]; simpa using fun h => h2 h.symm
    have e2 : [c].count '-' = 0 := by rw [List.count_eq_zero]; simpa using fun h => h1 h.symm
    rw [e1, e2]

theorem count_lowerFrom (b s : Str) : (lowerFrom b s).count '-' = s.count '-' := by
  induction s generalizing b with
  | nil => rfl
  | cons c s ih => rw [lowerFrom, List.count_append, ih, count_lowerAt, ← List.count_append]; rfl

theorem count_upper (s : Str) : (upper s).count '-' = s.count '-' := by
  induction s with
  | nil => rfl
  | cons c s ih =>
    show (upperFull c ++ upper s).count '-' = _
    rw [List.count_append, ih, count_upperFull, ← List.count_append]; rfl

theorem count_titleLoop (b : Str) (p : Bool) (s : Str) : (titleLoop b p s).count '-' = s.count '-' := by
  induction s generalizing b p with
  | nil => rfl
  | cons c s ih =>
    rw [titleLoop, List.count_append, ih]
    have : (if p = true then lowerAt b c s else titleFull c).count '-' = [c].count '-' := by
      split
      · exact count_lowerAt b c s
      · exact count_titleFull c
    rw [this, ← List.count_append]; rfl

/-- **C82.** On CPython 3.11 the assumptions of C47 about Python's case methods hold, for all strings. -/
theorem c82_case_laws : CaseLaws cpythonCase pyFold where
  append := pyFold_append
  foldLower := pyFold_lowerFrom []
  foldUpper := pyFold_upper
  foldTitle := pyFold_titleLoop [] false
  hyphensLower := count_lowerFrom []
  hyphensUpper := count_upper
  hyphensTitle := count_titleLoop [] false

/-- **C82.** Whatever the word and the example, the restored word equals the word up to letter case and has as many hyphens. -/
theorem c82_restore (w e : Str) : pyFold (cpythonCase.restore w e) = pyFold w ∧ (cpythonCase.restore w e).count '-' = w.count '-' :=
  ⟨c47_same_up_to_case _ _ c82_case_laws w e, c47_hyphens _ _ c82_case_laws w e⟩

/-! ### Restoring twice -/

theorem upper_upper (s : Str) : upper (upper s) = upper s := by
  induction s with
  | nil => rfl
  | cons c s ih =>
    have e : upper (c :: s) = upperFull c ++ upper s := rfl
    rw [e]
    show (upperFull c ++ upper s).flatMap upperFull = _
    rw [List.flatMap_append]
    show _ ++ upper (upper s) = _
    rw [ih]
    congr 1
    unfold upperFull
    rcases upFacts c.toNat with h | h
    · rw [h]; simp [Char.ofNat_toNat, h]
    · rw [flatMap_ofNat upperNats _ fun t ht => validNat_spec (h.valid t ht)]
      congr 1
      have := h.stable
      generalize upperNats c.toNat = l at this
      induction l with
      | nil => rfl
      | cons t l ih => rw [List.flatMap_cons, this t (by simp), ih fun t ht => this t (by simp [ht])]; rfl

theorem lower_lower' (s : Str) : lower (lower s) = lower s :=
  lowerFrom_settled [] _ fun c hc => (settled_lowerFrom [] s c hc).1

theorem cased_nat (c : Char) : cased c = casedNat c.toNat := by simp [cased, casedNat, isL, isU, isT, inTab_iff]

theorem lowerAt_of_lowNats (b : Str) (c : Char) (a : Str) (h : lowNats c.toNat = [c.toNat]) : lowerAt b c a = [c] := by
  have hs : c ≠ 'Σ' := by rintro rfl; revert h; decide
  have : lowerAt b c a = lower [c] := by rw [lower_one_full c hs]; simp [lowerAt, hs]
  rw [this, lower_one, h]
  simp [Char.ofNat_toNat]

/-- Text that stays as it is when title-cased. -/
theorem titleLoop_stays (L : List Nat) (b : Str) (p q : Bool) (a : Str) (hv : ∀ t ∈ L, (Char.ofNat t).toNat = t) (h : stays p L = some q) :
    ∃ b', titleLoop b p (L.map Char.ofNat ++ a) = L.map Char.ofNat ++ titleLoop b' q a := by
  induction L generalizing b p with
  | nil => simp only [stays, Option.some.injEq] at h; subst h; exact ⟨b, rfl⟩
  | cons n L ih =>
    have hn := hv n (by simp)
    obtain ⟨hc, h⟩ : (if p = true then lowNats n = [n] else titleNats n = [n]) ∧ stays (casedNat n) L = some q := by
      rw [stays] at h
      cases p
      · by_cases hc : titleNats n = [n]
        · rw [hc] at h; exact ⟨hc, by simpa using h⟩
        · simp [hc] at h
      · by_cases hc : lowNats n = [n]
        · rw [hc] at h; exact ⟨hc, by simpa using h⟩
        · simp [hc] at h
    obtain ⟨b', hb'⟩ := ih (Char.ofNat n :: b) (casedNat n) (fun t ht => hv t (by simp [ht])) h
    refine ⟨b', ?_⟩
    rw [List.map_cons, List.cons_append, titleLoop, cased_nat, hn, hb']
    have : (if p = true then lowerAt b (Char.ofNat n) (L.map Char.ofNat ++ a) else titleFull (Char.ofNat n)) = [Char.ofNat n] := by
      cases p with
      | true =>
        rw [if_pos rfl] at hc ⊢
        exact lowerAt_of_lowNats _ _ _ (by rw [hn]; exact hc)
      | false =>
        rw [if_neg (by simp)] at hc ⊢
        unfold titleFull
        rw [hn, hc]; rfl
    rw [this]; rfl

/-- One step of title-casing is final. -/
theorem title_step (b0 : Str) (p : Bool) (c : Char) (s b a : Str) (hf : c.toNat ∉ fragileNats) :
    ∃ b', titleLoop b p ((if p = true then lowerAt b0 c s else titleFull c) ++ a) =
      (if p = true then lowerAt b0 c s else titleFull c) ++ titleLoop b' (cased c) a := by
  cases p with
  | false =>
    simp only [Bool.false_eq_true, if_false]
    have key : stays false (titleNats c.toNat) = some (casedNat c.toNat) ∧ ∀ t ∈ titleNats c.toNat, (Char.ofNat t).toNat = t := by
      rcases titleFacts c.toNat with h | h
      · refine ⟨by rw [h]; simp [stays, h], ?_⟩
        rw [h]; simp [Char.ofNat_toNat]
      · exact ⟨h.again.resolve_left hf, fun t ht => validNat_spec (h.valid t ht)⟩
    rw [cased_nat]
    exact titleLoop_stays _ b false _ a key.2 key.1
  | true =>
    simp only [if_true]
    rcases lowerAt_cases b0 c s with h | ⟨rfl, _⟩ | ⟨d, h, hu, hl, _, _⟩
    · rw [h]
      refine ⟨c :: b, ?_⟩
      rw [List.singleton_append, titleLoop, if_pos rfl]
      have hs : Settled c := by
        have : c ∈ lowerFrom b0 (c :: s) := by rw [lowerFrom, h]; simp
        exact (settled_lowerFrom b0 (c :: s) c this).1
      have : lowerAt b c a = [c] := by unfold lowerAt; rw [if_neg hs.notSigma, hs.same]
      rw [this]
    · exact absurd (by decide) hf
    · rw [h]
      refine ⟨d :: b, ?_⟩
      rw [List.singleton_append, titleLoop, if_pos rfl]
      have hs : Settled d := by
        have : d ∈ lowerFrom b0 (c :: s) := by rw [lowerFrom, h]; simp
        exact (settled_lowerFrom b0 (c :: s) d this).1
      have : lowerAt b d a = [d] := by unfold lowerAt; rw [if_neg hs.notSigma, hs.same]
      have hc : cased d = cased c := by
        unfold cased
        rw [hl]
        rcases hu with hu | hu <;> simp [hu]
      rw [this, hc]

theorem title_title (s : Str) (hf : ∀ c ∈ s, c.toNat ∉ fragileNats) : title (title s) = title s := by
  have key : ∀ (s : Str) (b b' : Str) (p : Bool), (∀ c ∈ s, c.toNat ∉ fragileNats) → titleLoop b' p (titleLoop b p s) = titleLoop b p s := by
    intro s
    induction s with
    | nil => intros; rfl
    | cons c s ih =>
      intro b b' p h
      rw [titleLoop]
      obtain ⟨b'', hb⟩ := title_step b p c s b' (titleLoop (c :: b) (cased c) s) (h c (by simp))
      rw [hb, ih _ _ _ fun c hc => h c (by simp [hc])]
  exact key s [] [] false hf

theorem sameCase_again (p x : Str) (h : cpythonCase.title (cpythonCase.title p) = cpythonCase.title p) :
    cpythonCase.sameCase (cpythonCase.sameCase p x) x = cpythonCase.sameCase p x := by
  have hl : ∀ s, cpythonCase.lower (cpythonCase.lower s) = cpythonCase.lower s := lower_lower'
  have hu : ∀ s, cpythonCase.upper (cpythonCase.upper s) = cpythonCase.upper s := upper_upper
  unfold CaseEnv.sameCase
  cases cpythonCase.isLower x <;> cases cpythonCase.isUpper x <;> cases cpythonCase.isTitle x <;> simp [hl, hu, h]

theorem mem_splitC_sub (sep : Char) (w p : Str) (hp : p ∈ splitC sep w) (c : Char) (hc : c ∈ p) : c ∈ w := by
  have h := joinC_splitC sep w
  generalize splitC sep w = ps at h hp
  subst h
  induction ps with
  | nil => cases hp
  | cons q ps ih =>
    cases ps with
    | nil =>
      simp only [List.mem_singleton] at hp; subst hp
      simpa [joinC] using hc
    | cons q' ps =>
      have e : joinC sep (q :: q' :: ps) = q ++ (sep :: joinC sep (q' :: ps)) := rfl
      rw [e]
      rcases List.mem_cons.1 hp with rfl | hp
      · simp [hc]
      · simp [ih hp]

/-- **C82.** Restoring twice is restoring once, for every example and every word without the characters that title-casing takes apart. -/
theorem c82_idempotent (w e : Str) (hf : ∀ c ∈ w, c.toNat ∉ fragileNats) :
    cpythonCase.restore (cpythonCase.restore w e) e = cpythonCase.restore w e := by
  by_cases he : '-' ∈ e
  · have hd : ∀ x, cpythonCase.restore x e = joinC '-' (cpythonCase.restoreParts (splitC '-' x) (splitC '-' e)) := fun x => by
      unfold CaseEnv.restore; rw [if_pos he]
    have hl : ∀ s, cpythonCase.lower (cpythonCase.lower s) = cpythonCase.lower s := lower_lower'
    have h2 : ∀ (ps es : List Str), (∀ p ∈ ps, ∀ c ∈ p, c.toNat ∉ fragileNats) →
        cpythonCase.restoreParts (cpythonCase.restoreParts ps es) es = cpythonCase.restoreParts ps es := by
      intro ps
      induction ps with
      | nil => intro es _; rfl
      | cons p ps ih =>
        intro es hp
        have hr := fun es => ih es fun q hq => hp q (by simp [hq])
        cases es with
        | nil => simp [CaseEnv.restoreParts, hl, hr]
        | cons x es => simp [CaseEnv.restoreParts, sameCase_again p x (title_title p (hp p (by simp))), hr]
    rw [hd (cpythonCase.restore w e), restore_split _ _ c82_case_laws w e he, h2 _ _ fun p hp c hc => hf c (mem_splitC_sub '-' w p hp c hc), hd w]
  · unfold CaseEnv.restore
    rw [if_neg he, if_neg he, sameCase_again w e (title_title w hf)]

/-! ### A word restored from itself -/

theorem lowerAt_of_notUT (b : Str) (c : Char) (a : Str) (hu : isU c = false) (ht : isT c = false) : lowerAt b c a = [c] := by
  rcases lowerAt_cases b c a with h | ⟨rfl, _⟩ | ⟨d, _, h, _⟩
  · exact h
  · exact absurd hu (by decide +kernel)
  · rw [hu, ht] at h; simp at h

theorem lower_of_isLower (s : Str) (h : isLowerStr s = true) : lower s = s := by
  unfold isLowerStr at h
  rw [Bool.and_eq_true, List.all_eq_true] at h
  have := h.2
  unfold lower
  generalize ([] : Str) = b
  clear h
  induction s generalizing b with
  | nil => rfl
  | cons c s ih =>
    have hc := this c (by simp)
    simp only [Bool.not_eq_true', Bool.or_eq_false_iff] at hc
    rw [lowerFrom, lowerAt_of_notUT b c s hc.1 hc.2, ih (fun d hd => this d (by simp [hd]))]
    rfl

theorem upper_of_isUpper (s : Str) (h : isUpperStr s = true) : upper s = s := by
  unfold isUpperStr at h
  rw [Bool.and_eq_true, List.all_eq_true] at h
  have := h.2
  clear h
  induction s with
  | nil => rfl
  | cons c s ih =>
    have hc := this c (by simp)
    simp only [Bool.not_eq_true', Bool.or_eq_false_iff, isL, isT, inTab_iff] at hc
    show upperFull c ++ upper s = _
    rw [ih fun d hd => this d (by simp [hd])]
    unfold upperFull
    rcases upFacts c.toNat with h | h
    · rw [h]; simp [Char.ofNat_toNat]
    · have := h.lower
      rw [hc.1, hc.2] at this; simp at this

theorem title_of_isTitle (s : Str) (hd : ∀ c ∈ s, c.toNat ∉ digraphNats) (h : isTitleStr s = true) : title s = s := by
  have key : ∀ (s : Str) (b : Str) (p f : Bool), (∀ c ∈ s, c.toNat ∉ digraphNats) → istitleLoop p f s = true → titleLoop b p s = s := by
    intro s
    induction s with
    | nil => intros; rfl
    | cons c s ih =>
      intro b p f hd h
      have hd' : ∀ d ∈ s, d.toNat ∉ digraphNats := fun d h => hd d (by simp [h])
      rw [istitleLoop] at h
      rw [titleLoop]
      by_cases h1 : (isU c || isT c) = true
      · rw [if_pos h1, Bool.and_eq_true, Bool.not_eq_true'] at h
        obtain ⟨rfl, h⟩ := h
        have hc : cased c = true := by
          unfold cased
          rw [Bool.or_eq_true] at h1
          rcases h1 with h1 | h1 <;> simp [h1]
        rw [hc, ih _ _ _ hd' h, if_neg (by simp)]
        have : titleFull c = [c] := by
          have e : titleNats c.toNat = [c.toNat] := by
            rcases titleFacts c.toNat with h | h
            · exact h
            · rcases h.title with h | h | h
              · simp only [notUT, Bool.and_eq_true, Bool.not_eq_true'] at h
                simp only [isU, isT, inTab_iff] at h1
                rw [h.1, h.2] at h1; cases h1
              · exact absurd h (hd c (by simp))
              · exact h
          unfold titleFull; rw [e]; simp [Char.ofNat_toNat]
        rw [this]; rfl
      · rw [if_neg h1] at h
        have hn : isU c = false ∧ isT c = false := by simpa using h1
        by_cases h2 : isL c = true
        · rw [if_pos h2, Bool.and_eq_true] at h
          obtain ⟨rfl, h⟩ := h
          have hc : cased c = true := by simp [cased, h2]
          rw [hc, ih _ _ _ hd' h, if_pos rfl, lowerAt_of_notUT b c s hn.1 hn.2]; rfl
        · rw [if_neg h2] at h
          have hc : cased c = false := by simp [cased, hn.1, hn.2, h2]
          rw [hc, ih _ _ _ hd' h]
          have : (if p = true then lowerAt b c s else titleFull c) = [c] := by
            split
            · exact lowerAt_of_notUT b c s hn.1 hn.2
            · unfold titleFull
              rcases titleFacts c.toNat with h | h
              · rw [h]; simp [Char.ofNat_toNat]
              · have := h.cased
                rw [← cased_nat, hc] at this; cases this
          rw [this]; rfl
  exact key s [] false false hd h

/-- **C82.** A word without the capital digraphs Ǆ, Ǉ, Ǌ, Ǳ, all of whose hyphen-separated parts are in lower, upper or title case, is restored from itself. -/
theorem c82_self (w : Str) (hd : ∀ c ∈ w, c.toNat ∉ digraphNats)
    (hw : ∀ p ∈ splitC '-' w, cpythonCase.isLower p = true ∨ cpythonCase.isUpper p = true ∨ cpythonCase.isTitle p = true) : cpythonCase.restore w w = w := by
  have h1 : ∀ p : Str, (∀ c ∈ p, c.toNat ∉ digraphNats) →
      (cpythonCase.isLower p = true ∨ cpythonCase.isUpper p = true ∨ cpythonCase.isTitle p = true) → cpythonCase.sameCase p p = p := by
    intro p hdp hp
    rcases sameCase_like cpythonCase p p with ⟨h, e⟩ | ⟨_, h, e⟩ | ⟨_, _, h, e⟩ | ⟨h2, h3, h4, _⟩
    · rw [e]; exact lower_of_isLower p h
    · rw [e]; exact upper_of_isUpper p h
    · rw [e]; exact title_of_isTitle p hdp h
    · rw [h2, h3, h4] at hp; simp at hp
  have h2 : ∀ ps : List Str, (∀ p ∈ ps, ∀ c ∈ p, c.toNat ∉ digraphNats) →
      (∀ p ∈ ps, cpythonCase.isLower p = true ∨ cpythonCase.isUpper p = true ∨ cpythonCase.isTitle p = true) → cpythonCase.restoreParts ps ps = ps := by
    intro ps
    induction ps with
    | nil => intro _ _; rfl
    | cons p ps ih =>
      intro hd h
      rw [CaseEnv.restoreParts, h1 p (hd p (by simp)) (h p (by simp)), ih (fun p hp => hd p (by simp [hp])) fun p hp => h p (by simp [hp])]
  by_cases he : '-' ∈ w
  · unfold CaseEnv.restore
    rw [if_pos he, h2 _ (fun p hp c hc => hd c (mem_splitC_sub '-' w p hp c hc)) hw, joinC_splitC]
  · unfold CaseEnv.restore
    rw [if_neg he]
    rw [splitC_of_not_mem '-' w he] at hw
    exact h1 w hd (hw w (by simp))

/-! ### The case of the result -/

/-- The letters of Russian, Ukrainian and English words (U+0400 to U+045F, Ґ, ґ, A to Z, a to z). -/
def plainLetter (c : Char) : Bool :=
  (65 ≤ c.toNat && c.toNat ≤ 90) || (97 ≤ c.toNat && c.toNat ≤ 122) || (0x400 ≤ c.toNat && c.toNat ≤ 0x45F) || c.toNat == 0x490 || c.toNat == 0x491

def plainNats : List Nat := (List.range 26).map (65 + ·) ++ (List.range 26).map (97 + ·) ++ (List.range 0x60).map (0x400 + ·) ++ [0x490, 0x491]

theorem plain_mem (c : Char) (h : plainLetter c = true) : c.toNat ∈ plainNats := by
  simp only [plainLetter, Bool.or_eq_true, Bool.and_eq_true, decide_eq_true_eq, beq_iff_eq] at h
  simp only [plainNats, List.mem_append, List.mem_map, List.mem_range, List.mem_cons, List.not_mem_nil, or_false]
  rcases h with (((h | h) | h) | h) | h
  · exact .inl (.inl (.inl ⟨c.toNat - 65, by omega, by omega⟩))
  · exact .inl (.inl (.inr ⟨c.toNat - 97, by omega, by omega⟩))
  · exact .inl (.inr ⟨c.toNat - 0x400, by omega, by omega⟩)
  · exact .inr (.inl h)
  · exact .inr (.inr h)

def capitalNat (t : Nat) : Bool := inTab isupperTable t && !inTab islowerTable t && !inTab istitleTable t
def smallNat (t : Nat) : Bool := inTab islowerTable t && !inTab isupperTable t && !inTab istitleTable t

theorem plain_table : plainNats.all (fun n => casedNat n && validNat (upperNat n) && validNat (lowerNat n) && (upperNats n == [upperNat n]) && (titleNats n == [upperNat n]) &&
    capitalNat (upperNat n) && smallNat (lowerNat n)) = true := by decide +kernel

theorem plain_spec (c : Char) (h : plainLetter c = true) : cased c = true ∧
    (∃ u, upperFull c = [u] ∧ titleFull c = [u] ∧ isU u = true ∧ isL u = false ∧ isT u = false) ∧
    (∀ b a, ∃ d, lowerAt b c a = [d] ∧ isL d = true ∧ isU d = false ∧ isT d = false) := by
  have hs := List.all_eq_true.1 plain_table _ (plain_mem c h)
  simp only [Bool.and_eq_true, beq_iff_eq, capitalNat, smallNat, Bool.not_eq_true'] at hs
  obtain ⟨⟨⟨⟨⟨⟨h1, h2⟩, h3⟩, h4⟩, h5⟩, h6⟩, h7⟩ := hs
  refine ⟨by rw [cased_nat]; exact h1, ⟨Char.ofNat (upperNat c.toNat), ?_, ?_, ?_⟩, ?_⟩
  · unfold upperFull; rw [h4]; rfl
  · unfold titleFull; rw [h5]; rfl
  · simp only [isU, isL, isT, inTab_iff, validNat_spec h2]
    exact ⟨h6.1.1, h6.1.2, h6.2⟩
  · intro b a
    refine ⟨Char.ofNat (lowerNat c.toNat), ?_, ?_⟩
    · have e1 : c ≠ 'Σ' := by rintro rfl; revert h; decide
      have e2 : c ≠ 'İ' := by rintro rfl; revert h; decide
      simp [lowerAt, e1, lowerFull, e2]
    · simp only [isU, isL, isT, inTab_iff, validNat_spec h3]
      exact ⟨h7.1.1, h7.1.2, h7.2⟩

theorem plain_lower (w : Str) (hw : w ≠ []) (h : ∀ c ∈ w, plainLetter c = true) : isLowerStr (lower w) = true := by
  have key : ∀ (w b : Str), (∀ c ∈ w, plainLetter c = true) → ∀ d ∈ lowerFrom b w, isL d = true ∧ isU d = false ∧ isT d = false := by
    intro w
    induction w with
    | nil => intro b _ d hd; cases hd
    | cons c w ih =>
      intro b h d hd
      rw [lowerFrom, List.mem_append] at hd
      rcases hd with hd | hd
      · obtain ⟨d', e, hd'⟩ := (plain_spec c (h c (by simp))).2.2 b w
        rw [e, List.mem_singleton] at hd
        subst hd; exact hd'
      · exact ih _ (fun c hc => h c (by simp [hc])) d hd
  have ha := key w [] h
  unfold isLowerStr
  rw [Bool.and_eq_true, List.any_eq_true, List.all_eq_true]
  refine ⟨?_, fun d hd => by simp [(ha d hd).2.1, (ha d hd).2.2]⟩
  cases w with
  | nil => exact absurd rfl hw
  | cons c w =>
    obtain ⟨d, e, hd⟩ := (plain_spec c (h c (by simp))).2.2 [] w
    exact ⟨d, by show d ∈ lowerFrom [] (c :: w); rw [lowerFrom, e]; simp, hd.1⟩

theorem plain_upper (w : Str) (hw : w ≠ []) (h : ∀ c ∈ w, plainLetter c = true) : isUpperStr (upper w) = true := by
  have ha : ∀ d ∈ upper w, isU d = true ∧ isL d = false ∧ isT d = false := by
    intro d hd
    obtain ⟨c, hc, hd⟩ := List.mem_flatMap.1 hd
    obtain ⟨u, e, _, hu⟩ := (plain_spec c (h c hc)).2.1
    rw [e, List.mem_singleton] at hd
    subst hd; exact hu
  unfold isUpperStr
  rw [Bool.and_eq_true, List.any_eq_true, List.all_eq_true]
  refine ⟨?_, fun d hd => by simp [(ha d hd).2.1, (ha d hd).2.2]⟩
  cases w with
  | nil => exact absurd rfl hw
  | cons c w =>
    obtain ⟨u, e, _, hu⟩ := (plain_spec c (h c (by simp))).2.1
    exact ⟨u, by show u ∈ upperFull c ++ upper w; rw [e]; simp, hu.1⟩

theorem plain_title (w : Str) (hw : w ≠ []) (h : ∀ c ∈ w, plainLetter c = true) : isTitleStr (title w) = true := by
  have key : ∀ (w b : Str), (∀ c ∈ w, plainLetter c = true) → istitleLoop true true (titleLoop b true w) = true := by
    intro w
    induction w with
    | nil => intros; rfl
    | cons c w ih =>
      intro b h
      obtain ⟨hc, _, hl⟩ := plain_spec c (h c (by simp))
      obtain ⟨d, e, h1, h2, h3⟩ := hl b w
      rw [titleLoop, if_pos rfl, e, hc, List.singleton_append, istitleLoop, h1, h2, h3]
      simpa using ih _ fun c hc => h c (by simp [hc])
  cases w with
  | nil => exact absurd rfl hw
  | cons c w =>
    obtain ⟨hc, ⟨u, _, e, h1, h2, h3⟩, _⟩ := plain_spec c (h c (by simp))
    unfold isTitleStr title
    rw [titleLoop, if_neg (by simp), e, hc, List.singleton_append, istitleLoop, h1]
    simpa using key w [c] fun c hc => h c (by simp [hc])

/-- **C82.** A non-empty word of Russian, Ukrainian or English letters gets the case of the example: lower from lower, upper from upper, title from title case, and lower
from anything else. -/
theorem c82_case_of_example (w e : Str) (hw : w ≠ []) (h : ∀ c ∈ w, plainLetter c = true) (he : '-' ∉ e) :
    (cpythonCase.isLower e = true → cpythonCase.isLower (cpythonCase.restore w e) = true) ∧
    (cpythonCase.isUpper e = true → cpythonCase.isUpper (cpythonCase.restore w e) = true) ∧
    (cpythonCase.isTitle e = true → cpythonCase.isUpper e = false → cpythonCase.isTitle (cpythonCase.restore w e) = true) ∧
    (cpythonCase.isUpper e = false → cpythonCase.isTitle e = false → cpythonCase.isLower (cpythonCase.restore w e) = true) := by
  have hl : cpythonCase.isLower (cpythonCase.lower w) = true := plain_lower w hw h
  have hu : cpythonCase.isUpper (cpythonCase.upper w) = true := plain_upper w hw h
  have ht : cpythonCase.isTitle (cpythonCase.title w) = true := plain_title w hw h
  have excl : ∀ e : Str, cpythonCase.isLower e = true → cpythonCase.isUpper e = false := by
    intro e h
    cases hu : cpythonCase.isUpper e with
    | false => rfl
    | true =>
      have h : isLowerStr e = true := h
      have hu : isUpperStr e = true := hu
      unfold isLowerStr at h
      unfold isUpperStr at hu
      rw [Bool.and_eq_true, List.any_eq_true, List.all_eq_true] at h hu
      obtain ⟨⟨c, hc, h1⟩, _⟩ := h
      have := hu.2 c hc
      rw [h1] at this; simp at this
  have exclT : ∀ e : Str, cpythonCase.isLower e = true → cpythonCase.isTitle e = false := by
    intro e h
    have h : isLowerStr e = true := h
    unfold isLowerStr at h
    rw [Bool.and_eq_true, List.all_eq_true, List.any_eq_true] at h
    have key : ∀ (e : Str), (∀ c ∈ e, isU c = false ∧ isT c = false) → istitleLoop false false e = false := by
      intro e
      induction e with
      | nil => intros; rfl
      | cons c e ih =>
        intro h
        rw [istitleLoop, (h c (by simp)).1, (h c (by simp)).2]
        have := ih fun c hc => h c (by simp [hc])
        cases isL c <;> simp [this]
    refine key e fun c hc => ?_
    have := h.2 c hc
    simpa using this
  rcases c47_whole cpythonCase w e he with ⟨h1, e1⟩ | ⟨h1, h2, e1⟩ | ⟨h1, h2, h3, e1⟩ | ⟨h1, h2, h3, e1⟩
  · rw [e1, h1, excl e h1, exclT e h1]; simp [hl]
  · rw [e1, h1, h2]; simp [hu]
  · rw [e1, h1, h2, h3]; simp [ht]
  · rw [e1, h1, h2, h3]; simp [hl]

example : (∀ c ∈ c!"хеллоуВорлд", plainLetter c = true) ∧ cpythonCase.isTitle (c!"Ǆa") = true ∧ cpythonCase.restore (c!"хеллоуВорлд") (c!"Привет") = c!"Хеллоуворлд" ∧
    cpythonCase.restore (c!"straße") (c!"USA") = c!"STRASSE" ∧ cpythonCase.restore (c!"ΟΔΟΣ") (c!"Ab-c") = c!"Οδος" := by decide +kernel

/-! ### Both exceptions are real -/

/-- **C82.** `'ΐa'.title()` is 'Ϊ́A' only after the second time; the word 'Ǆa' counts as titled and its title case is 'ǅa'. -/
theorem c82_exceptions :
    (∀ n ∈ fragileNats, ∃ e : Str, cpythonCase.restore (cpythonCase.restore ['a', Char.ofNat n, 'a'] e) e ≠ cpythonCase.restore ['a', Char.ofNat n, 'a'] e ∨
      cpythonCase.restore (cpythonCase.restore [Char.ofNat n, 'a'] e) e ≠ cpythonCase.restore [Char.ofNat n, 'a'] e) ∧
    (∀ n ∈ digraphNats, cpythonCase.isTitle [Char.ofNat n, 'a'] = true ∧ cpythonCase.restore [Char.ofNat n, 'a'] [Char.ofNat n, 'a'] ≠ [Char.ofNat n, 'a']) := by
  refine ⟨fun n hn => ⟨c!"Hello", ?_⟩, ?_⟩
  · revert n; decide +kernel
  · decide +kernel

end Verif
