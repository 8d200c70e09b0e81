/-
C33 — paradigm extraction is invertible.
-/
import Verif.Lemmas.PyDict
import Verif.Lemmas.Run
import Verif.Props.C34

namespace Verif

/-- `strIndex` finds an occurrence, at the leftmost position. -/
theorem strIndex_some {x s : Str} {i : Nat} (h : strIndex x s = some i) : s.take i ++ x <+: s := by
  induction s generalizing i with
  | nil =>
    unfold strIndex at h
    split at h
    · next hx => simp at h; subst h; simp [hx]
    · simp at h
  | cons c cs ih =>
    unfold strIndex at h
    split at h
    · next hp => simp at h; subst h; simpa [List.isPrefixOf_iff_prefix] using hp
    · cases hs : strIndex x cs with
      | none => simp [hs] at h
      | some j => simp [hs] at h; subst h; simpa using ih hs

theorem strIndex_isSome {x s : Str} (h : x <:+: s) : ∃ i, strIndex x s = some i := by
  induction s with
  | nil => exact ⟨0, by simp [strIndex, List.infix_nil.1 h]⟩
  | cons c cs ih =>
    unfold strIndex
    split
    · exact ⟨0, rfl⟩
    · next hp =>
      rw [List.isPrefixOf_iff_prefix] at hp
      rcases List.infix_cons_iff.1 h with h | h
      · exact absurd h hp
      · obtain ⟨i, hi⟩ := ih h
        exact ⟨i + 1, by simp [hi]⟩

/-- Rebuild the lexeme from a stem and the rows `(suffix, tag, prefix)` of a paradigm. -/
def rebuild (stem : Str) (para : StrPara) : Lexeme := para.map fun r => (r.2.2 ++ stem ++ r.1, r.2.1)

theorem rebuild_zipWith (stem : Str) (lex : Lexeme) (prefixes : List Str)
    (h : List.Forall₂ (fun f p => p ++ stem <+: f.1) lex prefixes) : rebuild stem (List.zipWith (paraRow stem) lex prefixes) = lex := by
  induction h with
  | nil => rfl
  | cons hp _ ih =>
    simp only [List.zipWith_cons_cons, rebuild, List.map_cons] at ih ⊢
    rw [ih]
    congr 1
    obtain ⟨t, ht⟩ := hp
    ext1
    · simp only [paraRow, ← ht]
      rw [← List.length_append, List.drop_left]
    · rfl

/-- **C33, invertibility.** Whatever `_to_paradigm` returns for a lexeme, prefix + stem + suffix with the tag of each row, in order,
is the lexeme. -/
theorem c33_inverse (lex : Lexeme) (prefixes : List Str) (stem : Str) (para : StrPara)
    (h : toParadigm lex prefixes = .ok (stem, para)) : para.map (fun r => (r.2.2 ++ stem ++ r.1, r.2.1)) = lex := by
  show rebuild stem para = lex
  unfold toParadigm at h
  split at h
  · simp at h
  · simp only [Except.ok.injEq, Prod.mk.injEq] at h
    obtain ⟨rfl, rfl⟩ := h
    simp [rebuild, paraRow]
  · simp only [bind_ok_iff] at h
    obtain ⟨ps, hps, h⟩ := h
    split at h
    · simp only [Except.ok.injEq, Prod.mk.injEq] at h
      obtain ⟨rfl, rfl⟩ := h
      apply rebuild_zipWith
      rw [List.forall₂_map_right_iff, List.forall₂_same]
      intro x _; simp
    · simp only [Except.ok.injEq, Prod.mk.injEq] at h
      obtain ⟨rfl, rfl⟩ := h
      apply rebuild_zipWith
      refine ((mapE_ok_iff _ _ _).1 hps).imp ?_
      intro f p hfp
      unfold prefixBefore at hfp
      split at hfp
      · simp at hfp
      · next i hi =>
        simp only [Except.ok.injEq] at hfp
        subst hfp
        exact strIndex_some hi

/-- **C33, totality.** Every non-empty lexeme gets a stem and a paradigm. -/
theorem c33_total (lex : Lexeme) (hne : lex ≠ []) (prefixes : List Str) : ∃ stem para, toParadigm lex prefixes = .ok (stem, para) := by
  unfold toParadigm
  split
  · exact absurd rfl hne
  · exact ⟨_, _, rfl⟩
  · have hc := (c34_longest (lex.map Prod.fst) (by simpa using hne)).1
    obtain ⟨ps, hps⟩ := mapE_total (fun f : Str × Str => prefixBefore (longestCommonSubstring (lex.map Prod.fst)) f.1) lex (by
      intro f hf
      obtain ⟨i, hi⟩ := strIndex_isSome (hc f.1 (List.mem_map_of_mem hf))
      exact ⟨f.1.take i, by simp [prefixBefore, hi]⟩)
    simp only [hps, ok_bind]
    split
    · exact ⟨_, _, rfl⟩
    · exact ⟨_, _, rfl⟩

/-- **C33, prefixes.** If `''` is allowed, every prefix of the result is allowed. -/
theorem c33_prefixes (lex : Lexeme) (prefixes : List Str) (hnil : [] ∈ prefixes) (stem : Str) (para : StrPara)
    (h : toParadigm lex prefixes = .ok (stem, para)) : ∀ r ∈ para, r.2.2 ∈ prefixes := by
  have aux : ∀ (stem : Str) (lex : Lexeme) (ps : List Str), (∀ p ∈ ps, p ∈ prefixes) →
      ∀ r ∈ List.zipWith (paraRow stem) lex ps, r.2.2 ∈ prefixes := by
    intro stem lex
    induction lex with
    | nil => intro ps _ r hr; simp at hr
    | cons f lex ih =>
      intro ps hps r hr
      cases ps with
      | nil => simp at hr
      | cons p ps =>
        rw [List.zipWith_cons_cons, List.mem_cons] at hr
        rcases hr with rfl | hr
        · exact hps p (by simp)
        · exact ih ps (fun p hp => hps p (by simp [hp])) r hr
  unfold toParadigm at h
  split at h
  · simp at h
  · simp only [Except.ok.injEq, Prod.mk.injEq] at h
    obtain ⟨rfl, rfl⟩ := h
    simpa [paraRow] using hnil
  · simp only [bind_ok_iff] at h
    obtain ⟨ps, hps, h⟩ := h
    split at h
    · simp only [Except.ok.injEq, Prod.mk.injEq] at h
      obtain ⟨rfl, rfl⟩ := h
      exact aux _ _ _ (by simp only [List.mem_map]; rintro p ⟨_, _, rfl⟩; exact hnil)
    · next hany =>
      simp only [Except.ok.injEq, Prod.mk.injEq] at h
      obtain ⟨rfl, rfl⟩ := h
      refine aux _ _ _ fun p hp => ?_
      by_contra hc
      exact hany (List.any_eq_true.2 ⟨p, hp, by simpa using hc⟩)

/-- The stem is the longest possible one when the prefixes it leads to are all allowed: it is the longest common substring. -/
theorem c33_stem (a b : Str × Str) (lex : Lexeme) (prefixes : List Str) (stem : Str) (para : StrPara)
    (h : toParadigm (a :: b :: lex) prefixes = .ok (stem, para)) :
    stem = [] ∨ ((∀ f ∈ a :: b :: lex, stem <:+: f.1) ∧
      ∀ t : Str, (∀ f ∈ a :: b :: lex, t <:+: f.1) → t.length ≤ stem.length) := by
  have hl := c34_longest ((a :: b :: lex).map Prod.fst) (by simp)
  unfold toParadigm at h
  simp only [bind_ok_iff] at h
  obtain ⟨ps, hps, h⟩ := h
  split at h
  · simp only [Except.ok.injEq, Prod.mk.injEq] at h
    exact .inl h.1.symm
  · simp only [Except.ok.injEq, Prod.mk.injEq] at h
    obtain ⟨rfl, rfl⟩ := h
    right
    refine ⟨fun f hf => hl.1 f.1 (List.mem_map_of_mem hf), fun t ht => hl.2 t ?_⟩
    intro x hx
    obtain ⟨f, hf, rfl⟩ := List.mem_map.1 hx
    exact ht f hf

/-- The empty lexeme is refused (`zip(*[])` cannot be unpacked). -/
theorem c33_empty (prefixes : List Str) : toParadigm [] prefixes = .error .valueError := rfl

example : toParadigm [(c!"cat", c!"N"), (c!"cats", c!"P"), (c!"uncat", c!"U")] [c!"", c!"un"]
    = .ok (c!"cat", [(c!"", c!"N", c!""), (c!"s", c!"P", c!""), (c!"", c!"U", c!"un")]) := by decide +kernel

example : toParadigm [(c!"cat", c!"N"), (c!"uncat", c!"U")] [c!""]
    = .ok (c!"", [(c!"cat", c!"N", c!""), (c!"uncat", c!"U", c!"")]) := by decide +kernel

end Verif
