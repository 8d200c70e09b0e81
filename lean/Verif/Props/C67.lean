/-
C67 — compilation succeeds exactly when the source fits into 16-bit numbers.
-/
import Verif.Props.C66
import Verif.Props.C65
import Verif.Spec.Fits

namespace Verif

/-! ### The tag table -/

theorem addTag_nodup (s : CState) (t : Str) (h : s.gramtab.Nodup ∧ ∀ x ∈ s.gramtab, ∃ i, dictGet x s.tagIds = some i) :
    (s.addTag t).gramtab.Nodup ∧ ∀ x ∈ (s.addTag t).gramtab, ∃ i, dictGet x (s.addTag t).tagIds = some i := by
  unfold CState.addTag
  cases hg : dictGet t s.tagIds with
  | some i => exact h
  | none =>
    simp only
    have hnot : t ∉ s.gramtab := by
      intro hm
      obtain ⟨i, hi⟩ := h.2 t hm
      rw [hg] at hi; simp at hi
    refine ⟨?_, ?_⟩
    · rw [List.nodup_append]
      exact ⟨h.1, by simp, by intro a ha b hb; simp only [List.mem_singleton] at hb; subst hb; rintro rfl; exact hnot ha⟩
    · intro x hx
      simp only [dictGet_dictSet]
      by_cases hxt : x = t
      · exact ⟨_, by rw [if_pos hxt]⟩
      · rw [if_neg hxt]
        rcases List.mem_append.1 hx with hx | hx
        · exact h.2 x hx
        · exact absurd (List.mem_singleton.1 hx) hxt

theorem gramtab_nodup (pp : List Str) (ls : List Lexeme) (s s' : CState) (h : s.gramtab.Nodup ∧ ∀ x ∈ s.gramtab, ∃ i, dictGet x s.tagIds = some i)
    (hs : addLexemes pp ls s = .ok s') : s'.gramtab.Nodup ∧ ∀ x ∈ s'.gramtab, ∃ i, dictGet x s'.tagIds = some i := by
  induction ls generalizing s with
  | nil => simp only [addLexemes, Except.ok.injEq] at hs; subst hs; exact h
  | cons L ls ih =>
    simp only [addLexemes, bind_ok_iff] at hs
    obtain ⟨s1, h1, h2⟩ := hs
    refine ih s1 ?_ h2
    unfold CState.addLexeme at h1
    simp only [bind_ok_iff, pure_eq_ok, Except.ok.injEq] at h1
    obtain ⟨⟨stem, P⟩, hP, s2, hs2, id, hid, rfl⟩ := h1
    have hfold : ∀ (rows : StrPara) (s : CState), (s.gramtab.Nodup ∧ ∀ x ∈ s.gramtab, ∃ i, dictGet x s.tagIds = some i) →
        let s' := rows.foldl (fun s r => s.addTag r.2.1) s
        s'.gramtab.Nodup ∧ ∀ x ∈ s'.gramtab, ∃ i, dictGet x s'.tagIds = some i := by
      intro rows
      induction rows with
      | nil => intro s h; exact h
      | cons r rows ih => intro s h; exact ih _ (addTag_nodup s _ h)
    have h3 := hfold P s h
    simp only at hs2 h3 ⊢
    generalize List.foldl (fun s r => s.addTag r.2.1) s P = s1 at *
    unfold CState.addPara at hs2
    split at hs2
    · simp only [Except.ok.injEq] at hs2
      subst hs2; exact h3
    · simp only [bind_ok_iff, pure_eq_ok, Except.ok.injEq] at hs2
      obtain ⟨rows, -, rfl⟩ := hs2
      exact h3

/-! ### The sizes of the tables -/

/-- A list without repetitions with at most `n` members and what that means for positions. -/
theorem length_le_iff {α : Type} (l : List α) (n : Nat) : l.length ≤ n + 1 ↔ ∀ (i : Nat) a, l[i]? = some a → i ≤ n := by
  constructor
  · intro h i a ha
    have := (List.getElem?_eq_some_iff.1 ha).1
    omega
  · intro h
    by_contra hc
    have := h (n + 1) l[n + 1] (List.getElem?_eq_getElem (by omega))
    omega

theorem card_of_nodup {α : Type} [DecidableEq α] {l : List α} (hn : l.Nodup) {m : List α} (h : ∀ x, x ∈ l ↔ x ∈ m) :
    m.toFinset.card = l.length := by
  rw [← List.toFinset_card_of_nodup hn]
  congr 1
  ext x
  simp [h x]

/-- The numbering of the paradigms. -/
theorem numbering {pp : List Str} {ls : List Lexeme} {s : CState} (hi : CInv pp ls s) : ∃ paras : List StrPara, paras.Nodup ∧
    paras.length = s.paradigms.length ∧ ∀ (k : Nat) P, paras[k]? = some P ↔ dictGet P s.paraIds = some k := by
  have hex : ∀ k : Fin s.paradigms.length, ∃ P, dictGet P s.paraIds = some k.1 := fun k => hi.from_ k.1 k.2
  choose f hf using hex
  refine ⟨List.ofFn f, ?_, by simp, ?_⟩
  · rw [List.nodup_ofFn]
    intro a b hab
    have h1 := hf a
    have h2 := hf b
    rw [hab, h2] at h1
    simp only [Option.some.injEq] at h1
    exact Fin.ext h1.symm
  · intro k P
    constructor
    · intro hk
      obtain ⟨hk1, hk2⟩ := List.getElem?_eq_some_iff.1 hk
      rw [List.getElem_ofFn] at hk2
      rw [← hk2]; exact hf _
    · intro hk
      obtain ⟨rows, hrows, -⟩ := hi.para P k hk
      have hlt := (List.getElem?_eq_some_iff.1 hrows).1
      have : f ⟨k, hlt⟩ = P := hi.inj (hf ⟨k, hlt⟩) hk
      rw [List.getElem?_eq_some_iff]
      exact ⟨by simpa using hlt, by rw [List.getElem_ofFn]; exact this⟩

/-- The state after the loop over the lexemes, in terms of the lexemes. -/
structure Sizes (par : Lexeme → Str × StrPara) (ls : List Lexeme) (s : CState) : Prop where
  suffixes : (ls.flatMap fun L => (par L).2.map (·.1)).toFinset.card = (allSuffixes s.paradigms).length
  tags : (ls.flatMap fun L => L.map Prod.snd).toFinset.card = s.gramtab.length
  paradigms : (ls.map fun L => (par L).2).toFinset.card = s.paradigms.length
  rows : ∀ x : Str × Str × Str, (∃ L ∈ ls, x ∈ (par L).2) → ∃ rows ∈ s.paradigms, ∃ q ∈ rows, RowOf s.gramtab x q
  rows' : ∀ rows ∈ s.paradigms, ∀ q ∈ rows, ∃ L ∈ ls, ∃ r ∈ (par L).2, RowOf s.gramtab r q

theorem sizes_of {pp : List Str} {ls : List Lexeme} {s : CState} {par : Lexeme → Str × StrPara} (hpar : ∀ L ∈ ls, toParadigm L pp = .ok (par L))
    (hs : addLexemes pp ls CState.empty = .ok s) : Sizes par ls s := by
  have hi : CInv pp ls s := by simpa using cinv_loop pp ls [] CState.empty s (cinv_start _) hs
  have hg := gramtab_nodup pp ls CState.empty s ⟨by simp [CState.empty], by simp [CState.empty]⟩ hs
  have hhas : ∀ L ∈ ls, ∃ k, dictGet (par L).2 s.paraIds = some k := by
    intro L hL
    obtain ⟨st, Q, k, h1, h2⟩ := hi.has L hL
    rw [hpar L hL] at h1
    simp only [Except.ok.injEq] at h1
    exact ⟨k, by rw [h1]; exact h2⟩
  have hused : ∀ P k, dictGet P s.paraIds = some k → ∃ L ∈ ls, (par L).2 = P := by
    intro P k hk
    obtain ⟨L, hL, stem, h1⟩ := hi.used P k hk
    rw [hpar L hL] at h1
    simp only [Except.ok.injEq] at h1
    exact ⟨L, hL, by rw [h1]⟩
  have hrows : ∀ x : Str × Str × Str, (∃ L ∈ ls, x ∈ (par L).2) → ∃ rows ∈ s.paradigms, ∃ q ∈ rows, RowOf s.gramtab x q := by
    rintro x ⟨L, hL, hx⟩
    obtain ⟨k, hk⟩ := hhas L hL
    obtain ⟨rows, h1, h2⟩ := hi.para _ k hk
    obtain ⟨i, hi'⟩ := List.mem_iff_getElem?.1 hx
    obtain ⟨q, hq, hR⟩ := getElem?_forall₂ h2 i x hi'
    exact ⟨rows, List.mem_of_getElem? h1, q, List.mem_of_getElem? hq, hR⟩
  have hrows' : ∀ rows ∈ s.paradigms, ∀ q ∈ rows, ∃ L ∈ ls, ∃ r ∈ (par L).2, RowOf s.gramtab r q := by
    intro rows hr q hq
    obtain ⟨k, hk⟩ := List.mem_iff_getElem?.1 hr
    obtain ⟨P, hP⟩ := hi.from_ k (List.getElem?_eq_some_iff.1 hk).1
    obtain ⟨rows', h1, h2⟩ := hi.para P k hP
    rw [hk] at h1
    simp only [Option.some.injEq] at h1
    subst h1
    obtain ⟨L, hL, rfl⟩ := hused P k hP
    obtain ⟨r, hr', hR⟩ := forall₂_mem_right h2 hq
    exact ⟨L, hL, r, hr', hR⟩
  refine ⟨?_, ?_, ?_, hrows, hrows'⟩
  · apply card_of_nodup
    · unfold allSuffixes sortStrs
      exact (List.perm_insertionSort _ _).nodup_iff.2 (List.nodup_dedup _)
    · intro x
      rw [mem_allSuffixes]
      simp only [List.mem_flatMap, List.mem_map]
      constructor
      · rintro ⟨rows, h1, q, h2, rfl⟩
        obtain ⟨L, hL, r, hr, hR⟩ := hrows' rows h1 q h2
        exact ⟨L, hL, r, hr, hR.1.symm⟩
      · rintro ⟨L, hL, r, hr, rfl⟩
        obtain ⟨rows, h1, q, h2, hR⟩ := hrows r ⟨L, hL, hr⟩
        exact ⟨rows, h1, q, h2, hR.1⟩
  · apply card_of_nodup hg.1
    intro t
    simp only [List.mem_flatMap, List.mem_map]
    constructor
    · intro ht
      obtain ⟨L, hL, f, hf, rfl⟩ := hi.gram t ht
      exact ⟨L, hL, f, hf, rfl⟩
    · rintro ⟨L, hL, f, hf, rfl⟩
      have := c33_inverse L pp _ _ (hpar L hL)
      rw [← this] at hf
      obtain ⟨r, hr, rfl⟩ := List.mem_map.1 hf
      obtain ⟨rows, h1, q, h2, hR⟩ := hrows r ⟨L, hL, hr⟩
      exact List.mem_of_getElem? hR.2.2
  · obtain ⟨paras, hn, hl, hget⟩ := numbering hi
    rw [← hl]
    apply card_of_nodup hn
    intro P
    simp only [List.mem_map]
    constructor
    · intro h
      obtain ⟨k, hk⟩ := List.mem_iff_getElem?.1 h
      exact hused P k ((hget k P).1 hk)
    · rintro ⟨L, hL, rfl⟩
      obtain ⟨k, hk⟩ := hhas L hL
      exact List.mem_of_getElem? ((hget k _).2 hk)

/-! ### The steps of `finish` -/

/-- The paradigms can be written down. -/
theorem linear_iff {pp : List Str} {ls : List Lexeme} {s : CState} {par : Lexeme → Str × StrPara} (hpar : ∀ L ∈ ls, toParadigm L pp = .ok (par L))
    (hs : addLexemes pp ls CState.empty = .ok s) :
    (∃ paras, mapE (fun p => do
      let q ← fixStrings (enumDict (allSuffixes s.paradigms)) (enumDict pp) p
      linearized q) s.paradigms = .ok paras) ↔
    (∀ L ∈ ls, ∀ r ∈ (par L).2, ∃ k, k ≤ 65535 ∧ pp[k]? = some r.2.2 ∧ ∀ j, k < j → pp[j]? ≠ some r.2.2) ∧
      (allSuffixes s.paradigms).length ≤ 65536 ∧ s.gramtab.length ≤ 65536 := by
  have Z := sizes_of hpar hs
  have hg := gramtab_nodup pp ls CState.empty s ⟨by simp [CState.empty], by simp [CState.empty]⟩ hs
  have hi : CInv pp ls s := by simpa using cinv_loop pp ls [] CState.empty s (cinv_start _) hs
  constructor
  · rintro ⟨paras, h⟩
    have h2 : List.Forall₂ (LinPara (allSuffixes s.paradigms) pp) s.paradigms paras := by
      refine ((mapE_ok_iff _ _ _).1 h).imp ?_
      intro rows p hp
      simp only [bind_ok_iff] at hp
      obtain ⟨q, hq, hp⟩ := hp
      exact linPara_of _ _ _ _ _ hq hp
    have hat : ∀ rows ∈ s.paradigms, ∀ q ∈ rows, ∃ k, (allSuffixes s.paradigms)[k]? = some q.1 ∧ k ≤ 65535 ∧ q.2.1 ≤ 65535 ∧
        ∃ k', dictGet q.2.2 (enumDict pp) = some k' ∧ k' ≤ 65535 := by
      intro rows hr q hq
      obtain ⟨p, hp, hl⟩ := forall₂_mem_left h2 hr
      obtain ⟨i, hi'⟩ := List.mem_iff_getElem?.1 hq
      obtain ⟨⟨k, e1, e2⟩, e3, -⟩ := hl.at_ i q hi'
      obtain ⟨k', e4, e5⟩ := hl.preId i q hi'
      exact ⟨k, e2, hl.small _ (List.mem_of_getElem? e1), hl.small _ (List.mem_of_getElem? e3), k', e5, hl.small _ (List.mem_of_getElem? e4)⟩
    refine ⟨?_, ?_, ?_⟩
    · intro L hL r hr
      obtain ⟨rows, h1, q, h2, hR⟩ := Z.rows r ⟨L, hL, hr⟩
      obtain ⟨_, _, _, _, k', e1, e2⟩ := hat rows h1 q h2
      rw [hR.2.1, enumDict_last] at e1
      exact ⟨k', e2, e1.1, e1.2⟩
    · rw [length_le_iff _ 65535]
      intro i a ha
      obtain ⟨rows, h1, q, h2, h3⟩ := (mem_allSuffixes _ _).1 (List.mem_of_getElem? ha)
      obtain ⟨k, e1, e2, _⟩ := hat rows h1 q h2
      have hn : (allSuffixes s.paradigms).Nodup := by
        unfold allSuffixes sortStrs
        exact (List.perm_insertionSort _ _).nodup_iff.2 (List.nodup_dedup _)
      rw [h3, ← ha] at e1
      rw [(List.getElem?_inj (List.getElem?_eq_some_iff.1 ha).1 hn).1 e1.symm]; exact e2
    · rw [length_le_iff _ 65535]
      intro i a ha
      obtain ⟨L, hL, f, hf, hfa⟩ := hi.gram a (List.mem_of_getElem? ha)
      rw [← c33_inverse L pp _ _ (hpar L hL)] at hf
      obtain ⟨r, hr, rfl⟩ := List.mem_map.1 hf
      obtain ⟨rows, h1, q, h2, hR⟩ := Z.rows r ⟨L, hL, hr⟩
      obtain ⟨_, _, _, e3, _⟩ := hat rows h1 q h2
      have e4 := hR.2.2
      simp only at hfa
      rw [hfa, ← ha] at e4
      rw [(List.getElem?_inj (List.getElem?_eq_some_iff.1 ha).1 hg.1).1 e4.symm]; exact e3
  · rintro ⟨hpre, hsuf, htag⟩
    apply mapE_total
    intro rows hr
    have hq : ∃ q, fixStrings (enumDict (allSuffixes s.paradigms)) (enumDict pp) rows = .ok q := by
      apply mapE_total
      intro q hq
      obtain ⟨i, hi'⟩ := (enumDict_spec (allSuffixes s.paradigms) q.1).2 ((mem_allSuffixes _ _).2 ⟨rows, hr, q, hq, rfl⟩)
      obtain ⟨L, hL, r, hr', hR⟩ := Z.rows' rows hr q hq
      obtain ⟨k, _, e1, e2⟩ := hpre L hL r hr'
      have e3 := (enumDict_last pp r.2.2 k).2 ⟨e1, e2⟩
      rw [← hR.2.1] at e3
      rw [(dictAt_ok_iff _ _ _).2 hi', ok_bind, (dictAt_ok_iff _ _ _).2 e3, ok_bind]
      exact ⟨_, rfl⟩
    obtain ⟨q, hq⟩ := hq
    rw [hq, ok_bind]
    have hF := (mapE_ok_iff _ _ _).1 hq
    have hsmall : ∀ x ∈ q, x.1 ≤ 65535 ∧ x.2.1 ≤ 65535 ∧ x.2.2 ≤ 65535 := by
      intro x hx
      obtain ⟨y, hy, hyx⟩ := forall₂_mem_right hF hx
      simp only [bind_ok_iff, dictAt_ok_iff, pure_eq_ok, Except.ok.injEq] at hyx
      obtain ⟨a, ha, b, hb, rfl⟩ := hyx
      obtain ⟨L, hL, r, hr', hR⟩ := Z.rows' rows hr y hy
      have h1 := (List.getElem?_eq_some_iff.1 ((enumDict_spec _ _).1 _ ha)).1
      have h2 := (List.getElem?_eq_some_iff.1 hR.2.2).1
      obtain ⟨k, hk, e1, e2⟩ := hpre L hL r hr'
      have e3 := (enumDict_last pp r.2.2 k).2 ⟨e1, e2⟩
      rw [← hR.2.1, hb] at e3
      simp only [Option.some.injEq] at e3
      exact ⟨by simp only; omega, by simp only; omega, by simp only; omega⟩
    unfold linearized
    simp only
    rw [if_pos]
    · exact ⟨_, rfl⟩
    · intro n hn
      simp only [List.mem_append, List.mem_map] at hn
      simp only [maxH]
      rcases hn with (⟨x, hx, rfl⟩ | ⟨x, hx, rfl⟩) | ⟨x, hx, rfl⟩
      · exact (hsmall x hx).1
      · exact (hsmall x hx).2.1
      · exact (hsmall x hx).2.2

/-- The words can be stored. -/
theorem wordsFit_iff {pp : List Str} {ls : List Lexeme} {s : CState} {par : Lexeme → Str × StrPara} (hne : ∀ L ∈ ls, L ≠ [])
    (hpar : ∀ L ∈ ls, toParadigm L pp = .ok (par L)) (hi : CInv pp ls s) :
    (∀ e ∈ s.words, e.2.1 ≤ maxH ∧ e.2.2 ≤ maxH) ↔ s.paradigms.length ≤ 65536 ∧ ∀ L ∈ ls, L.length ≤ 65536 := by
  have hlen : ∀ L ∈ ls, (par L).2.length = L.length := by
    intro L hL
    have := c33_inverse L pp _ _ (hpar L hL)
    have := congrArg List.length this
    simpa [rebuild] using this
  constructor
  · intro h
    refine ⟨?_, ?_⟩
    · by_contra hc
      obtain ⟨P, hP⟩ := hi.from_ 65536 (by omega)
      obtain ⟨L, hL, stem, h1⟩ := hi.used P _ hP
      have h2 := h1
      rw [hpar L hL] at h2
      simp only [Except.ok.injEq] at h2
      have h3 := hlen L hL
      rw [h2] at h3
      have h4 : 0 < L.length := List.length_pos_iff.2 (hne L hL)
      have h5 : 0 < P.length := by simp only at h3; omega
      have := (h (P[0].2.2 ++ stem ++ P[0].1, 65536, 0) ((hi.words _).2 ⟨L, hL, stem, P, h1, hP, P[0], List.getElem?_eq_getElem h5, rfl⟩)).1
      simp only [maxH] at this
      omega
    · intro L hL
      by_contra hc
      obtain ⟨st, Q, k, h1, h2⟩ := hi.has L hL
      have h3 := hlen L hL
      have h4 := hpar L hL
      rw [h1] at h4
      simp only [Except.ok.injEq] at h4
      rw [← h4] at h3
      have h5 : 65536 < Q.length := by simp only at h3; omega
      have := (h (Q[65536].2.2 ++ st ++ Q[65536].1, k, 65536) ((hi.words _).2 ⟨L, hL, st, Q, h1, h2, Q[65536], List.getElem?_eq_getElem h5, rfl⟩)).2
      simp only [maxH] at this
      omega
  · rintro ⟨h1, h2⟩ e he
    obtain ⟨L, hL, stem, P, hP, hk, r, hr, -⟩ := (hi.words e).1 he
    obtain ⟨rows, hrows, -⟩ := hi.para P _ hk
    have h3 := (List.getElem?_eq_some_iff.1 hrows).1
    have h4 := (List.getElem?_eq_some_iff.1 hr).1
    have h5 := hlen L hL
    rw [hpar L hL] at hP
    simp only [Except.ok.injEq] at hP
    rw [hP] at h5
    have h6 := h2 L hL
    simp only [maxH]
    simp only at h5
    omega

theorem wordsDawg_ok (bw : DawgBuild (Nat × Nat)) (l : List (Str × Nat × Nat)) :
    (∃ d, wordsDawg bw l = .ok d) ↔ ∀ e ∈ l, e.2.1 ≤ maxH ∧ e.2.2 ≤ maxH := by
  unfold wordsDawg
  split
  · next h => exact ⟨fun _ => h, fun _ => ⟨_, rfl⟩⟩
  · next h => exact ⟨fun ⟨d, hd⟩ => (by cases hd), fun h' => absurd h' h⟩

theorem predDawg_ok (bp : DawgBuild (Nat × Nat × Nat)) (l : List (Str × Nat × Nat × Nat)) :
    (∃ d, predDawg bp l = .ok d) ↔ ∀ e ∈ l, e.2.1 ≤ maxH ∧ e.2.2.1 ≤ maxH ∧ e.2.2.2 ≤ maxH := by
  unfold predDawg
  split
  · next h => exact ⟨fun _ => h, fun _ => ⟨_, rfl⟩⟩
  · next h => exact ⟨fun ⟨d, hd⟩ => (by cases hd), fun h' => absurd h' h⟩

theorem Extracts.ne_nil {allowed : List Str} {lex : Lexeme} {stem : Str} {rows : StrPara} (h : Extracts allowed lex stem rows) : lex ≠ [] := by
  cases h with
  | single => simp
  | common _ _ _ _ hlen => rintro rfl; simp at hlen
  | whole _ _ _ _ hlen => rintro rfl; simp at hlen

/-- **C67.** The compiler accepts a list of lexemes exactly when they fit. -/
theorem c67_compile_iff (bw : DawgBuild (Nat × Nat)) (bp : DawgBuild (Nat × Nat × Nat)) (o : COptions) (ls : List Lexeme)
    (par : Lexeme → Str × StrPara) (hpar : ∀ L ∈ ls, Extracts o.paradigmPrefixes L (par L).1 (par L).2) :
    (∃ c, compileLexemes bw bp o ls = .ok c) ↔ Fits o par ls := by
  have hne : ∀ L ∈ ls, L ≠ [] := fun L hL => (hpar L hL).ne_nil
  have hpar' : ∀ L ∈ ls, toParadigm L o.paradigmPrefixes = .ok (par L) := fun L hL => (c33_exact _ _ _ _).2 (hpar L hL)
  obtain ⟨s, hs⟩ := addLexemes_total o.paradigmPrefixes ls [] CState.empty (cinv_start _) hne
  have hi : CInv o.paradigmPrefixes ls s := by simpa using cinv_loop o.paradigmPrefixes ls [] CState.empty s (cinv_start _) hs
  have hP := pinv_of o.paradigmPrefixes par ls s hpar' hs
  have Z := sizes_of hpar' hs
  have hlin := linear_iff hpar' hs
  have hwords := wordsFit_iff hne hpar' hi
  have hfin : (∃ c, compileLexemes bw bp o ls = .ok c) ↔ ∃ c, finish bw bp o s = .ok c := by
    unfold compileLexemes
    rw [hs, ok_bind]
  rw [hfin]
  -- what remains once the paradigms are written
  have hguess : ∀ paras, mapE (fun p => do
      let q ← fixStrings (enumDict (allSuffixes s.paradigms)) (enumDict o.paradigmPrefixes) p
      linearized q) s.paradigms = .ok paras → (∀ e ∈ s.words, e.2.1 ≤ maxH ∧ e.2.2 ≤ maxH) →
      ∃ data, predictionData s.words s.popularity s.gramtab paras (allSuffixes s.paradigms) o.paradigmPrefixes
        o.minEndingFreq o.minParadigmPopularity o.maxSuffixLength = .ok data ∧
        ((∃ pred, mapE (predDawg bp) data = .ok pred) ↔ ∀ pre e cnt P idx,
          BestGuess (observations par o.minParadigmPopularity o.maxSuffixLength ls) o.minEndingFreq pre e cnt P idx → cnt ≤ 65535) := by
    intro paras hparas hw
    let c0 : Compiled := ⟨s.gramtab, allSuffixes s.paradigms, paras, [], [], o.paradigmPrefixes, o.maxSuffixLength⟩
    have T : Tables o.paradigmPrefixes ls s c0 := by
      refine ⟨hi, rfl, rfl, ((mapE_ok_iff _ _ _).1 hparas).imp ?_⟩
      intro rows p hp
      simp only [bind_ok_iff] at hp
      obtain ⟨q, hq, hp⟩ := hp
      exact linPara_of _ _ _ _ _ hq hp
    obtain ⟨hits, hhits⟩ := mapE_total
      (hitsOf (popularKeys s.popularity o.minParadigmPopularity) s.gramtab paras (allSuffixes s.paradigms) o.paradigmPrefixes o.maxSuffixLength)
      s.words (by
        intro e he
        obtain ⟨x, hx, _⟩ := hitsOf_ok T (popularKeys s.popularity o.minParadigmPopularity) o.maxSuffixLength e he
        exact ⟨x, hx⟩)
    have hbest := dawg_best o T hpar' hP hits hhits
    refine ⟨_, by unfold predictionData; rw [hhits, ok_bind]; rfl, ?_⟩
    have hrows : ∀ P idx e, 1 ≤ (observations par o.minParadigmPopularity o.maxSuffixLength ls).count ⟨P, idx, e⟩ →
        ∃ L ∈ ls, P = (par L).2 ∧ ∃ r, P[idx]? = some r := by
      intro P idx e h
      have hx := List.count_pos_iff.1 h
      rw [mem_observations] at hx
      obtain ⟨L, hL, _, _, hpx, r, hr, _⟩ := hx
      simp only at hpx hr
      exact ⟨L, hL, hpx, r, by rw [hpx]; exact hr⟩
    constructor
    · rintro ⟨pred, hpred⟩ pre e cnt P idx hb
      obtain ⟨r, hr, hrp, -⟩ := hb.row
      have h1 := hb.pos
      rw [hb.count] at h1
      obtain ⟨L, hL, hPL, -⟩ := hrows P idx e h1
      obtain ⟨k, hk, e1, e2⟩ := (hlin.1 ⟨paras, hparas⟩).1 L hL r (hPL ▸ List.mem_of_getElem? hr)
      rw [hrp] at e1 e2
      obtain ⟨st, Q, para, g1, g2⟩ := hi.has L hL
      rw [hpar' L hL] at g1
      simp only [Except.ok.injEq] at g1
      have g2 : dictGet P s.paraIds = some para := by rw [hPL, g1]; exact g2
      have hmem := (hbest k pre e1 e cnt para idx).2 ⟨e2, P, g2, hb⟩
      have hkl := (List.getElem?_eq_some_iff.1 e1).1
      obtain ⟨t, -, ht⟩ := forall₂_mem_left ((mapE_ok_iff _ _ _).1 hpred)
        (List.mem_map_of_mem (f := dawgData hits.flatten o.minEndingFreq) (List.mem_range.2 hkl))
      exact ((predDawg_ok bp _).1 ⟨t, ht⟩ _ hmem).1
    · intro hc
      apply mapE_total
      intro data hdata
      obtain ⟨k, hk, rfl⟩ := List.mem_map.1 hdata
      rw [predDawg_ok]
      rintro ⟨e, cnt, para, idx⟩ he
      have hkl := List.mem_range.1 hk
      obtain ⟨-, P, hPk, hb⟩ := (hbest k _ (List.getElem?_eq_getElem hkl) e cnt para idx).1 he
      have h1 := hb.pos
      rw [hb.count] at h1
      obtain ⟨L, hL, hPL, r, hr⟩ := hrows P idx e h1
      obtain ⟨h2, h3⟩ := hwords.1 hw
      obtain ⟨rows, hrows', -⟩ := hi.para P _ hPk
      have h4 := (List.getElem?_eq_some_iff.1 hrows').1
      have h5 := (List.getElem?_eq_some_iff.1 hr).1
      have h6 : P.length = L.length := by
        have := congrArg List.length (c33_inverse L _ _ _ (hpar' L hL))
        rw [hPL]; simpa [rebuild] using this
      have h7 := h3 L hL
      refine ⟨hc _ _ _ _ _ hb, ?_, ?_⟩
      · simp only [maxH]; omega
      · simp only [maxH]; omega
  constructor
  · rintro ⟨c, h⟩
    unfold finish at h
    simp only [bind_ok_iff, pure_eq_ok, Except.ok.injEq] at h
    obtain ⟨paras, hparas, data, hdata, words, hwd, pred, hpred, -⟩ := h
    have hw := (wordsDawg_ok bw _).1 ⟨words, hwd⟩
    obtain ⟨h1, h2, h3⟩ := hlin.1 ⟨paras, hparas⟩
    obtain ⟨h4, h5⟩ := hwords.1 hw
    obtain ⟨data', hd', hg⟩ := hguess paras hparas hw
    rw [hdata] at hd'
    simp only [Except.ok.injEq] at hd'
    subst hd'
    exact ⟨h1, by rw [Z.suffixes]; exact h2, by rw [Z.tags]; exact h3, by rw [Z.paradigms]; exact h4, h5, hg.1 ⟨pred, hpred⟩⟩
  · intro F
    obtain ⟨paras, hparas⟩ := hlin.2 ⟨F.prefixes, by rw [← Z.suffixes]; exact F.suffixes, by rw [← Z.tags]; exact F.tags⟩
    have hw := hwords.2 ⟨by rw [← Z.paradigms]; exact F.paradigms, F.forms⟩
    obtain ⟨words, hwd⟩ := (wordsDawg_ok bw _).2 hw
    obtain ⟨data, hdata, hg⟩ := hguess paras hparas hw
    obtain ⟨pred, hpred⟩ := hg.2 F.guesses
    unfold finish
    simp only
    rw [hparas, ok_bind, hdata, ok_bind, hwd, ok_bind, hpred, ok_bind]
    exact ⟨_, rfl⟩

/-- The stems and paradigms of a list of lexemes exist. -/
theorem par_exists (pp : List Str) (ls : List Lexeme) (hne : ∀ L ∈ ls, L ≠ []) : ∃ par : Lexeme → Str × StrPara, ∀ L ∈ ls, Extracts pp L (par L).1 (par L).2 := by
  have : ∀ L : Lexeme, ∃ y : Str × StrPara, L ∈ ls → Extracts pp L y.1 y.2 := by
    intro L
    by_cases hL : L ∈ ls
    · obtain ⟨st, P, h⟩ := c33_total L (hne L hL) pp
      exact ⟨(st, P), fun _ => (c33_exact _ _ _ _).1 h⟩
    · exact ⟨([], []), fun h => absurd h hL⟩
  choose par hpar using this
  exact ⟨par, hpar⟩

theorem joined_ne_nil {I : Type} [DecidableEq I] {num : I → Int} {p : Parsed I} {ls : List Lexeme} (h : joinLexemes num p = .ok ls) : ∀ L ∈ ls, L ≠ [] := by
  unfold joinLexemes at h
  split at h
  · cases h
  · simp only [Except.ok.injEq] at h
    subst h
    intro L hL
    exact of_decide_eq_true (List.mem_filter.1 hL).2

/-- **C67.** A source is compiled exactly when its links can be followed and the joined lexemes fit. -/
theorem c67_parsed_iff {I : Type} [DecidableEq I] (num : I → Int) (bw : DawgBuild (Nat × Nat)) (bp : DawgBuild (Nat × Nat × Nat)) (o : COptions)
    (p : Parsed I) : (∃ c, compileParsed num bw bp o p = .ok c) ↔ ∃ ls par, joinLexemes num p = .ok ls ∧
      (∀ L ∈ ls, Extracts o.paradigmPrefixes L (par L).1 (par L).2) ∧ Fits o par ls := by
  constructor
  · rintro ⟨c, h⟩
    obtain ⟨ls, hls, hc⟩ := compile_split h
    obtain ⟨par, hpar⟩ := par_exists o.paradigmPrefixes ls (joined_ne_nil hls)
    exact ⟨ls, par, hls, hpar, (c67_compile_iff bw bp o ls par hpar).1 ⟨c, hc⟩⟩
  · rintro ⟨ls, par, hls, hpar, F⟩
    obtain ⟨c, hc⟩ := (c67_compile_iff bw bp o ls par hpar).2 F
    exact ⟨c, by unfold compileParsed; rw [hls]; simp only [hc]⟩

/-- **C67.** What has been compiled can be saved exactly when the file format has room for it. -/
theorem c67_save_iff (bw : DawgBuild (Nat × Nat)) (bp : DawgBuild (Nat × Nat × Nat)) (o : COptions) (ls : List Lexeme) (c : Compiled)
    (hc : compileLexemes bw bp o ls = .ok c) (par : Lexeme → Str × StrPara)
    (hpar : ∀ L ∈ ls, Extracts o.paradigmPrefixes L (par L).1 (par L).2) (little : Bool) (i : SaveInfo) (rows : List GramRow) :
    (∃ ops, saveOps little i rows c = .ok ops) ↔ FitsFile par ls := by
  have hpar' : ∀ L ∈ ls, toParadigm L o.paradigmPrefixes = .ok (par L) := fun L hL => (c33_exact _ _ _ _).2 (hpar L hL)
  obtain ⟨s, hs, -, T, -, -⟩ := tables_of bw bp o ls c hc
  have Z := sizes_of hpar' hs
  have hsave : (∃ ops, saveOps little i rows c = .ok ops) ↔ FitsFormat c.paradigms := by
    unfold saveOps
    constructor
    · rintro ⟨ops, h⟩
      simp only [bind_ok_iff] at h
      obtain ⟨b, hb, -⟩ := h
      exact ((encodeParas_ok_iff _ _ _).1 hb).1
    · intro h
      rw [(encodeParas_ok_iff little c.paradigms _).2 ⟨h, rfl⟩]
      exact ⟨_, rfl⟩
  have hlen : c.paradigms.length = s.paradigms.length := T.paras.length_eq.symm
  have hrow : ∀ L ∈ ls, (par L).2.length = L.length := by
    intro L hL
    have := congrArg List.length (c33_inverse L _ _ _ (hpar' L hL))
    simpa [rebuild] using this
  rw [hsave]
  unfold FitsFormat
  rw [hlen, ← Z.paradigms]
  constructor
  · rintro ⟨h1, h2⟩
    refine ⟨h1, fun L hL => ?_⟩
    obtain ⟨st, P, k, g1, g2⟩ := T.inv.has L hL
    rw [hpar' L hL] at g1
    simp only [Except.ok.injEq] at g1
    obtain ⟨rs, h3, h4⟩ := T.inv.para P k g2
    obtain ⟨q, hq, hR⟩ := getElem?_forall₂ T.paras k rs h3
    have := h2 q (List.mem_of_getElem? hq)
    rw [hR.len, ← h4.length_eq, show P = (par L).2 by rw [g1], hrow L hL] at this
    exact this
  · rintro ⟨h1, h2⟩
    refine ⟨h1, fun q hq => ?_⟩
    obtain ⟨rs, hrs, hR⟩ := forall₂_mem_right T.paras hq
    obtain ⟨k, hk⟩ := List.mem_iff_getElem?.1 hrs
    obtain ⟨P, hP⟩ := T.inv.from_ k (List.getElem?_eq_some_iff.1 hk).1
    obtain ⟨rs', h3, h4⟩ := T.inv.para P k hP
    rw [hk] at h3
    simp only [Option.some.injEq] at h3
    subst h3
    obtain ⟨L, hL, stem, h5⟩ := T.inv.used P k hP
    rw [hpar' L hL] at h5
    simp only [Except.ok.injEq] at h5
    rw [hR.len, ← h4.length_eq, show P = (par L).2 by rw [h5], hrow L hL]
    exact h2 L hL

/-! ### Conversions -/

/-- **C67.** When a conversion that has work to do succeeds: the document can be read, its links followed, all ids are numbers, all grammemes have a
name and an alias, and the lexemes fit. -/
theorem c67_convert_iff (a : ConvArgs) (doc : Elem) (overwrite : Bool) (reg : Registry) (folder : Option Disk) (hrun : folder = none ∨ overwrite = true) :
    (a.convert doc overwrite reg folder).outcome = .ok () ↔
      ∃ x v ls par, parseXml a.env a.lx doc = .ok (x, v) ∧
        (∀ l ∈ x.lexemes, ∃ s n, l.1 = some s ∧ a.int s = some n) ∧ (∀ g ∈ x.grammemes, g.1.isSome ∧ g.2.2.1.isSome) ∧
        joinLexemes (fun i => (i.bind a.int).getD 0) (dropUnsupported (simplifyTags x.toParsed)) = .ok ls ∧
        (∀ L ∈ ls, Extracts a.opts.paradigmPrefixes L (par L).1 (par L).2) ∧ Fits a.opts par ls ∧ FitsFile par ls := by
  have hfst : ∀ x : XmlParsed, (dropUnsupported (simplifyTags x.toParsed)).lexemes.map Prod.fst = x.lexemes.map Prod.fst := by
    intro x
    show ((x.lexemes.map _).map _).map Prod.fst = _
    rw [List.map_map, List.map_map]
    rfl
  have hid : ∀ i n, idNum a.int i = .ok n ↔ ∃ s, i = some s ∧ a.int s = some n := by
    intro i n
    cases i with
    | none => simp [idNum]
    | some s =>
      unfold idNum
      cases h : a.int s <;> simp [h]
  constructor
  · intro hok
    obtain ⟨x, v, rows, c, ops, hx, hc, hr, hs, -⟩ := convert_ok hrun hok
    obtain ⟨-, hcp⟩ := compileXml_ok hc
    obtain ⟨ls, hls, hcl⟩ := compile_split hcp
    obtain ⟨par, hpar⟩ := par_exists a.opts.paradigmPrefixes ls (joined_ne_nil hls)
    refine ⟨x, v, ls, par, hx, ?_, ?_, hls, hpar, (c67_compile_iff _ _ _ _ _ hpar).1 ⟨c, hcl⟩, (c67_save_iff _ _ _ _ _ hcl _ hpar _ _ _).1 ⟨_, hs⟩⟩
    · unfold compileXml at hc
      split at hc
      · cases hc
      · split at hc
        · cases hc
        · next ns hns =>
          intro l hl
          rw [hfst] at hns
          obtain ⟨n, -, hn⟩ := mapE_mem' hns (List.mem_map_of_mem (f := Prod.fst) hl)
          obtain ⟨s, h1, h2⟩ := (hid _ _).1 hn
          exact ⟨s, n, h1, h2⟩
    · intro g hg
      obtain ⟨r, -, hr⟩ := mapE_mem' hr hg
      obtain ⟨n, p, al, d⟩ := g
      cases n <;> cases al <;> simp [gramRow] at hr ⊢
  · rintro ⟨x, v, ls, par, hx, hids, hgr, hls, hpar, F, F'⟩
    obtain ⟨c, hcl⟩ := (c67_compile_iff a.bw a.bp a.opts ls par hpar).2 F
    obtain ⟨ns, hns⟩ := mapE_total (idNum a.int) ((dropUnsupported (simplifyTags x.toParsed)).lexemes.map Prod.fst) (by
      rw [hfst]
      intro i hi
      obtain ⟨l, hl, rfl⟩ := List.mem_map.1 hi
      obtain ⟨s, n, h1, h2⟩ := hids l hl
      exact ⟨n, (hid _ _).2 ⟨s, h1, h2⟩⟩)
    obtain ⟨rows, hrows⟩ := mapE_total gramRow x.grammemes (by
      rintro ⟨n, p, al, d⟩ hg
      have := hgr _ hg
      cases n with
      | none => simp at this
      | some n => cases al with
        | none => simp at this
        | some al => exact ⟨_, rfl⟩)
    have hcp : compileParsed (fun i => (i.bind a.int).getD 0) a.bw a.bp a.opts (dropUnsupported (simplifyTags x.toParsed)) = .ok c := by
      unfold compileParsed; rw [hls]; simp only [hcl]
    have hcx : compileXml a.int a.bw a.bp a.opts (dropUnsupported (simplifyTags x.toParsed)) = .ok c := by
      unfold compileXml
      unfold joinLexemes at hls
      split at hls
      · cases hls
      · next st hst => rw [hst]; simp only [hns, hcp]
    have hcomp : a.compile doc = .ok (rows, c) := by
      unfold ConvArgs.compile
      rw [hx]; simp only [hcx, hrows]
    obtain ⟨ops, hops⟩ := (c67_save_iff _ _ _ _ _ hcl par hpar a.little (a.saveInfo reg rows c) rows).2 F'
    have hn : ¬ (folder.isSome ∧ overwrite = false) := by
      rintro ⟨h1, h2⟩
      rcases hrun with rfl | h
      · cases h1
      · rw [h] at h2; cases h2
    unfold ConvArgs.convert
    rw [if_neg hn, hcomp]
    simp only [saveTo, hops]

/-! ### Sources that fit, sources that do not -/

theorem before_self (w : Str) : Before w w [] := ⟨⟨[], by simp⟩, fun b r _ => by simp⟩

/-- A lexeme made of one form, `n` times. -/
theorem extracts_replicate (pp : List Str) (hp : [] ∈ pp) (n : Nat) (hn : 2 ≤ n) (w t : Str) :
    Extracts pp (List.replicate n (w, t)) w (List.replicate n ([], t, [])) := by
  refine .common _ w (List.replicate n []) _ (by simpa using hn) ?_ ?_ ?_ ?_
  · refine ⟨?_, ?_, ?_⟩
    · intro f hf
      simp only [List.map_replicate, List.mem_replicate] at hf
      rw [hf.2]
    · intro u hu
      exact (hu w (by simp only [List.map_replicate, List.mem_replicate]; exact ⟨by omega, trivial⟩)).length_le
    · intro u hu hl a b h
      refine ⟨[], [], ?_, by simp⟩
      simp only [List.map_replicate]
      rw [List.head?_replicate, if_neg (by omega)]
      simp
  · simp only [List.map_replicate]
    rw [List.forall₂_iff_get]
    refine ⟨by simp, fun i _ _ => ?_⟩
    simp only [List.get_eq_getElem, List.getElem_replicate]
    exact before_self w
  · intro b hb
    rw [(List.mem_replicate.1 hb).2]; exact hp
  · exact ⟨by simp, by simp⟩

/-- A lexeme made of one form, `n` times, fits if there are at most 65536 of them (and paradigms with a single lexeme are not used for prediction). -/
theorem fits_replicate (o : COptions) (hp : o.paradigmPrefixes = [[]]) (hm : 2 ≤ o.minParadigmPopularity) (n : Nat) (hn : 2 ≤ n) (hn' : n ≤ 65536) (w t : Str) :
    Fits o (fun _ => (w, List.replicate n ([], t, []))) [List.replicate n (w, t)] := by
  have hobs : observations (fun _ => (w, List.replicate n ([], t, []))) o.minParadigmPopularity o.maxSuffixLength [List.replicate n (w, t)] = [] := by
    have : popularityOf (fun _ => (w, List.replicate n ([], t, []))) [List.replicate n (w, t)] (List.replicate n ([], t, [])) = 1 := by
      simp [popularityOf]
    simp only [observations, List.flatMap_cons, List.flatMap_nil, List.append_nil, this]
    rw [if_pos (.inr (by omega))]
  have hcard : ∀ {α : Type} [DecidableEq α] (a : α) (l : List α), (∀ x ∈ l, x = a) → l.toFinset.card ≤ 65536 := by
    intro α _ a l h
    have : l.toFinset ⊆ {a} := by
      intro x hx
      simp only [Finset.mem_singleton]
      exact h x (List.mem_toFinset.1 hx)
    have := Finset.card_le_card this
    simp only [Finset.card_singleton] at this
    omega
  refine ⟨?_, ?_, ?_, ?_, ?_, ?_⟩
  · intro L _ r hr
    rw [(List.mem_replicate.1 hr).2, hp]
    exact ⟨0, by omega, rfl, fun j hj => by simp [show j ≠ 0 by omega]⟩
  · refine hcard [] _ fun x hx => ?_
    simp only [List.flatMap_cons, List.flatMap_nil, List.append_nil, List.map_replicate] at hx
    exact (List.mem_replicate.1 hx).2
  · refine hcard t _ fun x hx => ?_
    simp only [List.flatMap_cons, List.flatMap_nil, List.append_nil, List.map_replicate] at hx
    exact (List.mem_replicate.1 hx).2
  · refine hcard (List.replicate n ([], t, [])) _ fun x hx => ?_
    simpa using hx
  · intro L hL
    simp only [List.mem_singleton] at hL
    rw [hL]; simpa using hn'
  · intro pre e cnt P idx hb
    have h1 := hb.count
    rw [hobs] at h1
    simp only [List.count_nil] at h1
    omega

/-- A document with one lemma that has the form кот `n` times. -/
def Demo.longDoc (n : Nat) : Elem := .mk (c!"dictionary") [] none [
  .mk (c!"lemmata") [] none [Demo.lemmaElem (c!"1") [c!"NOUN"] (List.replicate n (c!"кот", [c!"sing"]))]]

theorem Demo.allList_map (n : Nat) (f : Elem) : Elem.allList (List.replicate n f) = (List.replicate n f.all).flatten := by
  induction n with
  | zero => rfl
  | succ n ih => simp only [List.replicate_succ, Elem.allList, ih, List.flatten_cons]

theorem Demo.longDoc_forms (n : Nat) : wordForms demoEnv (Demo.lemmaElem (c!"1") [c!"NOUN"] (List.replicate n (c!"кот", [c!"sing"]))) =
    .ok (some (c!"1"), List.replicate n (c!"кот", c!"NOUN sing")) := by
  have hall : (Demo.lemmaElem (c!"1") [c!"NOUN"] (List.replicate n (c!"кот", [c!"sing"]))).all =
      Demo.lemmaElem (c!"1") [c!"NOUN"] (List.replicate n (c!"кот", [c!"sing"])) :: (Elem.mk (c!"l") [] none [Demo.g (c!"NOUN")]) :: Demo.g (c!"NOUN") ::
        (List.replicate n [Elem.mk (c!"f") [(c!"t", c!"кот")] none [Demo.g (c!"sing")], Demo.g (c!"sing")]).flatten := by
    simp only [Demo.lemmaElem, Elem.all, Elem.allList, List.map_cons, List.map_nil, List.map_replicate, Demo.allList_map]
    simp [Demo.g, Elem.all, Elem.allList]
  have hlem : ∀ t, c!"lemma" ≠ t → ¬ decide ((Demo.lemmaElem (c!"1") [c!"NOUN"] (List.replicate n (c!"кот", [c!"sing"]))).tag = t) = true := by
    intro t ht
    rw [show (Demo.lemmaElem (c!"1") [c!"NOUN"] (List.replicate n (c!"кот", [c!"sing"]))).tag = c!"lemma" from rfl]
    simpa using ht
  have hf : (Demo.lemmaElem (c!"1") [c!"NOUN"] (List.replicate n (c!"кот", [c!"sing"]))).iter (c!"f") =
      List.replicate n (Elem.mk (c!"f") [(c!"t", c!"кот")] none [Demo.g (c!"sing")]) := by
    unfold Elem.iter
    rw [hall]
    rw [List.filter_cons_of_neg (by exact hlem _ (by decide)), List.filter_cons_of_neg (by decide), List.filter_cons_of_neg (by decide)]
    clear hlem
    induction n with
    | zero => rfl
    | succ n ih =>
      rw [List.replicate_succ, List.flatten_cons, List.filter_append, List.replicate_succ]
      rw [show List.filter (fun x : Elem => decide (x.tag = c!"f")) (List.replicate n _).flatten = _ from ih (by
        simp only [Demo.lemmaElem, Elem.all, Elem.allList, List.map_cons, List.map_nil, List.map_replicate, Demo.allList_map]
        simp [Demo.g, Elem.all, Elem.allList])]
      rfl
  have hl : (Demo.lemmaElem (c!"1") [c!"NOUN"] (List.replicate n (c!"кот", [c!"sing"]))).iter (c!"l") = [Elem.mk (c!"l") [] none [Demo.g (c!"NOUN")]] := by
    unfold Elem.iter
    rw [hall, List.filter_cons_of_neg (by exact hlem _ (by decide)), List.filter_cons_of_pos (by decide), List.filter_cons_of_neg (by decide)]
    congr 1
    rw [List.filter_eq_nil_iff]
    intro x hx
    obtain ⟨l, hl, hx⟩ := List.mem_flatten.1 hx
    rw [(List.mem_replicate.1 hl).2] at hx
    simp only [List.mem_cons, List.not_mem_nil, or_false] at hx
    rcases hx with rfl | rfl <;> decide
  rw [c55_forms demoEnv _ _ [c!"NOUN"] (List.replicate n (c!"кот", [c!"sing"])) (by simp [Demo.lemmaElem, Elem.children]) hl rfl (by
    rw [hf]
    unfold FormsData
    rw [List.forall₂_iff_get]
    refine ⟨by simp, fun i _ _ => ?_⟩
    simp only [List.get_eq_getElem, List.getElem_replicate]
    exact ⟨rfl, rfl⟩), if_neg (by rintro ⟨h, -⟩; revert h; decide)]
  rw [List.map_replicate]
  congr 2

theorem Demo.longDoc_parsed (n : Nat) : ∃ v, parseXml demoEnv false (Demo.longDoc n) =
    .ok (⟨[(some (c!"1"), List.replicate n (c!"кот", c!"NOUN sing"))], [], []⟩, v) := by
  have hplain : ∀ x ∈ Elem.allList (Demo.lemmaElem (c!"1") [c!"NOUN"] (List.replicate n (c!"кот", [c!"sing"]))).children, x.interesting = false := by
    simp only [Demo.lemmaElem, Elem.children, Elem.allList, List.map_cons, List.map_nil, List.map_replicate, Demo.allList_map]
    intro x hx
    rcases List.mem_append.1 hx with hx | hx
    · simp only [Elem.all, Elem.allList, Demo.g, List.mem_cons, List.append_nil, List.not_mem_nil, or_false] at hx
      rcases hx with rfl | rfl <;> decide
    · obtain ⟨l, hl, hx⟩ := List.mem_flatten.1 hx
      rw [(List.mem_replicate.1 hl).2] at hx
      simp only [Elem.all, Elem.allList, Demo.g, List.mem_cons, List.append_nil, List.not_mem_nil, or_false] at hx
      rcases hx with rfl | rfl <;> decide
  refine ⟨dictionaryInfo (Demo.longDoc n), ?_⟩
  have hform := Demo.longDoc_forms n
  have hr : readTree demoEnv false (Demo.lemmaElem (c!"1") [c!"NOUN"] (List.replicate n (c!"кот", [c!"sing"]))) ⟨[], [], []⟩ =
      .ok ((Demo.lemmaElem (c!"1") [c!"NOUN"] (List.replicate n (c!"кот", [c!"sing"]))).clear, ⟨[(some (c!"1"), List.replicate n (c!"кот", c!"NOUN sing"))], [], []⟩) := by
    generalize he : Demo.lemmaElem (c!"1") [c!"NOUN"] (List.replicate n (c!"кот", [c!"sing"])) = e at *
    have htag : e.tag = c!"lemma" := by rw [← he]; rfl
    match e, htag with
    | .mk t a x cs, htag =>
      simp only [Elem.tag] at htag
      subst htag
      have h0 := readTrees_plain demoEnv false cs [] ⟨[], [], []⟩ hplain
      simp only [List.nil_append] at h0
      simp only [readTree, h0, ok_bind]
      rw [if_pos (show (Elem.mk (c!"lemma") a x cs).interesting = true from rfl)]
      unfold readElem
      rw [if_neg (show ¬ (Elem.mk (c!"lemma") a x cs).tag = c!"grammeme" from by show ¬ c!"lemma" = c!"grammeme"; decide),
        if_pos (show (Elem.mk (c!"lemma") a x cs).tag = c!"lemma" from rfl), hform]
      rfl
  unfold parseXml
  simp only [Demo.longDoc, readTree, readTrees, hr, ok_bind]
  rfl

/-- Any preprocessing keeps the lexeme of this document as it is, up to the spelling of the tag. -/
theorem Demo.longDoc_prep (n : Nat) : ∃ t, (dropUnsupported (simplifyTags
    (XmlParsed.toParsed ⟨[(some (c!"1"), List.replicate n (c!"кот", c!"NOUN sing"))], [], []⟩))) = ⟨[(some (c!"1"), List.replicate n (c!"кот", t))], []⟩ := by
  generalize hP : XmlParsed.toParsed ⟨[(some (c!"1"), List.replicate n (c!"кот", c!"NOUN sing"))], [], []⟩ = P
  have hfrom := simplifyTag_from (iterTags P) true (c!"NOUN sing")
  generalize ht : simplifyTag (duplicateReplaces (tagSpellings (iterTags P)) true) (c!"NOUN sing") = t at hfrom
  have hinit : isSub (c!"Init") t = false := by
    rcases hfrom with h | h
    · rw [h]; decide +kernel
    · rw [← hP] at h
      simp only [iterTags, XmlParsed.toParsed, List.flatMap_cons, List.flatMap_nil, List.append_nil, List.map_replicate] at h
      rw [(List.mem_replicate.1 h).2]; decide +kernel
  refine ⟨t, ?_⟩
  unfold dropUnsupported simplifyTags
  simp only
  rw [← hP] at ht ⊢
  simp only [XmlParsed.toParsed, List.map_cons, List.map_nil, List.map_replicate] at ht ⊢
  simp only [ht]
  rw [List.filter_eq_self.2]
  intro f hf
  rw [(List.mem_replicate.1 hf).2]
  simp [hinit]

/-- **C67.** (A defect.) There are documents the compiler accepts and the file format has no room for, so that the conversion destroys the dictionary
in the folder (`c65_failed_save`): here a lemma with 21846 forms. -/
theorem c67_unsaved (a : ConvArgs) (ha : a.env = demoEnv) (hlx : a.lx = false) (hi : a.int = Demo.int) (hp : a.opts.paradigmPrefixes = [[]])
    (hm : 2 ≤ a.opts.minParadigmPopularity) (n : Nat) (hn : 21845 < n) (hn' : n ≤ 65536) (reg : Registry) (d : Disk) :
    (∃ rows c, a.compile (Demo.longDoc n) = .ok (rows, c)) ∧ (a.convert (Demo.longDoc n) true reg (some d)).outcome = .error (.raised .structError) ∧
    ∃ d', (a.convert (Demo.longDoc n) true reg (some d)).folder = some d' ∧ ∀ little cls r, loadDict little d' cls ≠ .ok r := by
  obtain ⟨v, hv⟩ := Demo.longDoc_parsed n
  obtain ⟨t, ht⟩ := Demo.longDoc_prep n
  rw [← ha, ← hlx] at hv
  have hpar : ∀ L ∈ [List.replicate n (c!"кот", t)], Extracts a.opts.paradigmPrefixes L (c!"кот") (List.replicate n ([], t, [])) := by
    intro L hL
    rw [List.mem_singleton.1 hL]
    exact extracts_replicate _ (by rw [hp]; simp) n (by omega) _ _
  obtain ⟨c, hcl⟩ := (c67_compile_iff a.bw a.bp a.opts _ (fun _ => (c!"кот", List.replicate n ([], t, []))) hpar).2
    (fits_replicate a.opts hp hm n (by omega) hn' _ _)
  have hjoin : joinLexemes (fun i => (i.bind a.int).getD 0) (Parsed.mk [(some (c!"1"), List.replicate n (c!"кот", t))] []) =
      .ok [List.replicate n (c!"кот", t)] := by
    simp only [joinLexemes, joinLoop, List.insertionSort_cons, List.insertionSort_nil, List.orderedInsert_nil, List.map_cons, List.map_nil]
    rw [List.filter_cons_of_pos (by simp; omega)]
    rfl
  have hcp : compileParsed (fun i => (i.bind a.int).getD 0) a.bw a.bp a.opts (Parsed.mk [(some (c!"1"), List.replicate n (c!"кот", t))] []) = .ok c := by
    unfold compileParsed
    rw [hjoin]; simp only [hcl]
  have hcx : compileXml a.int a.bw a.bp a.opts (Parsed.mk [(some (c!"1"), List.replicate n (c!"кот", t))] []) = .ok c := by
    unfold compileXml
    rw [hcp, hi]
    rfl
  have hcomp : a.compile (Demo.longDoc n) = .ok ([], c) := by
    unfold ConvArgs.compile
    rw [hv]
    simp only [ht, hcx]
    rfl
  suffices hnf : ¬ (c.paradigms.length ≤ 65535 ∧ ∀ p ∈ c.paradigms, p.length ≤ 65535) by
    obtain ⟨f1, d', f2, f3, _⟩ := c65_failed_save a (Demo.longDoc n) true reg (some d) (.inr rfl) _ c hcomp hnf
    exact ⟨⟨_, _, hcomp⟩, f1, d', f2, f3⟩
  intro hf
  have hs : ∃ ops, saveOps a.little (a.saveInfo reg [] c) [] c = .ok ops := by
    unfold saveOps
    rw [(encodeParas_ok_iff a.little c.paradigms _).2 ⟨hf, rfl⟩]
    exact ⟨_, rfl⟩
  have := ((c67_save_iff _ _ _ _ _ hcl (fun _ => (c!"кот", List.replicate n ([], t, []))) hpar _ _ _).1 hs).forms _ (List.mem_singleton_self _)
  simp only [List.length_replicate] at this
  omega

/-- The hypotheses on the arguments are met. -/
example : ∃ a : ConvArgs, a.env = demoEnv ∧ a.lx = false ∧ a.int = Demo.int ∧ a.opts.paradigmPrefixes = [[]] ∧ 2 ≤ a.opts.minParadigmPopularity :=
  ⟨{ Demo.convArgs with opts := { paradigmPrefixes := [[]] } }, rfl, rfl, rfl, rfl, by decide⟩

/-- The demonstration source fits. -/
example : ∃ ls par, joinLexemes (fun n : Nat => (n : Int)) Demo.source = .ok ls ∧
    (∀ L ∈ ls, Extracts Demo.copts.paradigmPrefixes L (par L).1 (par L).2) ∧ Fits Demo.copts par ls :=
  (c67_parsed_iff _ dedupBuild dedupBuild _ _).1 (Demo.compiled_ok.imp fun _ h => h.1)

/-- A list of prefixes without the empty one: nothing fits. -/
example (bw : DawgBuild (Nat × Nat)) (bp : DawgBuild (Nat × Nat × Nat)) : ¬ ∃ c, compileLexemes bw bp { paradigmPrefixes := [c!"по"] } [[(c!"кот", c!"NOUN")]] = .ok c := by
  rw [c67_compile_iff bw bp _ _ (fun _ => (c!"кот", [([], c!"NOUN", [])])) (by intro L hL; rw [List.mem_singleton.1 hL]; exact .single _ _)]
  intro F
  obtain ⟨k, -, h, -⟩ := F.prefixes _ (List.mem_singleton_self _) _ (List.mem_singleton_self _)
  have := List.mem_of_getElem? h
  simp at this

end Verif
