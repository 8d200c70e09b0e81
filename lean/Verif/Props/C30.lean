/-
C30 — a compiled dictionary is structurally sound, and the compiler's own assertions never fail.
-/
import Verif.Lemmas.Compile

namespace Verif

theorem takeRight_suffix (w : Str) (i : Nat) : takeRight w i <:+ w := by
  unfold takeRight; split
  · exact List.suffix_rfl
  · exact List.drop_suffix _ _

theorem suffix_takeRight {suf w : Str} (h : suf <:+ w) {i : Nat} (hi : suf.length ≤ i) (h1 : 1 ≤ i) : suf <:+ takeRight w i := by
  unfold takeRight
  rw [if_neg (by omega)]
  obtain ⟨t, rfl⟩ := h
  rw [List.drop_append_of_le_length (by simp only [List.length_append]; omega)]
  exact List.suffix_append _ _

theorem mem_suffixLens (n m i : Nat) : i ∈ suffixLens n m ↔ max n 1 ≤ i ∧ i ≤ m := by
  unfold suffixLens
  simp only [List.mem_map, List.mem_range]
  constructor
  · rintro ⟨a, h1, rfl⟩; omega
  · rintro ⟨h1, h2⟩; exact ⟨i - max n 1, by omega, by omega⟩

/-- What one increment of the ending counters records. -/
def HitOK (d : Dict) (h : Hit) : Prop :=
  ∃ p pre tag suf, d.IsForm h.2.2.2.1 h.2.2.2.2 p pre tag suf ∧ d.prefixes[h.1]? = some pre ∧ suf <:+ h.2.1 ∧
    h.2.2.1 = (splitTag tag.str).headD []

/-- The assertions of `_suffixes_prediction_data` hold for each of the compiler's words, and the increments are sound. -/
theorem hitsOf_ok {pp : List Str} {ls : List Lexeme} {s : CState} {c : Compiled} (T : Tables pp ls s c) (productive : List Nat)
    (maxLen : Nat) (e : Str × Nat × Nat) (he : e ∈ s.words) :
    ∃ hits, hitsOf productive s.gramtab c.paradigms c.suffixes pp maxLen e = .ok hits ∧ ∀ h ∈ hits, HitOK c.toDict h := by
  obtain ⟨L, hL, stem, P, hP, hk, r, hr, hw⟩ := (T.inv.words e).1 he
  obtain ⟨p, hp, hlen, hform⟩ := T.isForm hk
  have hf := hform e.2.2 r hr
  unfold hitsOf
  split
  · exact ⟨[], rfl, by simp⟩
  have h1 := hf.hpre
  have h2 := hf.hsuf
  have h3 := hf.htag
  unfold Dict.formPrefix at h1
  unfold Dict.formSuffix at h2
  unfold Dict.tagInfo at h3
  simp only [Compiled.toDict, bind_ok_iff] at h1 h2 h3 hp
  obtain ⟨preId, g1, g2⟩ := h1
  obtain ⟨sufId, g3, g4⟩ := h2
  obtain ⟨p', g5, tid, g6, g7⟩ := h3
  rw [pyGet_ok_iff, hp] at g5
  simp only [Option.some.injEq] at g5
  subst g5
  rw [pyGet_ok_iff, List.getElem?_map, Option.map_eq_some_iff] at g7
  obtain ⟨tag, g7, g8⟩ := g7
  simp only [Tag.mk.injEq] at g8
  subst g8
  rw [T.gramtab] at g7
  rw [(pyGet_ok_iff _ _ _).2 hp, ok_bind]
  simp only
  rw [g6, ok_bind, (pyGet_ok_iff _ _ _).2 g7, ok_bind, Nat.mul_comm 2, g1, ok_bind]
  rw [T.prefixes] at g2
  rw [g2, ok_bind, g3, ok_bind, g4, ok_bind]
  rw [if_neg (by rw [hw]; simp only [List.length_append]; omega)]
  rw [if_neg (by rw [Bool.not_eq_false, startsWith_iff, hw, List.append_assoc]; exact List.prefix_append _ _)]
  rw [if_neg (by rw [Bool.not_eq_false, endsWith_iff, hw]; exact List.suffix_append _ _)]
  split
  · exact ⟨[], rfl, by simp⟩
  · refine ⟨_, rfl, ?_⟩
    intro h hh
    obtain ⟨i, hi, rfl⟩ := List.mem_map.1 hh
    rw [mem_suffixLens] at hi
    refine ⟨p, _, _, _, hf, ?_, ?_, rfl⟩
    · simp only [Compiled.toDict, T.prefixes]
      exact (pyGet_ok_iff _ _ _).1 g2
    · exact suffix_takeRight (by rw [hw]; exact List.suffix_append _ _) (by omega) (by omega)

/-- The entries of a prediction table. -/
theorem mem_dawgData (hits : List Hit) (mef preId : Nat) (e : Str × Nat × Nat × Nat) (he : e ∈ dawgData hits mef preId) :
    1 ≤ e.2.1 ∧ ∃ pos, (preId, e.1, pos, e.2.2) ∈ hits := by
  unfold dawgData at he
  simp only [List.mem_flatMap] at he
  obtain ⟨ending, hend, he⟩ := he
  split at he
  · simp at he
  · simp only [List.mem_flatMap] at he
    obtain ⟨pos, hpos, he⟩ := he
    obtain ⟨⟨f, cnt⟩, hfc, rfl⟩ := List.mem_map.1 he
    have hm := (c35_sublist _ _ _).subset hfc
    simp only [List.mem_map, List.mem_dedup, List.mem_filter, decide_eq_true_eq, Prod.mk.injEq] at hm
    obtain ⟨f', ⟨⟨a, b, cc, f''⟩, ⟨⟨h1, rfl⟩, rfl, rfl⟩, rfl⟩, rfl, rfl⟩ := hm
    refine ⟨?_, cc, h1⟩
    apply List.count_pos_iff.2
    simp only [List.mem_map, List.mem_filter, decide_eq_true_eq]
    exact ⟨(a, b, cc, f''), ⟨⟨h1, rfl⟩, rfl, rfl⟩, rfl⟩

/-- **C30, soundness.** Every dictionary the compiler produces is well-formed: all ids resolve, every word is prefix + stem + suffix
of the form it is stored under, there is one prediction table per prefix, and every prediction entry has a positive count, a form with
the prefix of its table, and a suffix its ending ends with. -/
theorem c30_sound (bw : DawgBuild (Nat × Nat)) (bp : DawgBuild (Nat × Nat × Nat)) (o : COptions) (ls : List Lexeme) (c : Compiled)
    (h : compileLexemes bw bp o ls = .ok c) : c.toDict.WF := by
  obtain ⟨s, hs, hfin, T, hwords, -⟩ := tables_of bw bp o ls c h
  have hpred : ∃ (hs : List (List Hit)),
      mapE (hitsOf (popularKeys s.popularity o.minParadigmPopularity) s.gramtab c.paradigms c.suffixes o.paradigmPrefixes o.maxSuffixLength)
        s.words = .ok hs ∧
      List.Forall₂ (fun data t => ∀ e : Str × Nat × Nat × Nat, e ∈ t → e ∈ data)
        ((List.range o.paradigmPrefixes.length).map (dawgData hs.flatten o.minEndingFreq)) c.pred := by
    unfold finish predictionData at hfin
    simp only [bind_ok_iff, pure_eq_ok, Except.ok.injEq] at hfin
    obtain ⟨paras, _, data, ⟨hs, hhs, rfl⟩, words, _, pred, hpred, rfl⟩ := hfin
    refine ⟨hs, hhs, ((mapE_ok_iff _ _ _).1 hpred).imp ?_⟩
    intro data t ht e he
    unfold predDawg at ht
    split at ht
    · simp only [Except.ok.injEq] at ht
      subst ht; exact (bp.mem _ _).1 he
    · simp at ht
  obtain ⟨hits, hhits, hfor⟩ := hpred
  refine ⟨?_, ?_, ?_, ?_⟩
  · intro k p hp i hi
    obtain ⟨P, hP⟩ := T.from_ hp
    obtain ⟨p', hp', hlen, hform⟩ := T.isForm hP
    rw [hp] at hp'
    simp only [Option.some.injEq] at hp'
    subst hp'
    rw [hlen] at hi
    exact ⟨_, _, _, hform i P[i] (List.getElem?_eq_getElem hi)⟩
  · intro e he
    have he' := (hwords e).1 he
    obtain ⟨L, hL, stem, P, hP, hk, r, hr, hw⟩ := (T.inv.words e).1 he'
    obtain ⟨p, hp, hlen, hform⟩ := T.isForm hk
    exact ⟨p, _, _, _, stem, hform _ r hr, hw⟩
  · show c.pred.length = c.prefixes.length
    rw [T.prefixes, ← hfor.length_eq]; simp
  · intro i t ht e he
    obtain ⟨data, hdata, hsub⟩ := getElem?_forall₂' hfor i t ht
    have he' := hsub e he
    rw [List.getElem?_map, Option.map_eq_some_iff] at hdata
    obtain ⟨j, hj, rfl⟩ := hdata
    have hij : i = j := by
      rw [List.getElem?_eq_some_iff] at hj
      obtain ⟨_, hj⟩ := hj
      simpa using hj
    subst hij
    obtain ⟨h1, pos, h2⟩ := mem_dawgData _ _ _ _ he'
    refine ⟨h1, ?_⟩
    obtain ⟨hl, hhl, hmem⟩ := List.mem_flatten.1 h2
    obtain ⟨w, hw, hwh⟩ := mapE_mem hhits hhl
    obtain ⟨hits', e1, e2⟩ := hitsOf_ok T (popularKeys s.popularity o.minParadigmPopularity) o.maxSuffixLength w hw
    rw [hwh] at e1
    simp only [Except.ok.injEq] at e1
    subst e1
    obtain ⟨p, pre, tag, suf, g1, g2, g3, _⟩ := e2 _ hmem
    exact ⟨p, pre, tag, suf, g1, g2, g3⟩

theorem mapE_raised {α β : Type} {f : α → Except PyErr β} {l : List α} {e : PyErr} (h : mapE f l = .error e) : ∃ a ∈ l, f a = .error e := by
  induction l with
  | nil => simp [mapE] at h
  | cons a l ih =>
    unfold mapE at h
    cases hf : f a with
    | error e' =>
      rw [hf, error_bind] at h
      simp only [Except.error.injEq] at h
      subst h
      exact ⟨a, by simp, hf⟩
    | ok b =>
      rw [hf, ok_bind] at h
      cases hm : mapE f l with
      | error e' =>
        rw [hm, error_bind] at h
        simp only [Except.error.injEq] at h
        subst h
        obtain ⟨a', h1, h2⟩ := ih hm
        exact ⟨a', by simp [h1], h2⟩
      | ok bs => rw [hm, ok_bind] at h; simp at h

/-- **C30, failures.** For non-empty lexemes the compiler raises nothing but: `KeyError` when `''` is not among the allowed prefixes,
`OverflowError` when a table is too large for 16-bit ids, `struct.error` when a record does not fit.  In particular its own
assertions never fail. -/
theorem c30_failures (bw : DawgBuild (Nat × Nat)) (bp : DawgBuild (Nat × Nat × Nat)) (o : COptions) (ls : List Lexeme)
    (hne : ∀ L ∈ ls, L ≠ []) (e : PyErr) (h : compileLexemes bw bp o ls = .error e) :
    (e = .keyError ∧ [] ∉ o.paradigmPrefixes) ∨ e = .overflowError ∨ e = .structError := by
  obtain ⟨s, hs⟩ := addLexemes_total o.paradigmPrefixes ls [] CState.empty (cinv_start _) hne
  have hi : CInv o.paradigmPrefixes ls s := by simpa using cinv_loop o.paradigmPrefixes ls [] CState.empty s (cinv_start _) hs
  unfold compileLexemes at h
  rw [hs, ok_bind] at h
  unfold finish at h
  simp only at h
  cases hp : mapE (fun p => do
      let q ← fixStrings (enumDict (allSuffixes s.paradigms)) (enumDict o.paradigmPrefixes) p
      linearized q) s.paradigms with
  | error e' =>
    rw [hp, error_bind] at h
    simp only [Except.error.injEq] at h
    subst h
    obtain ⟨rows, hrows, hf⟩ := mapE_raised hp
    cases hq : fixStrings (enumDict (allSuffixes s.paradigms)) (enumDict o.paradigmPrefixes) rows with
    | ok q =>
      rw [hq, ok_bind] at hf
      unfold linearized at hf
      simp only at hf
      split at hf
      · simp at hf
      · simp only [Except.error.injEq] at hf; exact .inr (.inl hf.symm)
    | error e'' =>
      rw [hq, error_bind] at hf
      simp only [Except.error.injEq] at hf
      subst hf
      left
      obtain ⟨r, hr, hre⟩ := mapE_raised hq
      obtain ⟨i, hi'⟩ := (enumDict_spec (allSuffixes s.paradigms) r.1).2 ((mem_allSuffixes _ _).2 ⟨rows, hrows, r, hr, rfl⟩)
      rw [(dictAt_ok_iff _ _ _).2 hi', ok_bind] at hre
      cases hd : dictGet r.2.2 (enumDict o.paradigmPrefixes) with
      | some j => rw [(dictAt_ok_iff _ _ _).2 hd] at hre; simp at hre
      | none =>
        have h1 : dictAt r.2.2 (enumDict o.paradigmPrefixes) = .error .keyError := by simp [dictAt, hd]
        rw [h1, error_bind] at hre
        simp only [Except.error.injEq] at hre
        refine ⟨hre.symm, fun hnil => ?_⟩
        obtain ⟨k, hk, hkr⟩ := List.mem_iff_getElem.1 hrows
        obtain ⟨P, hP⟩ := hi.from_ k hk
        obtain ⟨rows', g1, g2⟩ := hi.para P k hP
        rw [List.getElem?_eq_getElem hk, hkr] at g1
        simp only [Option.some.injEq] at g1
        subst g1
        obtain ⟨L, _, stem, hL⟩ := hi.used P k hP
        obtain ⟨r', hr', _, e2, _⟩ := forall₂_mem_right g2 hr
        have := c33_prefixes L _ hnil stem P hL r' hr'
        rw [← e2] at this
        obtain ⟨j, hj⟩ := (enumDict_spec o.paradigmPrefixes r.2.2).2 this
        rw [hd] at hj; simp at hj
  | ok paras =>
    rw [hp, ok_bind] at h
    let c0 : Compiled := ⟨s.gramtab, allSuffixes s.paradigms, paras, [], [], o.paradigmPrefixes, o.maxSuffixLength⟩
    have T : Tables o.paradigmPrefixes ls s c0 := by
      refine ⟨hi, rfl, rfl, ((mapE_ok_iff _ _ _).1 hp).imp ?_⟩
      intro rows p hp
      simp only [bind_ok_iff] at hp
      obtain ⟨q, hq, hp⟩ := hp
      exact linPara_of _ _ _ _ _ hq hp
    obtain ⟨hits, hhits⟩ := mapE_total
      (hitsOf (popularKeys s.popularity o.minParadigmPopularity) s.gramtab paras (allSuffixes s.paradigms) o.paradigmPrefixes o.maxSuffixLength)
      s.words (by
        intro e he
        obtain ⟨x, hx, _⟩ := hitsOf_ok T (popularKeys s.popularity o.minParadigmPopularity) o.maxSuffixLength e he
        exact ⟨x, hx⟩)
    unfold predictionData at h
    rw [hhits, ok_bind] at h
    simp only [pure_eq_ok, ok_bind] at h
    cases hw : wordsDawg bw s.words with
    | error e' =>
      rw [hw, error_bind] at h
      simp only [Except.error.injEq] at h
      subst h
      unfold wordsDawg at hw
      split at hw
      · simp at hw
      · simp only [Except.error.injEq] at hw; exact .inr (.inr hw.symm)
    | ok words =>
      rw [hw, ok_bind] at h
      cases hpd : mapE (predDawg bp) ((List.range o.paradigmPrefixes.length).map (dawgData hits.flatten o.minEndingFreq)) with
      | error e' =>
        rw [hpd, error_bind] at h
        simp only [Except.error.injEq] at h
        subst h
        obtain ⟨d, _, hd⟩ := mapE_raised hpd
        unfold predDawg at hd
        split at hd
        · simp at hd
        · simp only [Except.error.injEq] at hd; exact .inr (.inr hd.symm)
      | ok pred => rw [hpd, ok_bind] at h; simp at h

end Verif
