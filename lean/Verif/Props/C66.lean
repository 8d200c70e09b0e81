/-
C66 — the prediction tables of a compiled dictionary are exactly the best guesses of the source.
-/
import Verif.Lemmas.Evidence
import Verif.Props.C28
import Verif.Props.C59

set_option linter.unusedSectionVars false

namespace Verif
variable {S : Type} [Score S]

theorem splitTag_head (tag : Str) : (splitTag tag).headD [] = partOfSpeech tag := by
  have hsplit : ∀ s : Str, (splitC ',' s).headD [] = s.takeWhile fun c => c ≠ ',' := by
    intro s
    induction s with
    | nil => rfl
    | cons c s ih =>
      unfold splitC
      by_cases hc : c = ','
      · simp [hc]
      · rw [if_neg hc, List.takeWhile_cons_of_pos (by simpa using hc), ← ih]
        cases splitC ',' s <;> rfl
  unfold splitTag partOfSpeech
  rw [hsplit]
  induction tag with
  | nil => rfl
  | cons c s ih =>
    unfold replaceFirst
    by_cases hs : c = ' '
    · rw [if_pos hs, List.takeWhile_cons_of_neg (by simp), List.takeWhile_cons_of_neg (by simp [hs])]
    · rw [if_neg hs]
      by_cases hc : c = ','
      · rw [List.takeWhile_cons_of_neg (by simp [hc]), List.takeWhile_cons_of_neg (by simp [hc])]
      · rw [List.takeWhile_cons_of_pos (by simpa using hc), List.takeWhile_cons_of_pos (by simp [hs, hc]), ih]

/-- The entries of a prediction table, exactly. -/
theorem mem_dawgData_iff (hits : List Hit) (mef preId : Nat) (e : Str) (cnt : Nat) (f : Nat × Nat) :
    (e, cnt, f) ∈ dawgData hits mef preId ↔ mef ≤ hits.countP (fun h => h.2.1 = e) ∧
      ∃ pos, (preId, e, pos, f) ∈ hits ∧ cnt = hits.count (preId, e, pos, f) ∧ ∀ f', hits.count (preId, e, pos, f') ≤ cnt := by
  have hcount : ∀ pos f, (((hits.filter fun h => h.1 = preId).filter fun h => h.2.1 = e ∧ h.2.2.1 = pos).map (·.2.2.2)).count f =
      hits.count (preId, e, pos, f) := by
    intro pos f
    rw [List.filter_filter, List.count_eq_countP, List.count_eq_countP, List.countP_map, List.countP_filter]
    apply List.countP_congr
    rintro ⟨a, b, c, d⟩ _
    simp only [Function.comp, Bool.and_eq_true, beq_iff_eq, decide_eq_true_eq, Prod.mk.injEq]
    tauto
  unfold dawgData
  simp only [List.mem_flatMap]
  constructor
  · rintro ⟨ending, hend, h⟩
    split at h
    · simp at h
    next hfreq =>
    simp only [List.mem_flatMap] at h
    obtain ⟨pos, hpos, h⟩ := h
    obtain ⟨⟨f', cnt'⟩, hfc, he⟩ := List.mem_map.1 h
    simp only [Prod.mk.injEq] at he
    obtain ⟨rfl, rfl, rfl⟩ := he
    rw [c35_top] at hfc
    obtain ⟨h1, h2⟩ := hfc
    obtain ⟨f, hf, he⟩ := List.mem_map.1 h1
    simp only [Prod.mk.injEq, hcount] at he
    obtain ⟨rfl, rfl⟩ := he
    rw [List.mem_dedup, ← List.count_pos_iff, hcount] at hf
    refine ⟨by omega, pos, List.count_pos_iff.1 hf, rfl, fun f' => ?_⟩
    by_cases hf' : hits.count (preId, ending, pos, f') = 0
    · omega
    · have := h2 (f', hits.count (preId, ending, pos, f')) (by
        refine List.mem_map.2 ⟨f', ?_, by simp only [hcount]⟩
        rw [List.mem_dedup, ← List.count_pos_iff, hcount]
        omega)
      exact this
  · rintro ⟨hfreq, pos, hmem, rfl, hmax⟩
    refine ⟨e, ?_, ?_⟩
    · rw [List.mem_dedup, List.mem_map]
      exact ⟨_, List.mem_filter.2 ⟨hmem, by simp⟩, rfl⟩
    · rw [if_neg (by omega)]
      simp only [List.mem_flatMap]
      refine ⟨pos, ?_, ?_⟩
      · rw [List.mem_dedup, List.mem_map]
        exact ⟨_, List.mem_filter.2 ⟨List.mem_filter.2 ⟨hmem, by simp⟩, by simp⟩, rfl⟩
      · refine List.mem_map.2 ⟨(f, hits.count (preId, e, pos, f)), ?_, rfl⟩
        rw [c35_top]
        refine ⟨List.mem_map.2 ⟨f, ?_, by simp only [hcount]⟩, ?_⟩
        · rw [List.mem_dedup, ← List.count_pos_iff, hcount]
          exact List.count_pos_iff.2 hmem
        · rintro ⟨f', c'⟩ hy
          obtain ⟨f'', _, he⟩ := List.mem_map.1 hy
          simp only [Prod.mk.injEq, hcount] at he
          obtain ⟨rfl, rfl⟩ := he
          exact hmax f''

/-- `dict((x, i) for i, x in enumerate(l))` gives the last position. -/
theorem enumDict_last (l : List Str) (x : Str) (i : Nat) :
    dictGet x (enumDict l) = some i ↔ l[i]? = some x ∧ ∀ j, i < j → l[j]? ≠ some x := by
  unfold enumDict
  induction l using List.reverseRecOn with
  | nil => simp [dictGet]
  | append_singleton l a ih =>
    rw [List.zipIdx_append, List.foldl_append]
    simp only [List.zipIdx_singleton, List.foldl_cons, List.foldl_nil, Nat.zero_add, dictGet_dictSet]
    split
    · next hx =>
      subst hx
      simp only [Option.some.injEq]
      constructor
      · rintro rfl
        refine ⟨by simp, fun j hj => ?_⟩
        rw [List.getElem?_eq_none (by simp; omega)]; simp
      · rintro ⟨h1, h2⟩
        have hi : i < (l ++ [x]).length := (List.getElem?_eq_some_iff.1 h1).1
        simp at hi
        by_contra hne
        exact h2 l.length (by omega) (by simp)
    · next hx =>
      rw [ih]
      have key : ∀ j : Nat, (l ++ [a])[j]? = some x ↔ l[j]? = some x := by
        intro j
        rw [List.getElem?_append]
        split
        · rfl
        · next hj =>
          rw [show l[j]? = none from List.getElem?_eq_none (by omega)]
          constructor
          · intro h
            cases hjl : j - l.length with
            | zero => rw [hjl] at h; simp at h; exact absurd h.symm hx
            | succ n => rw [hjl] at h; simp at h
          · simp
      simp only [key, ne_eq]

/-- Observations are made on rows of paradigms of lexemes. -/
theorem mem_observations (par : Lexeme → Str × StrPara) (n maxLen : Nat) (ls : List Lexeme) (x : Obs) :
    x ∈ observations par n maxLen ls ↔ ∃ L ∈ ls, (par L).1 ≠ [] ∧ n ≤ popularityOf par ls (par L).2 ∧ x.para = (par L).2 ∧
      ∃ r, (par L).2[x.idx]? = some r ∧ ∃ m, 1 ≤ m ∧ r.1.length ≤ m ∧ m ≤ maxLen ∧ x.ending = lastLetters m (r.2.2 ++ (par L).1 ++ r.1) := by
  unfold observations
  simp only [List.mem_flatMap]
  constructor
  · rintro ⟨L, hL, h⟩
    split at h
    · simp at h
    next hc =>
    simp only [List.mem_flatMap, formObs, List.mem_map, List.mem_filter, List.mem_range, decide_eq_true_eq] at h
    obtain ⟨⟨r, i⟩, hri, m, ⟨h1, h2, h3⟩, rfl⟩ := h
    have hri := List.mem_zipIdx_iff_getElem?.1 hri
    simp only [not_or, not_lt] at hc
    exact ⟨L, hL, hc.1, hc.2, rfl, r, hri, m, h2, h3, by omega, rfl⟩
  · rintro ⟨L, hL, h1, h2, h3, r, h4, m, h5, h6, h7, h8⟩
    refine ⟨L, hL, ?_⟩
    rw [if_neg (by simp only [not_or, not_lt]; exact ⟨h1, h2⟩)]
    simp only [List.mem_flatMap, formObs, List.mem_map, List.mem_filter, List.mem_range, decide_eq_true_eq]
    refine ⟨(r, x.idx), List.mem_zipIdx_iff_getElem?.2 h4, m, ⟨by omega, h5, h6⟩, ?_⟩
    obtain ⟨a, b, c⟩ := x
    simp only at h3 h8
    subst h3 h8
    rfl

/-- The records of the table of prefix `k`, before they are packed. -/
theorem dawg_best {ls : List Lexeme} {s : CState} {c : Compiled} (o : COptions) (T : Tables o.paradigmPrefixes ls s c)
    {par : Lexeme → Str × StrPara} (hpar' : ∀ L ∈ ls, toParadigm L o.paradigmPrefixes = .ok (par L)) (hP : PInv par ls s) (hits : List (List Hit))
    (hhits : mapE (hitsOf (popularKeys s.popularity o.minParadigmPopularity) s.gramtab c.paradigms c.suffixes o.paradigmPrefixes o.maxSuffixLength)
      s.words = .ok hits) (k : Nat) (pre : Str) (hpre : o.paradigmPrefixes[k]? = some pre) (e : Str) (cnt para idx : Nat) :
    (e, (cnt, para, idx)) ∈ dawgData hits.flatten o.minEndingFreq k ↔ (∀ j, k < j → o.paradigmPrefixes[j]? ≠ some pre) ∧
      ∃ P, dictGet P s.paraIds = some para ∧
        BestGuess (observations par o.minParadigmPopularity o.maxSuffixLength ls) o.minEndingFreq pre e cnt P idx := by
  have hobs := hits_eq T hpar' hP _ _ hits hhits
  rw [mem_dawgData_iff, hobs]
  generalize hO : observations par o.minParadigmPopularity o.maxSuffixLength ls = obs
  -- facts about observations
  have hrow : ∀ x ∈ obs, ∃ i r, dictGet x.para s.paraIds = some i ∧ x.para[x.idx]? = some r ∧ dictGet r.2.2 (enumDict o.paradigmPrefixes) = some (preIdOf o.paradigmPrefixes r.2.2) := by
    intro x hx
    rw [← hO, mem_observations] at hx
    obtain ⟨L, hL, _, _, hpx, r, hr, _⟩ := hx
    obtain ⟨st, Q, i, e1, e2⟩ := T.inv.has L hL
    rw [hpar' L hL] at e1
    simp only [Except.ok.injEq] at e1
    have e2 : dictGet (par L).2 s.paraIds = some i := by rw [e1]; exact e2
    rw [hpx]
    refine ⟨i, r, e2, hr, ?_⟩
    obtain ⟨rows, hrows, hR⟩ := T.inv.para _ i e2
    obtain ⟨p', hp', hlin⟩ := getElem?_forall₂ T.paras i rows hrows
    obtain ⟨q, hq, _, e4, _⟩ := getElem?_forall₂ hR _ r hr
    obtain ⟨d, _, hd2⟩ := hlin.preId _ q hq
    rw [e4] at hd2
    simp [preIdOf, hd2]
  have hfreq : (obs.map (toHit o.paradigmPrefixes s)).countP (fun h => decide (h.2.1 = e)) = obs.countP fun x => decide (x.ending = e) := by
    rw [List.countP_map]
    apply List.countP_congr
    intro x _
    simp [toHit]
  -- counts of hits are counts of observations
  have hcnt : ∀ (P : StrPara) (i a : Nat) (r : Str × Str × Str), dictGet P s.paraIds = some a → P[i]? = some r →
      (obs.map (toHit o.paradigmPrefixes s)).count (preIdOf o.paradigmPrefixes r.2.2, e, partOfSpeech r.2.1, (a, i)) = obs.count ⟨P, i, e⟩ := by
    intro P i a r ha hr
    rw [List.count_eq_countP, List.countP_map, List.count_eq_countP]
    apply List.countP_congr
    intro x hx
    obtain ⟨i', r', g1, g2, g3⟩ := hrow x hx
    obtain ⟨xp, xi, xe⟩ := x
    simp only at g1 g2
    simp only [Function.comp, beq_iff_eq, toHit, Prod.mk.injEq, Obs.mk.injEq, g2, Option.getD_some, splitTag_head, CState.idOf, g1]
    constructor
    · rintro ⟨_, rfl, _, rfl, rfl⟩
      exact ⟨T.inv.inj g1 ha, rfl, rfl⟩
    · rintro ⟨rfl, rfl, rfl⟩
      rw [ha] at g1
      rw [hr] at g2
      simp only [Option.some.injEq] at g1 g2
      subst g1 g2
      exact ⟨rfl, rfl, rfl, rfl, rfl⟩
  rw [hfreq]
  constructor
  · rintro ⟨hmin, pos, hmem, hc, hmax⟩
    obtain ⟨x, hx, he⟩ := List.mem_map.1 hmem
    obtain ⟨i', r', g1, g2, g3⟩ := hrow x hx
    obtain ⟨xp, xi, xe⟩ := x
    simp only at g1 g2
    simp only [toHit, Prod.mk.injEq, g2, Option.getD_some, splitTag_head, CState.idOf, g1] at he
    obtain ⟨e1, rfl, rfl, rfl, rfl⟩ := he
    rw [e1] at g3
    obtain ⟨g4, g5⟩ := (enumDict_last _ _ _).1 g3
    rw [hpre] at g4
    simp only [Option.some.injEq] at g4
    have hcc := hcnt xp xi i' r' g1 g2
    rw [e1] at hcc
    rw [hcc] at hc
    refine ⟨by rw [g4]; exact g5, xp, g1, hmin, hc, ?_, r', g2, g4.symm, ?_⟩
    · rw [hc]; exact List.count_pos_iff.2 hx
    · intro P' idx' r'' k1 k2 k3
      by_cases h0 : obs.count ⟨P', idx', xe⟩ = 0
      · omega
      · obtain ⟨a, r3, m1, m2, m3⟩ := hrow _ (List.count_pos_iff.1 (Nat.pos_of_ne_zero h0))
        simp only at m1 m2
        rw [k1] at m2
        simp only [Option.some.injEq] at m2
        subst m2
        have := hmax (a, idx')
        rw [← k3, ← e1, ← g4, ← k2, hcnt P' idx' a r'' m1 k1] at this
        exact this
  · rintro ⟨hlast, P, hPk, hmin, hc, hpos, r, hr, hrp, hmax⟩
    have hpid : dictGet pre (enumDict o.paradigmPrefixes) = some k := (enumDict_last _ _ _).2 ⟨hpre, hlast⟩
    have hpi : preIdOf o.paradigmPrefixes r.2.2 = k := by simp [preIdOf, hrp, hpid]
    have hcc := hcnt P idx para r hPk hr
    rw [hpi] at hcc
    refine ⟨hmin, partOfSpeech r.2.1, ?_, by rw [hcc]; exact hc, ?_⟩
    · rw [← List.count_pos_iff, hcc]; omega
    · rintro ⟨a, i'⟩
      by_cases h0 : (obs.map (toHit o.paradigmPrefixes s)).count (k, e, partOfSpeech r.2.1, (a, i')) = 0
      · omega
      · obtain ⟨x, hx, he⟩ := List.mem_map.1 (List.count_pos_iff.1 (Nat.pos_of_ne_zero h0))
        obtain ⟨i2, r', g1, g2, g3⟩ := hrow x hx
        obtain ⟨xp, xi, xe⟩ := x
        simp only at g1 g2
        simp only [toHit, Prod.mk.injEq, g2, Option.getD_some, splitTag_head, CState.idOf, g1] at he
        obtain ⟨e1, rfl, e3, rfl, rfl⟩ := he
        have hrr : r'.2.2 = pre := by
          rw [e1] at g3
          have := ((enumDict_last _ _ _).1 g3).1
          rw [hpre] at this
          simp only [Option.some.injEq] at this
          exact this.symm
        have h4 := hcnt xp xi i2 r' g1 g2
        rw [e1, e3] at h4
        rw [h4]
        exact hmax xp xi r' g2 hrr e3

/-- **C66.** The prediction tables of a compiled dictionary, exactly.  There is a numbering `paras` of the paradigms of the (linked) source
lexemes, which is the numbering of the dictionary, and the table of a paradigm prefix consists of the best guesses of the
specification, each once.  (If a prefix is listed twice, only its last table is filled.) -/
theorem c66_tables {I : Type} [DecidableEq I] (num : I → Int) (bw : DawgBuild (Nat × Nat)) (bp : DawgBuild (Nat × Nat × Nat))
    (o : COptions) (p : Parsed I) (c : Compiled) (h : compileParsed num bw bp o p = .ok c) :
    ∃ ls, joinLexemes num p = .ok ls ∧
      ∀ par : Lexeme → Str × StrPara, (∀ L ∈ ls, Extracts o.paradigmPrefixes L (par L).1 (par L).2) →
      ∃ paras : List StrPara, paras.Nodup ∧ (∀ P, P ∈ paras ↔ ∃ L ∈ ls, (par L).2 = P) ∧ paras.length = c.toDict.paradigms.length ∧
        (∀ (k : Nat) P, paras[k]? = some P → c.toDict.paradigmInfo k = .ok (P.map fun r => (r.2.2, ⟨r.2.1⟩, r.1))) ∧
        c.toDict.pred.length = o.paradigmPrefixes.length ∧
        ∀ (k : Nat) pre t, o.paradigmPrefixes[k]? = some pre → c.toDict.pred[k]? = some t → t.Nodup ∧
          ∀ e cnt para idx, (e, (cnt, para, idx)) ∈ t ↔ (∀ j, k < j → o.paradigmPrefixes[j]? ≠ some pre) ∧
            ∃ P, paras[para]? = some P ∧
              BestGuess (observations par o.minParadigmPopularity o.maxSuffixLength ls) o.minEndingFreq pre e cnt P idx := by
  obtain ⟨ls, h1, h2⟩ := compile_split h
  refine ⟨ls, h1, fun par hpar => ?_⟩
  obtain ⟨s, hs, hfin, T, hwords, -⟩ := tables_of bw bp o ls c h2
  have hpar' : ∀ L ∈ ls, toParadigm L o.paradigmPrefixes = .ok (par L) := fun L hL => (c33_exact _ _ _ _).2 (hpar L hL)
  have hP := pinv_of o.paradigmPrefixes par ls s hpar' hs
  have hlen : s.paradigms.length = c.paradigms.length := T.paras.length_eq
  -- the numbering
  have hex : ∀ k : Fin s.paradigms.length, ∃ P, dictGet P s.paraIds = some k.1 := fun k => T.inv.from_ k.1 k.2
  choose f hf using hex
  have hget : ∀ (k : Nat) P, (List.ofFn f)[k]? = some P ↔ dictGet P s.paraIds = some k := by
    intro k P
    constructor
    · intro hk
      obtain ⟨hk1, hk2⟩ := List.getElem?_eq_some_iff.1 hk
      rw [List.getElem_ofFn] at hk2
      rw [← hk2]; exact hf _
    · intro hk
      obtain ⟨rows, hrows, -⟩ := T.inv.para P k hk
      have hlt := (List.getElem?_eq_some_iff.1 hrows).1
      have : f ⟨k, hlt⟩ = P := T.inv.inj (hf ⟨k, hlt⟩) hk
      rw [List.getElem?_eq_some_iff]
      exact ⟨by simpa using hlt, by rw [List.getElem_ofFn]; exact this⟩
  have hpred : ∃ (hs : List (List Hit)),
      mapE (hitsOf (popularKeys s.popularity o.minParadigmPopularity) s.gramtab c.paradigms c.suffixes o.paradigmPrefixes o.maxSuffixLength)
        s.words = .ok hs ∧
      List.Forall₂ (fun data t => List.Nodup t ∧ ∀ e : Str × Nat × Nat × Nat, e ∈ t ↔ e ∈ data)
        ((List.range o.paradigmPrefixes.length).map (dawgData hs.flatten o.minEndingFreq)) c.pred := by
    unfold finish predictionData at hfin
    simp only [bind_ok_iff, pure_eq_ok, Except.ok.injEq] at hfin
    obtain ⟨paras, _, data, ⟨hs, hhs, rfl⟩, words, _, pred, hpred, rfl⟩ := hfin
    refine ⟨hs, hhs, ((mapE_ok_iff _ _ _).1 hpred).imp ?_⟩
    intro data t ht
    unfold predDawg at ht
    split at ht
    · simp only [Except.ok.injEq] at ht
      subst ht; exact ⟨bp.nodup _, bp.mem _⟩
    · simp at ht
  obtain ⟨hits, hhits, hfor⟩ := hpred
  refine ⟨List.ofFn f, ?_, ?_, ?_, ?_, ?_, ?_⟩
  · rw [List.nodup_ofFn]
    intro a b hab
    have h1 := hf a
    have h2 := hf b
    rw [hab, h2] at h1
    simp only [Option.some.injEq] at h1
    exact Fin.ext h1.symm
  · intro P
    constructor
    · intro hm
      obtain ⟨k, hk⟩ := List.mem_iff_getElem?.1 hm
      obtain ⟨L, hL, stem, hs⟩ := T.inv.used P k ((hget k P).1 hk)
      rw [hpar' L hL] at hs
      simp only [Except.ok.injEq] at hs
      exact ⟨L, hL, by rw [hs]⟩
    · rintro ⟨L, hL, rfl⟩
      obtain ⟨st, Q, k, e1, e2⟩ := T.inv.has L hL
      rw [hpar' L hL] at e1
      simp only [Except.ok.injEq] at e1
      exact List.mem_iff_getElem?.2 ⟨k, (hget k _).2 (by rw [e1]; exact e2)⟩
  · simp [hlen, Compiled.toDict]
  · intro k P hk
    obtain ⟨p', hp', hl, hform⟩ := T.isForm ((hget k P).1 hk)
    unfold Dict.paradigmInfo
    rw [(pyGet_ok_iff _ _ _).2 hp', ok_bind, hl, mapE_ok_iff]
    rw [List.forall₂_iff_get]
    refine ⟨by simp, ?_⟩
    intro i hi1 hi2
    have hi : i < P.length := by simpa using hi2
    have hF := hform i P[i] (List.getElem?_eq_getElem hi)
    simp only [List.get_eq_getElem, List.getElem_range, List.getElem_map]
    unfold Dict.paradigmRow
    rw [hF.hpre, ok_bind, hF.hsuf, ok_bind, hF.htag, ok_bind]
    rfl
  · simp only [Compiled.toDict]
    rw [← hfor.length_eq]; simp
  · intro k pre t hpre ht
    obtain ⟨data, hdata, hnd, hsub⟩ := getElem?_forall₂' hfor k t ht
    rw [List.getElem?_map, Option.map_eq_some_iff] at hdata
    obtain ⟨j, hj, rfl⟩ := hdata
    have hkj : k = j := by
      rw [List.getElem?_eq_some_iff] at hj
      obtain ⟨_, hj⟩ := hj
      simpa using hj
    subst hkj
    refine ⟨hnd, ?_⟩
    intro e cnt para idx
    rw [hsub, dawg_best o T hpar' hP hits hhits k pre hpre]
    simp only [hget]

/-- The stem and the paradigm are defined for every linked lexeme of an accepted source. -/
theorem c66_extractable {I : Type} [DecidableEq I] (num : I → Int) (bw : DawgBuild (Nat × Nat)) (bp : DawgBuild (Nat × Nat × Nat))
    (o : COptions) (p : Parsed I) (c : Compiled) (h : compileParsed num bw bp o p = .ok c) (ls : List Lexeme) (hls : joinLexemes num p = .ok ls) :
    ∃ par : Lexeme → Str × StrPara, ∀ L ∈ ls, Extracts o.paradigmPrefixes L (par L).1 (par L).2 := by
  obtain ⟨ls', h1, h2⟩ := compile_split h
  rw [hls] at h1
  simp only [Except.ok.injEq] at h1
  subst h1
  obtain ⟨s, hs, hfin, T, hwords, -⟩ := tables_of bw bp o ls c h2
  refine ⟨fun L => ((toParadigm L o.paradigmPrefixes).toOption).getD ([], []), fun L hL => ?_⟩
  obtain ⟨stem, P, k, h1, -⟩ := T.inv.has L hL
  rw [← c33_exact]
  simp only [h1, Except.toOption, Option.getD_some]

/-- **C66, what a guess rests on.** With a compiled dictionary, a result obtained by the ending of the word rests on a source lexeme that has
a form with this tag and this ending, has a stem, and shares its paradigm with at least `min_paradigm_popularity` lexemes; the ending has
been observed at least `min_ending_freq` times and has at most `max_suffix_length` letters. -/
theorem c66_guess {I : Type} [DecidableEq I] (num : I → Int) (bw : DawgBuild (Nat × Nat)) (bp : DawgBuild (Nat × Nat × Nat))
    (o : COptions) (src : Parsed I) (c : Compiled) (h : compileParsed num bw bp o src = .ok c)
    (m : Morph S) (hm : IsRu m ∨ IsUk m) (hd : m.dict = c.toDict) (hs : m.sub.Proper) (w : Str) (ps : List (Parse S))
    (hps : m.parse w = .ok ps) (p : Parse S) (hp : p ∈ ps) (u : UObj) (sfx : Str) (hu : p.byEnding u sfx) :
    ∃ ls, joinLexemes num src = .ok ls ∧
      ∀ par : Lexeme → Str × StrPara, (∀ L ∈ ls, Extracts o.paradigmPrefixes L (par L).1 (par L).2) →
      ∃ L ∈ ls, (∃ form ∈ L, form.2 = p.tag.str ∧ ∃ n, 1 ≤ n ∧ n ≤ o.maxSuffixLength ∧ sfx = lastLetters n form.1) ∧
        (par L).1 ≠ [] ∧ o.minParadigmPopularity ≤ popularityOf par ls (par L).2 ∧
        o.minEndingFreq ≤ (observations par o.minParadigmPopularity o.maxSuffixLength ls).countP fun x => x.ending = sfx := by
  obtain ⟨ls, h1, H⟩ := c66_tables num bw bp o src c h
  refine ⟨ls, h1, fun par hpar => ?_⟩
  obtain ⟨paras, -, -, -, hinfo, -, htab⟩ := H par hpar
  obtain ⟨ls', h1', h2⟩ := compile_split h
  have hwf := c30_sound bw bp o ls' c h2
  obtain ⟨-, ⟨k, i, cnt, para, idx, -, hP, -⟩, -⟩ := c59_default m hm (by rw [hd]; exact hwf) hs w ps hps p hp u sfx hu
  obtain ⟨pre, hpre, -⟩ := hP.pre
  obtain ⟨t, ht, hmem⟩ := hP.stored
  have htag := hP.hasTag
  rw [hd] at hpre ht htag
  have hpp : o.paradigmPrefixes[k]? = some pre := by
    obtain ⟨s, hs, hfin, T, -⟩ := tables_of bw bp o ls' c h2
    rw [← T.prefixes]; exact hpre
  obtain ⟨-, P, hPk, hbest⟩ := ((htab k pre t hpp ht).2 sfx cnt para idx).1 hmem
  have hx := List.count_pos_iff.1 (hbest.count ▸ hbest.pos)
  rw [mem_observations] at hx
  obtain ⟨L, hL, a1, a2, a3, r, a4, n, a5, a6, a7, a8⟩ := hx
  refine ⟨L, hL, ?_, a1, a2, hbest.frequent⟩
  have hex := (c33_exact _ _ _ _).2 (hpar L hL)
  have hget := lexeme_get hex idx
  rw [a4] at hget
  refine ⟨_, List.mem_of_getElem? hget, ?_, n, a5, a7, a8⟩
  have := hinfo para P hPk
  have hrow : c.toDict.tagInfo para idx = .ok ⟨r.2.1⟩ := by
    obtain ⟨pp, hpp1, hpp2⟩ := (bind_ok_iff _ _ _).1 this
    rw [mapE_ok_iff] at hpp2
    simp only at a3
    rw [a3] at hpp2
    obtain ⟨j, hj, hrow⟩ := getElem?_forall₂' hpp2 idx (r.2.2, ⟨r.2.1⟩, r.1) (by rw [List.getElem?_map, a4]; rfl)
    have hj : j = idx := by
      obtain ⟨_, hj⟩ := List.getElem?_eq_some_iff.1 hj
      simpa using hj.symm
    unfold Dict.paradigmRow at hrow
    simp only [bind_ok_iff, pure_eq_ok, Except.ok.injEq, Prod.mk.injEq] at hrow
    obtain ⟨_, _, _, _, tg, htg, _, rfl, _⟩ := hrow
    rw [← hj]; exact htg
  rw [htag] at hrow
  simp only [Except.ok.injEq] at hrow
  rw [hrow]

/-- **C66, finding.** The lengths run up to `max_suffix_length` even when the word is shorter, and the last `n` letters of a shorter word are
the whole word: one form observed once is counted `max_suffix_length + 1 - len(word)` times for the ending that is the whole word.  With the
default options a single word of at most four letters reaches `min_ending_freq = 2` by itself. -/
theorem c66_short_word (maxLen : Nat) (stem : Str) (P : StrPara) (r : Str × Str × Str) (i : Nat) (hne : r.2.2 ++ stem ++ r.1 ≠ []) :
    (formObs maxLen stem P (r, i)).count ⟨P, i, r.2.2 ++ stem ++ r.1⟩ = maxLen + 1 - (r.2.2 ++ stem ++ r.1).length := by
  have hl : r.1.length ≤ (r.2.2 ++ stem ++ r.1).length := by simp only [List.length_append]; omega
  unfold formObs
  simp only
  generalize r.2.2 ++ stem ++ r.1 = w at *
  have hw : 1 ≤ w.length := List.length_pos_iff.2 hne
  rw [List.count_eq_countP, List.countP_map, List.countP_filter]
  have : ∀ m, (List.range m).countP (fun n => decide (w.length ≤ n)) = m - w.length := by
    intro m
    induction m with
    | zero => simp
    | succ m ih =>
      rw [List.range_succ, List.countP_append, ih, List.countP_singleton]
      split
      · next h => simp only [decide_eq_true_eq] at h; omega
      · next h => simp only [decide_eq_true_eq] at h; omega
  rw [← this]
  apply List.countP_congr
  intro n _
  simp only [Function.comp, Bool.and_eq_true, beq_iff_eq, decide_eq_true_eq, Obs.mk.injEq, true_and, lastLetters]
  constructor
  · rintro ⟨h1, h2⟩
    by_contra hc
    have := congrArg List.length h1
    simp only [List.length_drop] at this
    omega
  · intro h
    refine ⟨?_, by omega, by omega⟩
    rw [show w.length - n = 0 by omega]; rfl

/-! ### Non-vacuity -/

/-- The prediction tables, with readable endings. -/
def Demo.guesses (r : Except Fail Compiled) : List (List (String × Nat × Nat × Nat)) :=
  match r with
  | .ok c => c.toDict.pred.map fun t : Dawg (Nat × Nat × Nat) => List.map (fun e : Str × Nat × Nat × Nat => (String.ofList e.1, e.2)) t
  | .error _ => []

/-- The tables of the demo dictionary. -/
example : Demo.guesses Demo.compiled =
    [[("шка", (2, 0, 0)), ("шке", (2, 0, 1)), ("а", (3, 0, 0)), ("ка", (3, 0, 0)), ("е", (3, 0, 1)), ("ке", (3, 0, 1))], [], []] := by
  decide +kernel

/-- The finding on an example: with `min_paradigm_popularity = 1` one lexeme is enough, and its two short forms are counted 4 and 3 times. -/
example : Demo.guesses (compileParsed (fun n : Nat => (n : Int)) dedupBuild dedupBuild
      { minEndingFreq := 2, minParadigmPopularity := 1, maxSuffixLength := 5, paradigmPrefixes := [c!""] }
      ⟨[(1, [(c!"ум", c!"NOUN sing"), (c!"умы", c!"NOUN plur")])], []⟩) = [[("ум", (4, 0, 0)), ("умы", (3, 0, 1))]] := by
  decide +kernel

/-- With the demo dictionary the unknown word `пышка` is analysed by its ending. -/
example : ∃ c, Demo.compiled = .ok c ∧ IsRu { Demo.morph with dict := c.toDict } ∧
    ∃ ps, ({ Demo.morph with dict := c.toDict } : Morph Rat).parse (c!"пышка") = .ok ps ∧ ∃ p ∈ ps, ∃ u sfx, p.byEnding u sfx := by
  have h : (match Demo.compiled with
    | .ok c => match ({ Demo.morph with dict := c.toDict } : Morph Rat).parse (c!"пышка") with
      | .ok ps => ps.any fun p => match p.stack with
        | .push _ (.simple u _) => decide (u.kind = .suff)
        | _ => false
      | _ => false
    | _ => false) = true := by decide +kernel
  split at h
  · next c hc =>
    refine ⟨c, hc, Demo.isRu_of _ _, ?_⟩
    split at h
    · next ps hps =>
      obtain ⟨p, hp, hx⟩ := List.any_eq_true.1 h
      refine ⟨ps, hps, p, hp, ?_⟩
      split at hx
      · next rest u sfx hst => exact ⟨u, sfx, rest, hst, by simpa using hx⟩
      · simp at hx
    · simp at h
  · simp at h

end Verif
