/-
The prediction data of the compiler, as counts of observations.
-/
import Verif.Props.C30
import Verif.Props.C33b
import Verif.Spec.Evidence

namespace Verif

/-! ### Popularity and words -/

/-- What one round of the loop does to the ids, the words and the popularity. -/
theorem addLexeme_facts (pp : List Str) (s s' : CState) (L : Lexeme) (h : s.addLexeme pp L = .ok s') :
    ∃ stem P id, toParadigm L pp = .ok (stem, P) ∧ dictGet P s'.paraIds = some id ∧
      (∀ Q k, dictGet Q s.paraIds = some k → dictGet Q s'.paraIds = some k) ∧
      (∀ Q k, dictGet Q s'.paraIds = some k → dictGet Q s.paraIds = some k ∨ Q = P) ∧
      s'.words = s.words ++ P.zipIdx.map (fun ri => (ri.1.2.2 ++ stem ++ ri.1.1, (id, ri.2))) ∧
      s'.popularity = dictSet id ((dictGet id s.popularity).getD 0 + 1) s.popularity := by
  unfold CState.addLexeme at h
  simp only [bind_ok_iff, pure_eq_ok, Except.ok.injEq] at h
  obtain ⟨⟨stem, P⟩, hP, s2, hs2, id, hid, rfl⟩ := h
  have htags : ∀ (rows : StrPara) (s : CState), let s' := rows.foldl (fun s r => s.addTag r.2.1) s
      s'.paraIds = s.paraIds ∧ s'.popularity = s.popularity ∧ s'.words = s.words := by
    intro rows
    induction rows with
    | nil => intro s; exact ⟨rfl, rfl, rfl⟩
    | cons r rows ih =>
      intro s
      rw [List.foldl_cons]
      obtain ⟨h1, h2, h3⟩ := ih (s.addTag r.2.1)
      have : (s.addTag r.2.1).paraIds = s.paraIds ∧ (s.addTag r.2.1).popularity = s.popularity ∧ (s.addTag r.2.1).words = s.words := by
        unfold CState.addTag; split <;> exact ⟨rfl, rfl, rfl⟩
      exact ⟨h1.trans this.1, h2.trans this.2.1, h3.trans this.2.2⟩
  obtain ⟨a1, a2, a3⟩ := htags P s
  simp only at hs2 hid a1 a2 a3 ⊢
  generalize List.foldl (fun s r => s.addTag r.2.1) s P = s1 at *
  rw [dictAt_ok_iff] at hid
  refine ⟨stem, P, id, hP, hid, ?_⟩
  unfold CState.addPara at hs2
  split at hs2
  · simp only [Except.ok.injEq] at hs2
    subst hs2
    exact ⟨fun Q k h => a1 ▸ h, fun Q k h => .inl (a1 ▸ h), by rw [a3], by rw [a2]⟩
  · next hnone =>
    simp only [bind_ok_iff, pure_eq_ok, Except.ok.injEq] at hs2
    obtain ⟨rows, hrows, rfl⟩ := hs2
    refine ⟨fun Q k hk => ?_, fun Q k hk => ?_, by simp only [a3], by simp only [a2]⟩
    · simp only [dictGet_dictSet]
      split
      · next hQP => subst hQP; rw [a1, hk] at hnone; simp at hnone
      · rw [a1]; exact hk
    · simp only [dictGet_dictSet] at hk
      split at hk
      · next hQ => exact .inr hQ
      · exact .inl (a1 ▸ hk)

/-- Different paradigms have different ids. -/
theorem CInv.inj {pp : List Str} {ls : List Lexeme} {s : CState} (hi : CInv pp ls s) {P Q : StrPara} {k : Nat}
    (hP : dictGet P s.paraIds = some k) (hQ : dictGet Q s.paraIds = some k) : P = Q := by
  obtain ⟨rows, h1, h2⟩ := hi.para P k hP
  obtain ⟨rows', h3, h4⟩ := hi.para Q k hQ
  rw [h1] at h3
  simp only [Option.some.injEq] at h3
  subst h3
  clear h1 hP hQ
  induction h2 generalizing Q with
  | nil => cases h4; rfl
  | cons hab _ ih =>
    cases h4 with
    | cons hab' h4 =>
      rw [ih h4]
      congr 1
      obtain ⟨a1, a2, a3⟩ := hab
      obtain ⟨b1, b2, b3⟩ := hab'
      rw [a3] at b3
      simp only [Option.some.injEq] at b3
      exact Prod.ext (a1.symm.trans b1) (Prod.ext b3 (a2.symm.trans b2))

/-- The id of a paradigm. -/
def CState.idOf (s : CState) (P : StrPara) : Nat := (dictGet P s.paraIds).getD 0

/-- The words and the popularity after the lexemes `ls`. -/
structure PInv (par : Lexeme → Str × StrPara) (ls : List Lexeme) (s : CState) : Prop where
  words : s.words = ls.flatMap fun L => (par L).2.zipIdx.map fun ri => (ri.1.2.2 ++ (par L).1 ++ ri.1.1, (s.idOf (par L).2, ri.2))
  keys : (s.popularity.map Prod.fst).Nodup
  known : ∀ k ∈ s.popularity.map Prod.fst, ∃ P, dictGet P s.paraIds = some k
  pop : ∀ P k, dictGet P s.paraIds = some k → dictGet k s.popularity = some (popularityOf par ls P)

theorem pinv_step (pp : List Str) (par : Lexeme → Str × StrPara) (ls : List Lexeme) (s s' : CState) (L : Lexeme) (hc : CInv pp ls s)
    (hpar : ∀ L' ∈ ls ++ [L], toParadigm L' pp = .ok (par L')) (hi : PInv par ls s) (h : s.addLexeme pp L = .ok s') : PInv par (ls ++ [L]) s' := by
  have hc' := cinv_step pp ls s s' L hc h
  obtain ⟨stem, P, id, hP, hid, hup, hdown, hw, hpop⟩ := addLexeme_facts pp s s' L h
  have hPL := hpar L (by simp)
  rw [hP] at hPL
  simp only [Except.ok.injEq] at hPL
  have hold : ∀ L' ∈ ls, ∃ k, dictGet (par L').2 s.paraIds = some k := by
    intro L' hL'
    obtain ⟨st, Q, k, h1, h2⟩ := hc.has L' hL'
    rw [hpar L' (by simp [hL'])] at h1
    simp only [Except.ok.injEq] at h1
    exact ⟨k, by rw [h1]; exact h2⟩
  have hnone : dictGet P s.paraIds = none → dictGet id s.popularity = none := by
    intro hn
    rw [dictGet_none_iff]
    intro hmem
    obtain ⟨Q, hQ⟩ := hi.known id hmem
    have : Q = P := hc'.inj (hup Q id hQ) hid
    rw [this, hn] at hQ
    simp at hQ
  refine ⟨?_, ?_, ?_, ?_⟩
  · rw [hw, hi.words, List.flatMap_append]
    congr 1
    · rw [List.flatMap_def, List.flatMap_def]
      congr 1
      apply List.map_congr_left
      intro L' hL'
      obtain ⟨k, hk⟩ := hold L' hL'
      have e1 : s.idOf (par L').2 = k := by simp [CState.idOf, hk]
      have e2 : s'.idOf (par L').2 = k := by simp [CState.idOf, hup _ _ hk]
      rw [e1, e2]
    · simp only [List.flatMap_cons, List.flatMap_nil, List.append_nil, ← hPL, CState.idOf, hid, Option.getD_some]
  · rw [hpop]; exact keys_dictSet_nodup _ _ _ hi.keys
  · intro k hk
    rw [hpop, ← dictGet_isSome_iff] at hk
    obtain ⟨v, hv⟩ := hk
    rw [dictGet_dictSet] at hv
    split at hv
    · next he => exact ⟨P, by rw [he]; exact hid⟩
    · obtain ⟨Q, hQ⟩ := hi.known k ((dictGet_isSome_iff _ _).1 ⟨v, hv⟩)
      exact ⟨Q, hup Q k hQ⟩
  · intro Q k hQ
    rw [hpop, dictGet_dictSet]
    unfold popularityOf
    rw [List.countP_append, List.countP_singleton, ← hPL]
    split
    · next he =>
      subst he
      have := hc'.inj hQ hid
      subst this
      simp only [decide_true, if_true, Option.some.injEq, Nat.add_right_cancel_iff]
      cases hd : dictGet Q s.paraIds with
      | some k' =>
        have hk' := hup Q k' hd
        rw [hQ] at hk'
        simp only [Option.some.injEq] at hk'
        subst hk'
        rw [hi.pop Q k hd]; rfl
      | none =>
        rw [hnone hd]
        simp only [Option.getD_none]
        symm
        rw [List.countP_eq_zero]
        intro L' hL' he
        obtain ⟨k', hk'⟩ := hold L' hL'
        simp only [decide_eq_true_eq] at he
        rw [he, hd] at hk'
        simp at hk'
    · next hne =>
      have hQP : Q ≠ P := by
        rintro rfl
        rw [hid] at hQ
        simp only [Option.some.injEq] at hQ
        exact hne hQ.symm
      rcases hdown Q k hQ with h | h
      · rw [hi.pop Q k h]
        have : ¬ (P = Q) := fun e => hQP e.symm
        simp [this, popularityOf]
      · exact absurd h hQP

theorem pinv_loop (pp : List Str) (par : Lexeme → Str × StrPara) (rest done : List Lexeme) (s s' : CState) (hc : CInv pp done s)
    (hpar : ∀ L' ∈ done ++ rest, toParadigm L' pp = .ok (par L')) (hi : PInv par done s) (h : addLexemes pp rest s = .ok s') :
    PInv par (done ++ rest) s' := by
  induction rest generalizing done s with
  | nil => simp only [addLexemes, Except.ok.injEq] at h; subst h; simpa using hi
  | cons L rest ih =>
    simp only [addLexemes, bind_ok_iff] at h
    obtain ⟨s1, h1, h2⟩ := h
    have := ih (done ++ [L]) s1 (cinv_step pp done s s1 L hc h1) (by simpa using hpar)
      (pinv_step pp par done s s1 L hc (fun L' hL' => hpar L' (by simp at hL' ⊢; tauto)) hi h1) h2
    simpa using this

theorem pinv_of (pp : List Str) (par : Lexeme → Str × StrPara) (ls : List Lexeme) (s : CState)
    (hpar : ∀ L ∈ ls, toParadigm L pp = .ok (par L)) (h : addLexemes pp ls CState.empty = .ok s) : PInv par ls s := by
  have := pinv_loop pp par ls [] CState.empty s (cinv_start pp) (by simpa using hpar)
    ⟨by simp [CState.empty], by simp [CState.empty], by simp [CState.empty], by simp [CState.empty, dictGet]⟩ h
  simpa using this

theorem mem_popularKeys {par : Lexeme → Str × StrPara} {ls : List Lexeme} {s : CState} (hi : PInv par ls s) (n : Nat) (P : StrPara) (k : Nat)
    (hk : dictGet P s.paraIds = some k) : k ∈ popularKeys s.popularity n ↔ n ≤ popularityOf par ls P := by
  unfold popularKeys
  simp only [List.mem_map, List.mem_filter, decide_eq_true_eq]
  have hp := hi.pop P k hk
  constructor
  · rintro ⟨⟨k', v⟩, ⟨h1, h2⟩, rfl⟩
    rw [dictGet_of_mem _ _ _ hi.keys h1] at hp
    simp only [Option.some.injEq] at hp
    rw [← hp]; exact h2
  · intro h
    exact ⟨(k, _), ⟨dictGet_mem' _ _ _ hp, h⟩, rfl⟩

/-! ### The increments are the observations -/

/-- The id of a paradigm prefix. -/
def preIdOf (pp : List Str) (pre : Str) : Nat := (dictGet pre (enumDict pp)).getD 0

/-- The increment made for an observation. -/
def toHit (pp : List Str) (s : CState) (x : Obs) : Hit :=
  let r := (x.para[x.idx]?).getD ([], [], [])
  (preIdOf pp r.2.2, x.ending, (splitTag r.2.1).headD [], (s.idOf x.para, x.idx))

theorem takeRight_lastLetters (w : Str) (n : Nat) (h : 1 ≤ n) : takeRight w n = lastLetters n w := by
  unfold takeRight lastLetters; rw [if_neg (by omega)]

theorem suffixLens_filter (a m : Nat) : suffixLens a m = (List.range (m + 1)).filter fun n => decide (1 ≤ n ∧ a ≤ n) := by
  have hs : ∀ l : List Nat, l.Pairwise (· < ·) → l.Nodup := fun l h => h.imp (fun h => by omega)
  have h1 : (suffixLens a m).Pairwise (· < ·) := by
    unfold suffixLens
    rw [List.pairwise_map]
    exact List.pairwise_lt_range.imp (by intro x y h; omega)
  have h2 : ((List.range (m + 1)).filter fun n => decide (1 ≤ n ∧ a ≤ n)).Pairwise (· < ·) := List.pairwise_lt_range.filter _
  apply List.Perm.eq_of_pairwise (le := (· < ·)) (by intro x y _ _ h1 h2; omega) h1 h2
  rw [List.perm_ext_iff_of_nodup (hs _ h1) (hs _ h2)]
  intro n
  rw [mem_suffixLens]
  simp only [List.mem_filter, List.mem_range, decide_eq_true_eq]
  omega

theorem hitsOf_eq {pp : List Str} {ls : List Lexeme} {s : CState} {c : Compiled} (T : Tables pp ls s c) {par : Lexeme → Str × StrPara}
    (hi : PInv par ls s) (n maxLen : Nat) (P : StrPara) (k : Nat) (hk : dictGet P s.paraIds = some k) (stem : Str) (i : Nat)
    (r : Str × Str × Str) (hr : P[i]? = some r) :
    hitsOf (popularKeys s.popularity n) s.gramtab c.paradigms c.suffixes pp maxLen (r.2.2 ++ stem ++ r.1, (k, i)) =
      .ok ((if stem = [] ∨ popularityOf par ls P < n then [] else formObs maxLen stem P (r, i)).map (toHit pp s)) := by
  obtain ⟨p, hp, hlen, hform⟩ := T.isForm hk
  have hf := hform i r hr
  unfold hitsOf
  simp only
  by_cases hpopular : k ∈ popularKeys s.popularity n
  swap
  · rw [if_pos hpopular, if_pos]
    · rfl
    · right
      rw [mem_popularKeys hi n P k hk] at hpopular
      omega
  rw [if_neg (by simpa using hpopular)]
  have hpn : ¬ popularityOf par ls P < n := by
    rw [mem_popularKeys hi n P k hk] at hpopular
    omega
  have h1 := hf.hpre
  have h2 := hf.hsuf
  have h3 := hf.htag
  unfold Dict.formPrefix at h1
  unfold Dict.formSuffix at h2
  unfold Dict.tagInfo at h3
  simp only [Compiled.toDict, bind_ok_iff] at h1 h2 h3 hp
  obtain ⟨preId, g1, g2⟩ := h1
  obtain ⟨sufId, g3, g4⟩ := h2
  obtain ⟨p', g5, tid, g6, g7⟩ := h3
  rw [pyGet_ok_iff, hp] at g5
  simp only [Option.some.injEq] at g5
  subst g5
  rw [pyGet_ok_iff, List.getElem?_map, Option.map_eq_some_iff] at g7
  obtain ⟨tag, g7, g8⟩ := g7
  simp only [Tag.mk.injEq] at g8
  subst g8
  rw [T.gramtab] at g7
  have hpre : preIdOf pp r.2.2 = preId := by
    obtain ⟨rows, hrows, hR⟩ := T.inv.para P k hk
    obtain ⟨p', hp', hlin⟩ := getElem?_forall₂ T.paras k rows hrows
    rw [hp] at hp'
    simp only [Option.some.injEq] at hp'
    subst hp'
    have hl : rows.length = P.length := hR.length_eq.symm
    obtain ⟨q, hq, e1, e2, e3⟩ := getElem?_forall₂ hR i r hr
    obtain ⟨d, hd1, hd2⟩ := hlin.preId i q hq
    rw [pyGet_ok_iff, hlen, ← hl, Nat.mul_comm, hd1] at g1
    simp only [Option.some.injEq] at g1
    subst g1
    rw [e2] at hd2
    simp [preIdOf, hd2]
  rw [(pyGet_ok_iff _ _ _).2 hp, ok_bind]
  rw [g6, ok_bind, (pyGet_ok_iff _ _ _).2 g7, ok_bind, Nat.mul_comm 2, g1, ok_bind]
  rw [T.prefixes] at g2
  rw [g2, ok_bind, g3, ok_bind, g4, ok_bind]
  rw [if_neg (by simp only [List.length_append]; omega)]
  rw [if_neg (by rw [Bool.not_eq_false, startsWith_iff, List.append_assoc]; exact List.prefix_append _ _)]
  rw [if_neg (by rw [Bool.not_eq_false, endsWith_iff]; exact List.suffix_append _ _)]
  by_cases hstem : stem = []
  · rw [if_pos (by subst hstem; simp), if_pos (.inl hstem)]; rfl
  · have : 0 < stem.length := List.length_pos_iff.2 hstem
    rw [if_neg (by simp only [List.length_append]; omega), if_neg (by tauto)]
    congr 1
    unfold formObs
    rw [List.map_map, suffixLens_filter]
    apply List.map_congr_left
    intro m hm
    simp only [List.mem_filter, decide_eq_true_eq] at hm
    simp only [Function.comp, toHit, hr, Option.getD_some, hpre, CState.idOf, hk]
    rw [takeRight_lastLetters _ _ hm.2.1]

theorem mapE_flatMap {α β γ : Type} (f : β → Except PyErr γ) (g : α → List β) (h : α → List γ) (l : List α)
    (H : ∀ a ∈ l, mapE f (g a) = .ok (h a)) : mapE f (l.flatMap g) = .ok (l.flatMap h) := by
  have app : ∀ (x y : List β) (x' y' : List γ), mapE f x = .ok x' → mapE f y = .ok y' → mapE f (x ++ y) = .ok (x' ++ y') := by
    intro x y x' y' hx hy
    rw [mapE_ok_iff] at *
    exact List.rel_append hx hy
  induction l with
  | nil => rfl
  | cons a l ih =>
    rw [List.flatMap_cons, List.flatMap_cons]
    exact app _ _ _ _ (H a (by simp)) (ih fun a ha => H a (by simp [ha]))

/-- All increments, in order. -/
theorem hits_eq {pp : List Str} {ls : List Lexeme} {s : CState} {c : Compiled} (T : Tables pp ls s c) {par : Lexeme → Str × StrPara}
    (hpar : ∀ L ∈ ls, toParadigm L pp = .ok (par L)) (hi : PInv par ls s) (n maxLen : Nat) (hs : List (List Hit))
    (h : mapE (hitsOf (popularKeys s.popularity n) s.gramtab c.paradigms c.suffixes pp maxLen) s.words = .ok hs) :
    hs.flatten = (observations par n maxLen ls).map (toHit pp s) := by
  rw [hi.words] at h
  have h' := mapE_flatMap (hitsOf (popularKeys s.popularity n) s.gramtab c.paradigms c.suffixes pp maxLen)
    (fun L => (par L).2.zipIdx.map fun ri => (ri.1.2.2 ++ (par L).1 ++ ri.1.1, (s.idOf (par L).2, ri.2)))
    (fun L => (par L).2.zipIdx.map fun ri =>
      (if (par L).1 = [] ∨ popularityOf par ls (par L).2 < n then [] else formObs maxLen (par L).1 (par L).2 ri).map (toHit pp s)) ls (by
      intro L hL
      obtain ⟨st, Q, k, h1, h2⟩ := T.inv.has L hL
      rw [hpar L hL] at h1
      simp only [Except.ok.injEq] at h1
      have hk : dictGet (par L).2 s.paraIds = some k := by rw [h1]; exact h2
      rw [mapE_ok_iff, List.forall₂_map_left_iff, List.forall₂_map_right_iff, List.forall₂_same]
      rintro ⟨r, i⟩ hri
      have hri := List.mem_zipIdx_iff_getElem?.1 hri
      have : s.idOf (par L).2 = k := by simp [CState.idOf, hk]
      simp only [this]
      exact hitsOf_eq T hi n maxLen _ k hk _ i r hri)
  rw [h] at h'
  simp only [Except.ok.injEq] at h'
  rw [h']
  unfold observations
  rw [List.map_flatMap, List.flatMap_def, List.flatMap_def, List.flatten_flatten, List.map_map]
  congr 1
  apply List.map_congr_left
  intro L _
  simp only [Function.comp]
  split
  · simp [List.flatten_eq_nil_iff]
  · rw [List.map_flatMap, List.flatMap_def]

end Verif
