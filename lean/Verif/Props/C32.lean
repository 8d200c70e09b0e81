/-
C32 — tag simplification does not change what a tag means.
-/
import Verif.Model.Preprocess
import Verif.Lemmas.PyDict

namespace Verif

/-! ### `str.replace` -/

/-- Character-wise: equal, or the last character of the pattern replaced. -/
def SameBut (a b : Char) (x y : Char) : Prop := y = x ∨ (x = a ∧ y = b)

theorem replaceAux_drop (pat new : Str) (k : Nat) (s : Str) : replaceAux pat new k s = replaceAux pat new 0 (s.drop k) := by
  induction s generalizing k with
  | nil => simp [replaceAux]
  | cons c s ih =>
    cases k with
    | zero => rfl
    | succ k => rw [replaceAux, ih]; rfl

theorem pyReplace_match (pat new s : Str) (hp : pat ≠ []) : pyReplace (pat ++ s) pat new = new ++ pyReplace s pat new := by
  cases pat with
  | nil => exact absurd rfl hp
  | cons c p =>
    unfold pyReplace
    show replaceAux (c :: p) new 0 (c :: (p ++ s)) = _
    rw [replaceAux, if_pos (by simp [List.isPrefixOf_iff_prefix]), replaceAux_drop]
    simp

theorem pyReplace_nomatch (pat new : Str) (c : Char) (s : Str) (h : ¬ pat <+: c :: s) :
    pyReplace (c :: s) pat new = c :: pyReplace s pat new := by
  unfold pyReplace
  rw [replaceAux, if_neg (by rwa [List.isPrefixOf_iff_prefix])]

@[simp] theorem pyReplace_nil (pat new : Str) : pyReplace [] pat new = [] := rfl

/-- An induction principle that follows the replacement. -/
theorem replace_induct (pat : Str) (hp : pat ≠ []) (P : Str → Prop) (h0 : P []) (h1 : ∀ s, P s → P (pat ++ s))
    (h2 : ∀ c s, ¬ pat <+: c :: s → P s → P (c :: s)) (s : Str) : P s := by
  induction hn : s.length using Nat.strong_induction_on generalizing s with
  | _ n ih =>
    by_cases hs : pat <+: s
    · obtain ⟨t, rfl⟩ := hs
      have : 0 < pat.length := List.length_pos_iff.2 hp
      exact h1 t (ih t.length (by simp at hn; omega) t rfl)
    · cases s with
      | nil => exact h0
      | cons c s => exact h2 c s hs (ih s.length (by simp at hn; omega) s rfl)

theorem sameBut_replace (q : Str) (a b : Char) (s : Str) : List.Forall₂ (SameBut a b) s (pyReplace s (q ++ [a]) (q ++ [b])) := by
  refine replace_induct (q ++ [a]) (by simp) (fun s => List.Forall₂ (SameBut a b) s (pyReplace s (q ++ [a]) (q ++ [b]))) List.Forall₂.nil ?_ ?_ s
  · intro s ih
    rw [pyReplace_match _ _ _ (by simp)]
    refine List.rel_append ?_ ih
    refine List.rel_append ?_ (.cons (.inr ⟨rfl, rfl⟩) .nil)
    exact List.forall₂_same.2 fun x _ => .inl rfl
  · intro c s h ih
    rw [pyReplace_nomatch _ _ _ _ h]
    exact .cons (.inl rfl) ih

/-- Without an occurrence nothing is replaced. -/
theorem pyReplace_eq_self (pat new s : Str) (h : ¬ pat <:+: s) : pyReplace s pat new = s := by
  induction s with
  | nil => rfl
  | cons c s ih =>
    rw [List.infix_cons_iff, not_or] at h
    rw [pyReplace_nomatch _ _ _ _ h.1, ih h.2]

theorem forall₂_split {α β : Type} {R : α → β → Prop} {s : List α} {r1 r2 : List β} (h : List.Forall₂ R s (r1 ++ r2)) :
    ∃ s1 s2, List.Forall₂ R s1 r1 ∧ List.Forall₂ R s2 r2 ∧ s = s1 ++ s2 := by
  induction r1 generalizing s with
  | nil => exact ⟨[], s, .nil, h, rfl⟩
  | cons b r1 ih =>
    cases h with
    | cons hab h =>
      obtain ⟨s1, s2, h1, h2, rfl⟩ := ih h
      exact ⟨_, s2, .cons hab h1, h2, rfl⟩

/-- The characters of a string without `b` are read the same way before the replacement. -/
theorem infix_back {a b : Char} {pat s r : Str} (hb : b ∉ pat) (h : List.Forall₂ (SameBut a b) s r) (hi : pat <:+: r) :
    ∃ u v u' v', s = u ++ pat ++ v ∧ r = u' ++ pat ++ v' ∧ u.length = u'.length := by
  obtain ⟨u', v', rfl⟩ := hi
  obtain ⟨s1, v, h1, _, rfl⟩ := forall₂_split h
  obtain ⟨u, p, h3, h4, rfl⟩ := forall₂_split h1
  have : p = pat := by
    clear h3 h1 h
    induction h4 with
    | nil => rfl
    | cons hxy _ ih =>
      simp only [List.mem_cons, not_or] at hb
      rcases hxy with e | ⟨_, e⟩
      · rw [ih hb.2, e]
      · exact absurd e.symm hb.1
  subst this
  exact ⟨u, v, u', v', rfl, rfl, h3.length_eq⟩

/-- Every occurrence is replaced. -/
theorem replace_hits (q : Str) (a b : Char) (haq : a ∉ q) (u v : Str) :
    ∃ u' v', pyReplace (u ++ (q ++ [a]) ++ v) (q ++ [a]) (q ++ [b]) = u' ++ (q ++ [b]) ++ v' ∧ u'.length = u.length := by
  induction hn : u.length using Nat.strong_induction_on generalizing u with
  | _ n ih =>
    cases u with
    | nil =>
      rw [List.nil_append, pyReplace_match _ _ _ (by simp)]
      exact ⟨[], _, rfl, by simpa using hn⟩
    | cons c u =>
      by_cases hm : (q ++ [a]) <+: (c :: u) ++ (q ++ [a]) ++ v
      · -- the occurrence found first lies inside u
        have hlen : (q ++ [a]).length ≤ (c :: u).length := by
          by_contra hlt
          simp only [List.length_append, List.length_cons, List.length_nil] at hlt
          obtain ⟨t, ht⟩ := hm
          have h1 : ((q ++ [a]) ++ t)[q.length]? = some a := by simp
          rw [ht, List.append_assoc, List.getElem?_append_right (by simp only [List.length_cons]; omega)] at h1
          rw [List.append_assoc, List.getElem?_append_left (by simp only [List.length_cons]; omega)] at h1
          exact haq (List.mem_of_getElem? h1)
        have hpre : (q ++ [a]) <+: c :: u := by
          rw [List.append_assoc] at hm
          exact List.prefix_of_prefix_length_le hm (List.prefix_append _ _) hlen
        obtain ⟨u2, hu2⟩ := hpre
        rw [← hu2]
        obtain ⟨u', v', h1, h2⟩ := ih u2.length (by rw [← hn, ← hu2]; simp; omega) u2 rfl
        refine ⟨(q ++ [b]) ++ u', v', ?_, ?_⟩
        · rw [List.append_assoc, List.append_assoc, pyReplace_match _ _ _ (by simp), ← List.append_assoc u2, h1]
          simp
        · rw [← hn, ← hu2]; simp [h2]
      · obtain ⟨u', v', h1, h2⟩ := ih u.length (by rw [← hn]; simp) u rfl
        refine ⟨c :: u', v', ?_, by rw [← hn]; simp [h2]⟩
        have : (c :: u) ++ (q ++ [a]) ++ v = c :: (u ++ (q ++ [a]) ++ v) := rfl
        rw [this] at hm ⊢
        rw [pyReplace_nomatch _ _ _ _ hm, h1]; rfl

/-- After the replacement there is no occurrence. -/
theorem no_occurrence (q : Str) (a b : Char) (haq : a ∉ q) (hbq : b ∉ q) (hab : b ≠ a) (s : Str) :
    ¬ (q ++ [a]) <:+: pyReplace s (q ++ [a]) (q ++ [b]) := by
  intro hi
  obtain ⟨u, v, u', v', h1, h2, h3⟩ := infix_back (by simp [hbq, hab]) (sameBut_replace q a b s) hi
  obtain ⟨u2, v2, h4, h5⟩ := replace_hits q a b haq u v
  rw [← h1, h2] at h4
  have e1 : (u' ++ (q ++ [a]) ++ v')[u.length + q.length]? = some a := by
    rw [List.append_assoc, List.getElem?_append_right (by omega)]
    simp [show u.length + q.length - u'.length = q.length by omega]
  have e2 : (u2 ++ (q ++ [b]) ++ v2)[u.length + q.length]? = some b := by
    rw [List.append_assoc, List.getElem?_append_right (by omega)]
    simp [show u.length + q.length - u2.length = q.length by omega]
  rw [h4, e2] at e1
  simp at e1
  exact hab e1

/-- An occurrence of a string without `b` was there before. -/
theorem occurrence_back (q : Str) (a b : Char) (pat s : Str) (hb : b ∉ pat) (h : pat <:+: pyReplace s (q ++ [a]) (q ++ [b])) : pat <:+: s := by
  obtain ⟨u, v, _, _, h1, _⟩ := infix_back hb (sameBut_replace q a b s) h
  exact ⟨u, v, h1.symm⟩

/-- None of loc1, gen1, acc1 is a part of the string. -/
def NoRedundant (s : Str) : Prop := ¬ c!"loc1" <:+: s ∧ ¬ c!"gen1" <:+: s ∧ ¬ c!"acc1" <:+: s

theorem replaceRedundant_noRedundant (s : Str) : NoRedundant (replaceRedundant s) := by
  show NoRedundant (pyReplace (pyReplace (pyReplace s (c!"loc" ++ ['1']) (c!"loc" ++ ['t'])) (c!"gen" ++ ['1']) (c!"gen" ++ ['t']))
    (c!"acc" ++ ['1']) (c!"acc" ++ ['s']))
  have h1 := no_occurrence (c!"loc") '1' 't' (by decide) (by decide) (by decide) s
  generalize pyReplace s (c!"loc" ++ ['1']) (c!"loc" ++ ['t']) = s1 at h1 ⊢
  have h2 := no_occurrence (c!"gen") '1' 't' (by decide) (by decide) (by decide) s1
  have h2' := mt (occurrence_back (c!"gen") '1' 't' (c!"loc1") s1 (by decide)) h1
  generalize pyReplace s1 (c!"gen" ++ ['1']) (c!"gen" ++ ['t']) = s2 at h2 h2' ⊢
  have h3 := no_occurrence (c!"acc") '1' 's' (by decide) (by decide) (by decide) s2
  have h3' := mt (occurrence_back (c!"acc") '1' 's' (c!"loc1") s2 (by decide)) h2'
  have h3'' := mt (occurrence_back (c!"acc") '1' 's' (c!"gen1") s2 (by decide)) h2
  exact ⟨h3', h3'', h3⟩

theorem replaceRedundant_of_noRedundant (s : Str) (h : NoRedundant s) : replaceRedundant s = s := by
  unfold replaceRedundant
  rw [pyReplace_eq_self _ _ s h.1, pyReplace_eq_self _ _ s h.2.1, pyReplace_eq_self _ _ s h.2.2]

theorem replaceRedundant_idem (s : Str) : replaceRedundant (replaceRedundant s) = replaceRedundant s :=
  replaceRedundant_of_noRedundant _ (replaceRedundant_noRedundant s)

/-! ### Replacement and splitting -/

theorem pyReplace_append (pat new : Str) (c : Char) (hc : c ∉ pat) (hp : pat ≠ []) (x y : Str) :
    pyReplace (x ++ c :: y) pat new = pyReplace x pat new ++ c :: pyReplace y pat new := by
  refine replace_induct pat hp (fun x => pyReplace (x ++ c :: y) pat new = pyReplace x pat new ++ c :: pyReplace y pat new) ?_ ?_ ?_ x
  · have : ¬ pat <+: c :: y := by
      rintro ⟨t, ht⟩
      cases pat with
      | nil => exact hp rfl
      | cons d p => simp only [List.cons_append, List.cons.injEq] at ht; exact hc (by simp [ht.1])
    rw [List.nil_append, pyReplace_nomatch _ _ _ _ this]; rfl
  · intro s ih
    rw [List.append_assoc, pyReplace_match _ _ _ hp, pyReplace_match _ _ _ hp, ih, List.append_assoc]
  · intro d s h ih
    have : ¬ pat <+: d :: (s ++ c :: y) := by
      intro h'
      apply h
      have h2 : pat <+: (d :: s) ++ c :: y := h'
      refine List.prefix_of_prefix_length_le h2 (List.prefix_append _ _) ?_
      by_contra hlt
      obtain ⟨t, ht⟩ := h2
      have h1 : (pat ++ t)[(d :: s).length]? = some c := by rw [ht]; simp
      rw [List.getElem?_append_left (by omega)] at h1
      exact hc (List.mem_of_getElem? h1)
    rw [List.cons_append, pyReplace_nomatch _ _ _ _ this, pyReplace_nomatch _ _ _ _ h, ih, List.cons_append]

theorem mem_pyReplace (pat new : Str) (c : Char) (hp : pat ≠ []) (hn : c ∉ new) (s : Str) (hs : c ∉ s) : c ∉ pyReplace s pat new := by
  revert hs
  refine replace_induct pat hp (fun s => c ∉ s → c ∉ pyReplace s pat new) (by simp) ?_ ?_ s
  · intro s ih hs
    rw [pyReplace_match _ _ _ hp]
    simp only [List.mem_append, not_or] at hs ⊢
    exact ⟨hn, ih hs.2⟩
  · intro d s h ih hs
    rw [pyReplace_nomatch _ _ _ _ h]
    simp only [List.mem_cons, not_or] at hs ⊢
    exact ⟨hs.1, ih hs.2⟩

theorem pyReplace_joinC (pat new : Str) (c : Char) (hc : c ∉ pat) (hp : pat ≠ []) (ps : List Str) :
    pyReplace (joinC c ps) pat new = joinC c (ps.map fun x => pyReplace x pat new) := by
  induction ps with
  | nil => rfl
  | cons p ps ih =>
    cases ps with
    | nil => rfl
    | cons q ps =>
      simp only [joinC, List.map_cons] at ih ⊢
      rw [pyReplace_append pat new c hc hp, ih]

theorem splitC_pyReplace (pat new : Str) (c : Char) (hc : c ∉ pat) (hn : c ∉ new) (hp : pat ≠ []) (s : Str) :
    splitC c (pyReplace s pat new) = (splitC c s).map fun x => pyReplace x pat new := by
  conv_lhs => rw [← joinC_splitC c s, pyReplace_joinC pat new c hc hp]
  rw [splitC_joinC]
  · simpa using splitC_ne_nil c s
  · intro x hx
    obtain ⟨y, hy, rfl⟩ := List.mem_map.1 hx
    exact mem_pyReplace pat new c hp hn y (not_mem_of_mem_splitC c s y hy)

theorem replaceFirst_not_mem (a b : Char) (s : Str) (h : a ∉ s) : replaceFirst a b s = s := by
  induction s with
  | nil => rfl
  | cons x s ih =>
    simp only [List.mem_cons, not_or] at h
    rw [replaceFirst, if_neg (fun e => h.1 e.symm), ih h.2]

theorem replaceFirst_append (a b : Char) (x y : Str) (h : a ∉ x) : replaceFirst a b (x ++ a :: y) = x ++ b :: y := by
  induction x with
  | nil => simp [replaceFirst]
  | cons c x ih =>
    simp only [List.mem_cons, not_or] at h
    rw [List.cons_append, replaceFirst, if_neg (fun e => h.1 e.symm), ih h.2, List.cons_append]

theorem replaceFirst_pyReplace (pat new : Str) (a b : Char) (ha : a ∉ pat) (hb : b ∉ pat) (hn : a ∉ new) (hp : pat ≠ []) (s : Str) :
    replaceFirst a b (pyReplace s pat new) = pyReplace (replaceFirst a b s) pat new := by
  by_cases h : a ∈ s
  · obtain ⟨x, y, rfl, hx⟩ : ∃ x y, s = x ++ a :: y ∧ a ∉ x := by
      obtain ⟨x, y, h1, h2⟩ := List.append_of_mem h |> fun _ => List.eq_append_cons_of_mem h
      exact ⟨x, y, h1, h2⟩
    rw [pyReplace_append pat new a ha hp, replaceFirst_append _ _ _ _ (mem_pyReplace pat new a hp hn x hx),
      replaceFirst_append _ _ _ _ hx, pyReplace_append pat new b hb hp]
  · rw [replaceFirst_not_mem a b s h, replaceFirst_not_mem _ _ _ (mem_pyReplace pat new a hp hn s h)]

theorem splitTag_pyReplace (pat new : Str) (h1 : ' ' ∉ pat) (h2 : ',' ∉ pat) (h3 : ' ' ∉ new) (h4 : ',' ∉ new) (hp : pat ≠ []) (s : Str) :
    splitTag (pyReplace s pat new) = (splitTag s).map fun x => pyReplace x pat new := by
  unfold splitTag
  rw [replaceFirst_pyReplace pat new ' ' ',' h1 h2 h3 hp, splitC_pyReplace pat new ',' h2 h4 hp]

theorem splitTag_replaceRedundant (s : Str) : splitTag (replaceRedundant s) = (splitTag s).map replaceRedundant := by
  unfold replaceRedundant
  rw [splitTag_pyReplace _ _ (by decide) (by decide) (by decide) (by decide) (by decide),
    splitTag_pyReplace _ _ (by decide) (by decide) (by decide) (by decide) (by decide),
    splitTag_pyReplace _ _ (by decide) (by decide) (by decide) (by decide) (by decide), List.map_map, List.map_map]
  rfl

/-! ### Spelling groups -/

/-- What `_get_tag_spellings` guarantees: each counter is about one set of grammemes, and counts the tags seen. -/
structure SpellInv (seen : List Str) (sp : List (Grams × List (Str × Nat))) : Prop where
  keys : (sp.map Prod.fst).Nodup
  group : ∀ g counter, (g, counter) ∈ sp → (counter.map Prod.fst).Nodup ∧ ∀ t, t ∈ counter.map Prod.fst ↔ t ∈ seen ∧ tag2grammemes t = g
  has : ∀ t ∈ seen, tag2grammemes t ∈ sp.map Prod.fst
  count : ∀ g counter t n, (g, counter) ∈ sp → (t, n) ∈ counter → n = seen.count t

theorem mem_dictSet {α β : Type} [DecidableEq α] (k : α) (v : β) (d : List (α × β)) (hn : (d.map Prod.fst).Nodup) (e : α × β) :
    e ∈ dictSet k v d ↔ e = (k, v) ∨ (e ∈ d ∧ e.1 ≠ k) := by
  induction d with
  | nil => simp [dictSet]
  | cons x d ih =>
    obtain ⟨a, b⟩ := x
    simp only [List.map_cons, List.nodup_cons] at hn
    unfold dictSet
    split
    · next h =>
      subst h
      simp only [List.mem_cons]
      constructor
      · rintro (rfl | h)
        · exact .inl rfl
        · exact .inr ⟨.inr h, fun he => hn.1 (he ▸ List.mem_map_of_mem h)⟩
      · rintro (rfl | ⟨rfl | h, h2⟩)
        · exact .inl rfl
        · exact absurd rfl h2
        · exact .inr h
    · next h =>
      simp only [List.mem_cons, ih hn.2]
      constructor
      · rintro (rfl | rfl | h2)
        · exact .inr ⟨.inl rfl, h⟩
        · exact .inl rfl
        · exact .inr ⟨.inr h2.1, h2.2⟩
      · rintro (rfl | ⟨rfl | h1, h2⟩)
        · exact .inr (.inl rfl)
        · exact .inl rfl
        · exact .inr (.inr ⟨h1, h2⟩)

theorem keys_dictSet {α β : Type} [DecidableEq α] (k : α) (v : β) (d : List (α × β)) (x : α) :
    x ∈ (dictSet k v d).map Prod.fst ↔ x = k ∨ x ∈ d.map Prod.fst := by
  by_cases h : k ∈ d.map Prod.fst
  · rw [keys_dictSet_mem k v d h]
    constructor
    · exact .inr
    · rintro (rfl | h')
      · exact h
      · exact h'
  · rw [keys_dictSet_not_mem k v d h]
    simp only [List.map_append, List.map_cons, List.map_nil, List.mem_append, List.mem_singleton, or_comm]

theorem spellInv (tags : List Str) : SpellInv tags (tagSpellings tags) := by
  unfold tagSpellings
  suffices H : ∀ (rest seen : List Str) (sp : List (Grams × List (Str × Nat))), SpellInv seen sp → SpellInv (seen ++ rest)
      (rest.foldl (fun sp tag => dictSet (tag2grammemes tag)
        (dictSet tag ((dictGet tag ((dictGet (tag2grammemes tag) sp).getD [])).getD 0 + 1) ((dictGet (tag2grammemes tag) sp).getD [])) sp) sp) by
    simpa using H tags [] [] ⟨by simp, by simp, by simp, by simp⟩
  intro rest
  induction rest with
  | nil => intro seen sp h; simpa using h
  | cons t rest ih =>
    intro seen sp h
    rw [List.foldl_cons, show seen ++ t :: rest = (seen ++ [t]) ++ rest by simp]
    apply ih
    -- the old counter
    have hc : ∃ counter, (dictGet (tag2grammemes t) sp).getD [] = counter ∧ (counter.map Prod.fst).Nodup ∧
        (∀ x, x ∈ counter.map Prod.fst ↔ x ∈ seen ∧ tag2grammemes x = tag2grammemes t) ∧ (∀ x n, (x, n) ∈ counter → n = seen.count x) := by
      cases hg : dictGet (tag2grammemes t) sp with
      | some counter =>
        have hm := dictGet_mem' _ _ _ hg
        exact ⟨counter, rfl, (h.group _ _ hm).1, (h.group _ _ hm).2, fun x n hx => h.count _ _ _ _ hm hx⟩
      | none =>
        rw [dictGet_none_iff] at hg
        refine ⟨[], rfl, by simp, ?_, by simp⟩
        intro x
        simp only [List.map_nil, List.not_mem_nil, false_iff, not_and]
        intro hx he
        exact hg (he ▸ h.has x hx)
    obtain ⟨counter, hce, hc1, hc2, hc3⟩ := hc
    rw [hce]
    refine ⟨keys_dictSet_nodup _ _ _ h.keys, ?_, ?_, ?_⟩
    · intro g c hgc
      rw [mem_dictSet _ _ _ h.keys] at hgc
      rcases hgc with he | ⟨hgc, hne⟩
      · simp only [Prod.mk.injEq] at he
        obtain ⟨rfl, rfl⟩ := he
        refine ⟨keys_dictSet_nodup _ _ _ hc1, fun x => ?_⟩
        rw [keys_dictSet, hc2]
        simp only [List.mem_append, List.mem_singleton]
        constructor
        · rintro (rfl | ⟨h1, h2⟩)
          · exact ⟨.inr rfl, rfl⟩
          · exact ⟨.inl h1, h2⟩
        · rintro ⟨h1 | h1, h2⟩
          · exact .inr ⟨h1, h2⟩
          · exact .inl h1
      · refine ⟨(h.group g c hgc).1, fun x => ?_⟩
        rw [(h.group g c hgc).2]
        simp only [List.mem_append, List.mem_singleton]
        constructor
        · rintro ⟨h1, h2⟩; exact ⟨.inl h1, h2⟩
        · rintro ⟨h1 | rfl, h2⟩
          · exact ⟨h1, h2⟩
          · exact absurd h2.symm hne
    · intro x hx
      rw [keys_dictSet]
      simp only [List.mem_append, List.mem_singleton] at hx
      rcases hx with hx | rfl
      · exact .inr (h.has x hx)
      · exact .inl rfl
    · intro g c x n hgc hxn
      rw [mem_dictSet _ _ _ h.keys] at hgc
      rcases hgc with he | ⟨hgc, hne⟩
      · simp only [Prod.mk.injEq] at he
        obtain ⟨rfl, rfl⟩ := he
        rw [mem_dictSet _ _ _ hc1] at hxn
        rcases hxn with he | ⟨hxn, hx⟩
        · simp only [Prod.mk.injEq] at he
          obtain ⟨rfl, rfl⟩ := he
          rw [List.count_append, List.count_singleton_self]
          congr 1
          cases hg : dictGet x counter with
          | some n => simp only [Option.getD_some]; exact hc3 x n (dictGet_mem' _ _ _ hg)
          | none =>
            rw [dictGet_none_iff, hc2] at hg
            simp only [Option.getD_none]
            rw [List.count_eq_zero_of_not_mem]
            intro hm; exact hg ⟨hm, rfl⟩
        · rw [List.count_append, List.count_singleton]
          simp only at hx
          rw [if_neg (by simpa using fun e => hx e.symm), Nat.add_zero]
          exact hc3 x n hxn
      · have hxt : x ≠ t := by
          rintro rfl
          have := ((h.group g c hgc).2 x).1 (List.mem_map_of_mem (f := Prod.fst) hxn)
          exact hne this.2.symm
        rw [List.count_append, List.count_singleton, if_neg (by simpa using fun e => hxt e.symm), Nat.add_zero]
        exact h.count g c x n hgc hxn

/-- A table built by assignments from a list of pairs. -/
theorem dictGet_foldl {α β : Type} [DecidableEq α] (l : List (α × β)) (d : List (α × β)) (k : α) (v : β)
    (h : dictGet k (l.foldl (fun d e => dictSet e.1 e.2 d) d) = some v) : (k, v) ∈ l ∨ dictGet k d = some v := by
  induction l generalizing d with
  | nil => exact .inr h
  | cons e l ih =>
    rw [List.foldl_cons] at h
    rcases ih _ h with h | h
    · exact .inl (by simp [h])
    · rw [dictGet_dictSet] at h
      split at h
      · next hk =>
        simp only [Option.some.injEq] at h
        left; simp [hk, ← h]
      · exact .inr h

theorem dictGet_foldl_some {α β : Type} [DecidableEq α] (l : List (α × β)) (d : List (α × β)) (k : α) (v : β) (h : (k, v) ∈ l) :
    ∃ v', dictGet k (l.foldl (fun d e => dictSet e.1 e.2 d) d) = some v' := by
  have keep : ∀ (l : List (α × β)) (d : List (α × β)), (∃ v', dictGet k d = some v') →
      ∃ v', dictGet k (l.foldl (fun d e => dictSet e.1 e.2 d) d) = some v' := by
    intro l
    induction l with
    | nil => intro d h; exact h
    | cons e l ih =>
      intro d h
      rw [List.foldl_cons]
      apply ih
      rw [dictGet_dictSet]
      split
      · exact ⟨_, rfl⟩
      · exact h
  induction l generalizing d with
  | nil => simp at h
  | cons e l ih =>
    rw [List.foldl_cons]
    rcases List.mem_cons.1 h with rfl | h
    · exact keep l _ ⟨v, dictGet_dictSet_self _ _ _⟩
    · exact ih _ h

/-- A pair of the replacement table: two spellings seen in the dictionary for the same set of grammemes. -/
theorem replaces_same (tags : List Str) (skip : Bool) (t u : Str) (h : dictGet t (duplicateReplaces (tagSpellings tags) skip) = some u) :
    t ∈ tags ∧ u ∈ tags ∧ tag2grammemes t = tag2grammemes u ∧ t ≠ u ∧ tags.count t ≤ tags.count u := by
  unfold duplicateReplaces at h
  rcases dictGet_foldl _ _ _ _ h with h | h
  swap
  · simp [dictGet] at h
  obtain ⟨⟨g, counter⟩, hg, h⟩ := List.mem_flatMap.1 h
  have hi := spellInv tags
  obtain ⟨hnd, hmem⟩ := hi.group g counter hg
  unfold replacesFor at h
  split at h
  swap
  · simp at h
  split at h
  · simp at h
  · next top others hs =>
    obtain ⟨o, ho, he⟩ := List.mem_map.1 h
    simp only [Prod.mk.injEq] at he
    obtain ⟨rfl, rfl⟩ := he
    have hperm := List.perm_insertionSort (fun a b : Str × Nat => b.2 ≤ a.2) counter
    rw [hs] at hperm
    have h1 : o ∈ counter := hperm.subset (by simp [ho])
    have h2 : top ∈ counter := hperm.subset (by simp)
    have h3 := (hmem o.1).1 (List.mem_map_of_mem h1)
    have h4 := (hmem top.1).1 (List.mem_map_of_mem h2)
    have hnd' : ((top :: others).map Prod.fst).Nodup := (hperm.map Prod.fst).nodup_iff.2 hnd
    have hsorted : (top :: others).Pairwise fun a b => b.2 ≤ a.2 := by
      rw [← hs]
      exact List.pairwise_insertionSort _ _
    refine ⟨h3.1, h4.1, h3.2.trans h4.2.symm, ?_, ?_⟩
    · intro e
      simp only [List.map_cons, List.nodup_cons] at hnd'
      exact hnd'.1 (e ▸ List.mem_map_of_mem ho)
    · rw [← hi.count g counter o.1 o.2 hg h1, ← hi.count g counter top.1 top.2 hg h2]
      exact (List.pairwise_cons.1 hsorted).1 o ho

/-! ### C32 -/

/-- The grammemes of a tag, with loc1, gen1 and acc1 read as loct, gent and accs. -/
def meaning (tag : Str) : Grams := (splitTag tag).toFinset.image fun g =>
  if g = c!"loc1" then c!"loct" else if g = c!"gen1" then c!"gent" else if g = c!"acc1" then c!"accs" else g

/-- The redundant names occur in the tag only as grammemes of their own. -/
def WholeOnly (tag : Str) : Prop :=
  ∀ g ∈ splitTag tag, g = c!"loc1" ∨ g = c!"gen1" ∨ g = c!"acc1" ∨ NoRedundant g

theorem meaning_eq (tag : Str) (h : WholeOnly tag) : meaning tag = tag2grammemes tag := by
  unfold meaning tag2grammemes
  rw [splitTag_replaceRedundant]
  ext x
  simp only [Finset.mem_image, List.mem_toFinset, List.mem_map]
  refine exists_congr fun g => and_congr_right fun hg => ?_
  have : (if g = c!"loc1" then c!"loct" else if g = c!"gen1" then c!"gent" else if g = c!"acc1" then c!"accs" else g) = replaceRedundant g := by
    rcases h g hg with rfl | rfl | rfl | hg
    · decide +kernel
    · decide +kernel
    · decide +kernel
    · rw [replaceRedundant_of_noRedundant g hg]
      have h1 : ¬ g = c!"loc1" := by rintro rfl; exact hg.1 List.infix_rfl
      have h2 : ¬ g = c!"gen1" := by rintro rfl; exact hg.2.1 List.infix_rfl
      have h3 : ¬ g = c!"acc1" := by rintro rfl; exact hg.2.2 List.infix_rfl
      rw [if_neg h1, if_neg h2, if_neg h3]
  rw [this]

theorem tag2grammemes_idem (t : Str) : tag2grammemes (replaceRedundant t) = tag2grammemes t := by
  unfold tag2grammemes; rw [replaceRedundant_idem]

theorem simplifyTag_grammemes (tags : List Str) (skip : Bool) (t : Str) :
    tag2grammemes (simplifyTag (duplicateReplaces (tagSpellings tags) skip) t) = tag2grammemes t := by
  unfold simplifyTag
  cases h : dictGet (replaceRedundant t) (duplicateReplaces (tagSpellings tags) skip) with
  | none => exact tag2grammemes_idem t
  | some u =>
    rw [Option.getD_some, ← (replaces_same tags skip _ u h).2.2.1]
    exact tag2grammemes_idem t

/-- The tag a form gets is a spelling the dictionary had, or one with the redundant names replaced. -/
theorem simplifyTag_from (tags : List Str) (skip : Bool) (t : Str) :
    simplifyTag (duplicateReplaces (tagSpellings tags) skip) t = replaceRedundant t ∨
    simplifyTag (duplicateReplaces (tagSpellings tags) skip) t ∈ tags := by
  unfold simplifyTag
  cases h : dictGet (replaceRedundant t) (duplicateReplaces (tagSpellings tags) skip) with
  | none => exact .inl rfl
  | some u => exact .inr (replaces_same tags skip _ u h).2.1

/-- **C32.** `simplify_tags` keeps the lexeme ids, the links, the number, order and words of the forms, and every tag keeps its
meaning. -/
theorem c32_meaning {I : Type} (p : Parsed I) (skip : Bool) (hw : ∀ l ∈ p.lexemes, ∀ f ∈ l.2, WholeOnly f.2) :
    (simplifyTags p skip).links = p.links ∧
    List.Forall₂ (fun l l' : I × Lexeme => l'.1 = l.1 ∧ List.Forall₂ (fun f f' : Str × Str => f'.1 = f.1 ∧ meaning f'.2 = meaning f.2) l.2 l'.2)
      p.lexemes (simplifyTags p skip).lexemes := by
  refine ⟨rfl, ?_⟩
  unfold simplifyTags
  simp only
  rw [List.forall₂_map_right_iff, List.forall₂_same]
  intro l hl
  refine ⟨rfl, ?_⟩
  rw [List.forall₂_map_right_iff, List.forall₂_same]
  intro f hf
  refine ⟨rfl, ?_⟩
  have hwf := hw l hl f hf
  have hws : WholeOnly (simplifyTag (duplicateReplaces (tagSpellings (iterTags p)) skip) f.2) := by
    rcases simplifyTag_from (iterTags p) skip f.2 with h | h
    · rw [h]
      intro g hg
      rw [splitTag_replaceRedundant] at hg
      obtain ⟨g', _, rfl⟩ := List.mem_map.1 hg
      exact .inr (.inr (.inr (replaceRedundant_noRedundant g')))
    · obtain ⟨l', hl', h⟩ := List.mem_flatMap.1 h
      obtain ⟨f', hf', h⟩ := List.mem_map.1 h
      rw [← h]
      exact hw l' hl' f' hf'
  rw [meaning_eq _ hws, meaning_eq _ hwf, simplifyTag_grammemes]

/-- The same without the hypothesis on the tags: the grammemes agree once the replacement of redundant names has been done inside
each of them. -/
theorem c32_grammemes {I : Type} (p : Parsed I) (skip : Bool) :
    List.Forall₂ (fun l l' : I × Lexeme => l'.1 = l.1 ∧ List.Forall₂ (fun f f' : Str × Str => f'.1 = f.1 ∧
      (splitTag f'.2).toFinset.image replaceRedundant = (splitTag f.2).toFinset.image replaceRedundant) l.2 l'.2)
      p.lexemes (simplifyTags p skip).lexemes := by
  have key : ∀ t, (splitTag t).toFinset.image replaceRedundant = tag2grammemes t := by
    intro t
    unfold tag2grammemes
    rw [splitTag_replaceRedundant]
    ext x; simp
  unfold simplifyTags
  simp only
  rw [List.forall₂_map_right_iff, List.forall₂_same]
  intro l hl
  refine ⟨rfl, ?_⟩
  rw [List.forall₂_map_right_iff, List.forall₂_same]
  intro f hf
  refine ⟨rfl, ?_⟩
  rw [key, key, simplifyTag_grammemes]

/-- **C32, what simplification achieves.** Without the space exception, and if no tag has a redundant name, forms with the same
grammemes get the same tag string, one of the most frequent spellings. -/
theorem c32_unifies {I : Type} (p : Parsed I) (hr : ∀ l ∈ p.lexemes, ∀ f ∈ l.2, NoRedundant f.2)
    (l : I × Lexeme) (hl : l ∈ p.lexemes) (f : Str × Str) (hf : f ∈ l.2) (l' : I × Lexeme) (hl' : l' ∈ p.lexemes)
    (f' : Str × Str) (hf' : f' ∈ l'.2) (he : (splitTag f.2).toFinset = (splitTag f'.2).toFinset) :
    let new := simplifyTag (duplicateReplaces (tagSpellings (iterTags p)) false)
    new f.2 = new f'.2 ∧ (iterTags p).count f.2 ≤ (iterTags p).count (new f.2) := by
  have mem : ∀ (l : I × Lexeme), l ∈ p.lexemes → ∀ f ∈ l.2, f.2 ∈ iterTags p ∧ replaceRedundant f.2 = f.2 := by
    intro l hl f hf
    exact ⟨List.mem_flatMap.2 ⟨l, hl, List.mem_map_of_mem hf⟩, replaceRedundant_of_noRedundant _ (hr l hl f hf)⟩
  obtain ⟨m1, r1⟩ := mem l hl f hf
  obtain ⟨m2, r2⟩ := mem l' hl' f' hf'
  have hg : tag2grammemes f.2 = tag2grammemes f'.2 := by unfold tag2grammemes; rw [r1, r2, he]
  clear hr mem
  generalize iterTags p = tags at m1 m2 ⊢
  intro new
  have hi := spellInv tags
  -- the counter of the common set
  obtain ⟨⟨g, counter⟩, hgc, hge⟩ := List.mem_map.1 (hi.has f.2 m1)
  simp only at hge
  subst hge
  obtain ⟨hnd, hmem⟩ := hi.group _ counter hgc
  have c1 : f.2 ∈ counter.map Prod.fst := (hmem _).2 ⟨m1, rfl⟩
  have c2 : f'.2 ∈ counter.map Prod.fst := (hmem _).2 ⟨m2, hg.symm⟩
  -- what happens to a tag of this counter
  have main : ∃ top, ∀ t ∈ counter.map Prod.fst, replaceRedundant t = t → new t = top ∧ tags.count t ≤ tags.count (new t) := by
    by_cases hlen : counter.length < 2
    · -- one spelling
      obtain ⟨top, htop⟩ : ∃ top, counter.map Prod.fst = [top] := by
        match counter, c1, hlen with
        | [e], _, _ => exact ⟨e.1, rfl⟩
      refine ⟨top, fun t ht hrt => ?_⟩
      have htt : t = top := by rw [htop] at ht; simpa using ht
      have hnone : dictGet t (duplicateReplaces (tagSpellings tags) false) = none := by
        cases hd : dictGet t (duplicateReplaces (tagSpellings tags) false) with
        | none => rfl
        | some u =>
          obtain ⟨_, h2, h3, h4, _⟩ := replaces_same tags false t u hd
          have hu : u ∈ counter.map Prod.fst := (hmem u).2 ⟨h2, by rw [← h3]; exact ((hmem t).1 ht).2⟩
          rw [htop] at hu
          simp only [List.mem_singleton] at hu
          exact absurd (htt.trans hu.symm) h4
      have : new t = t := by
        show (dictGet (replaceRedundant t) _).getD (replaceRedundant t) = t
        rw [hrt, hnone]; rfl
      rw [this]; exact ⟨htt, le_refl _⟩
    · -- several spellings
      cases hs : counter.insertionSort (fun a b => b.2 ≤ a.2) with
      | nil =>
        have := (List.perm_insertionSort (fun a b : Str × Nat => b.2 ≤ a.2) counter).length_eq
        rw [hs] at this; simp at this; omega
      | cons top others =>
        have hperm := List.perm_insertionSort (fun a b : Str × Nat => b.2 ≤ a.2) counter
        rw [hs] at hperm
        have hrep : replacesFor false counter = others.map fun o => (o.1, top.1) := by
          have ha : isAmbiguous (counter.map Prod.fst) false = true := by
            unfold isAmbiguous
            rw [if_neg (by rw [List.length_map]; exact hlen)]
            simp
          unfold replacesFor
          rw [if_pos ha, hs]
        have htopc : top ∈ counter := hperm.subset (by simp)
        -- the most frequent spelling is not replaced
        have htop : dictGet top.1 (duplicateReplaces (tagSpellings tags) false) = none ∧
            ∀ t ∈ counter.map Prod.fst, t ≠ top.1 → dictGet t (duplicateReplaces (tagSpellings tags) false) = some top.1 := by
          have uniq : ∀ t u, t ∈ counter.map Prod.fst → dictGet t (duplicateReplaces (tagSpellings tags) false) = some u →
              u = top.1 ∧ t ≠ top.1 := by
            intro t u ht hd
            unfold duplicateReplaces at hd
            rcases dictGet_foldl _ _ _ _ hd with h | h
            swap
            · simp [dictGet] at h
            obtain ⟨⟨g', counter'⟩, hg', h⟩ := List.mem_flatMap.1 h
            have hg2 : g' = tag2grammemes f.2 := by
              have h1 : t ∈ counter'.map Prod.fst := by
                simp only [replacesFor] at h
                split at h
                · split at h
                  · simp at h
                  · next top' others' hs' =>
                    obtain ⟨o, ho, he⟩ := List.mem_map.1 h
                    simp only [Prod.mk.injEq] at he
                    rw [← he.1]
                    apply List.mem_map_of_mem
                    apply (List.perm_insertionSort (fun a b : Str × Nat => b.2 ≤ a.2) counter').subset
                    rw [hs']; simp [ho]
                · simp at h
              rw [← (((hi.group g' counter' hg').2 t).1 h1).2, ((hmem t).1 ht).2]
            have hcc : counter' = counter := by
              subst hg2
              have a := dictGet_of_mem _ _ _ hi.keys hg'
              have b := dictGet_of_mem _ _ _ hi.keys hgc
              rw [a] at b; simpa using b
            subst hcc
            simp only [hrep] at h
            obtain ⟨o, ho, he⟩ := List.mem_map.1 h
            simp only [Prod.mk.injEq] at he
            refine ⟨he.2.symm, ?_⟩
            rw [← he.1]
            have hnd' : ((top :: others).map Prod.fst).Nodup := (hperm.map Prod.fst).nodup_iff.2 hnd
            simp only [List.map_cons, List.nodup_cons] at hnd'
            exact fun e => hnd'.1 (e ▸ List.mem_map_of_mem ho)
          constructor
          · cases hd : dictGet top.1 (duplicateReplaces (tagSpellings tags) false) with
            | none => rfl
            | some u => exact absurd rfl (uniq top.1 u (List.mem_map_of_mem htopc) hd).2
          · intro t ht hne
            have : (t, top.1) ∈ (tagSpellings tags).flatMap fun g => replacesFor false g.2 := by
              refine List.mem_flatMap.2 ⟨(tag2grammemes f.2, counter), hgc, ?_⟩
              simp only [hrep]
              obtain ⟨e, he, rfl⟩ := List.mem_map.1 ht
              have := hperm.symm.subset he
              rcases List.mem_cons.1 this with h | h
              · exact absurd (by rw [h]) hne
              · exact List.mem_map.2 ⟨e, h, rfl⟩
            obtain ⟨u, hu⟩ := dictGet_foldl_some _ [] _ _ this
            have hu' : dictGet t (duplicateReplaces (tagSpellings tags) false) = some u := hu
            rw [hu', (uniq t u ht hu').1]
        refine ⟨top.1, fun t ht hrt => ?_⟩
        by_cases htt : t = top.1
        · have : new t = t := by
            show (dictGet (replaceRedundant t) _).getD (replaceRedundant t) = t
            rw [hrt, htt, htop.1]; rfl
          rw [this]; exact ⟨htt, le_refl _⟩
        · have hd := htop.2 t ht htt
          have : new t = top.1 := by
            show (dictGet (replaceRedundant t) _).getD (replaceRedundant t) = _
            rw [hrt, hd]; rfl
          rw [this]
          exact ⟨rfl, (replaces_same tags false t top.1 hd).2.2.2.2⟩
  obtain ⟨top, hmain⟩ := main
  obtain ⟨a1, a2⟩ := hmain f.2 c1 r1
  obtain ⟨b1, _⟩ := hmain f'.2 c2 r2
  exact ⟨a1.trans b1.symm, a2⟩

/-- **C32, defect.** A tag without redundant names can get one: here NOUN sing,loct becomes NOUN loc1,sing — while the forms that were
tagged NOUN loc1,sing become NOUN loct,sing, so that the spellings are not unified either. -/
theorem c32_reintroduces : (simplifyTags (I := Nat) ⟨[(1, [(c!"a", c!"NOUN loc1,sing"), (c!"b", c!"NOUN loc1,sing"), (c!"c", c!"NOUN sing,loct")])], []⟩).lexemes
    = [(1, [(c!"a", c!"NOUN loct,sing"), (c!"b", c!"NOUN loct,sing"), (c!"c", c!"NOUN loc1,sing")])] := by decide +kernel

/-- `drop_unsupported_parses` removes exactly the forms whose tag contains `Init`, and keeps the others in order. -/
theorem c32_drop {I : Type} (p : Parsed I) : (dropUnsupported p).links = p.links ∧
    List.Forall₂ (fun l l' : I × Lexeme => l'.1 = l.1 ∧ l'.2.Sublist l.2 ∧
      (∀ f ∈ l.2, f ∈ l'.2 ↔ ¬ c!"Init" <:+: f.2)) p.lexemes (dropUnsupported p).lexemes := by
  refine ⟨rfl, ?_⟩
  unfold dropUnsupported
  simp only
  rw [List.forall₂_map_right_iff, List.forall₂_same]
  intro l _
  refine ⟨rfl, List.filter_sublist, fun f hf => ?_⟩
  rw [List.mem_filter, Bool.not_eq_true', ← Bool.not_eq_true, isSub_iff]
  exact ⟨fun h => h.2, fun h => ⟨hf, h⟩⟩

example : WholeOnly (c!"NOUN,inan sing,loc1") := by
  have : splitTag (c!"NOUN,inan sing,loc1") = [c!"NOUN", c!"inan", c!"sing", c!"loc1"] := by decide +kernel
  intro g hg
  rw [this] at hg
  simp only [List.mem_cons, List.not_mem_nil, or_false] at hg
  have no : ∀ g : Str, isSub (c!"loc1") g = false → isSub (c!"gen1") g = false → isSub (c!"acc1") g = false → NoRedundant g := by
    intro g h1 h2 h3
    refine ⟨?_, ?_, ?_⟩ <;> rw [← isSub_iff, Bool.not_eq_true] <;> assumption
  rcases hg with rfl | rfl | rfl | rfl
  · exact .inr (.inr (.inr (no _ (by decide) (by decide) (by decide))))
  · exact .inr (.inr (.inr (no _ (by decide) (by decide) (by decide))))
  · exact .inr (.inr (.inr (no _ (by decide) (by decide) (by decide))))
  · exact .inl rfl

end Verif
