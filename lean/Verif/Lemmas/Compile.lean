/-
The tables of a compiled dictionary.
-/
import Verif.Props.C33
import Verif.Lemmas.Lexeme

namespace Verif

/-! ### The loop over the lexemes -/

/-- A row with the tag's id in place of the tag. -/
def RowOf (gramtab : List Str) (r : Str × Str × Str) (q : Str × Nat × Str) : Prop :=
  q.1 = r.1 ∧ q.2.2 = r.2.2 ∧ gramtab[q.2.1]? = some r.2.1

/-- What holds of the compiler's variables after the lexemes `ls`. -/
structure CInv (pp : List Str) (ls : List Lexeme) (s : CState) : Prop where
  tags : ∀ t i, dictGet t s.tagIds = some i → s.gramtab[i]? = some t
  para : ∀ P k, dictGet P s.paraIds = some k → ∃ rows, s.paradigms[k]? = some rows ∧ List.Forall₂ (RowOf s.gramtab) P rows
  from_ : ∀ k, k < s.paradigms.length → ∃ P, dictGet P s.paraIds = some k
  used : ∀ P k, dictGet P s.paraIds = some k → ∃ L ∈ ls, ∃ stem, toParadigm L pp = .ok (stem, P)
  has : ∀ L ∈ ls, ∃ stem P k, toParadigm L pp = .ok (stem, P) ∧ dictGet P s.paraIds = some k
  words : ∀ e : Str × Nat × Nat, e ∈ s.words ↔ ∃ L ∈ ls, ∃ stem P, toParadigm L pp = .ok (stem, P) ∧
    dictGet P s.paraIds = some e.2.1 ∧ ∃ r, P[e.2.2]? = some r ∧ e.1 = r.2.2 ++ stem ++ r.1
  gram : ∀ t ∈ s.gramtab, ∃ L ∈ ls, ∃ f ∈ L, f.2 = t

theorem cinv_start (pp : List Str) : CInv pp [] CState.empty where
  tags := by simp [CState.empty, dictGet]
  para := by simp [CState.empty, dictGet]
  from_ := by simp [CState.empty]
  used := by simp [CState.empty, dictGet]
  has := by simp
  words := by simp [CState.empty]
  gram := by simp [CState.empty]

/-- Adding tags extends the table and touches nothing else. -/
theorem caddTags_spec (rows : StrPara) (s : CState) (hs : ∀ t i, dictGet t s.tagIds = some i → s.gramtab[i]? = some t) :
    let s' := rows.foldl (fun s r => s.addTag r.2.1) s
    (∀ t i, dictGet t s'.tagIds = some i → s'.gramtab[i]? = some t) ∧ (∀ r ∈ rows, ∃ i, dictGet r.2.1 s'.tagIds = some i) ∧
    (∀ t i, dictGet t s.tagIds = some i → dictGet t s'.tagIds = some i) ∧ s.gramtab <+: s'.gramtab ∧
    (∀ t ∈ s'.gramtab, t ∈ s.gramtab ∨ ∃ r ∈ rows, r.2.1 = t) ∧
    s'.paradigms = s.paradigms ∧ s'.paraIds = s.paraIds ∧ s'.popularity = s.popularity ∧ s'.words = s.words := by
  induction rows generalizing s with
  | nil => exact ⟨hs, by simp, fun _ _ h => h, List.prefix_rfl, fun t h => .inl h, rfl, rfl, rfl, rfl⟩
  | cons r rows ih =>
    rw [List.foldl_cons]
    have h1 : (∀ t i, dictGet t (s.addTag r.2.1).tagIds = some i → (s.addTag r.2.1).gramtab[i]? = some t) ∧
        (∃ i, dictGet r.2.1 (s.addTag r.2.1).tagIds = some i) ∧
        (∀ t i, dictGet t s.tagIds = some i → dictGet t (s.addTag r.2.1).tagIds = some i) ∧
        s.gramtab <+: (s.addTag r.2.1).gramtab ∧ (∀ t ∈ (s.addTag r.2.1).gramtab, t ∈ s.gramtab ∨ r.2.1 = t) ∧
        (s.addTag r.2.1).paradigms = s.paradigms ∧ (s.addTag r.2.1).paraIds = s.paraIds ∧
        (s.addTag r.2.1).popularity = s.popularity ∧ (s.addTag r.2.1).words = s.words := by
      unfold CState.addTag
      cases hg : dictGet r.2.1 s.tagIds with
      | some i => exact ⟨hs, ⟨i, hg⟩, fun _ _ h => h, List.prefix_rfl, fun t h => .inl h, rfl, rfl, rfl, rfl⟩
      | none =>
        refine ⟨?_, ⟨_, dictGet_dictSet_self _ _ _⟩, ?_, List.prefix_append _ _, ?_, rfl, rfl, rfl, rfl⟩
        · intro t i h
          simp only [dictGet_dictSet] at h
          split at h
          · next ht => simp only [Option.some.injEq] at h; subst h; simp [ht]
          · have := hs t i h
            have hlt := (List.getElem?_eq_some_iff.1 this).1
            simp only
            rw [List.getElem?_append_left hlt]; exact this
        · intro t i h
          simp only [dictGet_dictSet]
          split
          · next ht => subst ht; rw [hg] at h; simp at h
          · exact h
        · intro t h
          simp only [List.mem_append, List.mem_singleton] at h
          rcases h with h | h
          · exact .inl h
          · exact .inr h.symm
    obtain ⟨a1, a2, a3, a4, a4', a5, a6, a7, a8⟩ := h1
    obtain ⟨b1, b2, b3, b4, b4', b5, b6, b7, b8⟩ := ih (s.addTag r.2.1) a1
    refine ⟨b1, ?_, fun t i h => b3 t i (a3 t i h), a4.trans b4, ?_, by rw [b5, a5], by rw [b6, a6], by rw [b7, a7], by rw [b8, a8]⟩
    · intro r' hr'
      rcases List.mem_cons.1 hr' with rfl | hr'
      · obtain ⟨i, hi⟩ := a2
        exact ⟨i, b3 _ _ hi⟩
      · exact b2 r' hr'
    · intro t ht
      rcases b4' t ht with h | ⟨r', h1, h2⟩
      · rcases a4' t h with h | h
        · exact .inl h
        · exact .inr ⟨r, by simp, h⟩
      · exact .inr ⟨r', by simp [h1], h2⟩

theorem rowOf_mono {g g' : List Str} (h : g <+: g') {P : StrPara} {rows : List (Str × Nat × Str)} (hr : List.Forall₂ (RowOf g) P rows) :
    List.Forall₂ (RowOf g') P rows := by
  refine hr.imp ?_
  rintro r q ⟨h1, h2, h3⟩
  refine ⟨h1, h2, ?_⟩
  obtain ⟨t, rfl⟩ := h
  rw [List.getElem?_append_left (List.getElem?_eq_some_iff.1 h3).1]; exact h3

theorem tag_of_toParadigm {L : Lexeme} {pp : List Str} {stem : Str} {P : StrPara} (h : toParadigm L pp = .ok (stem, P)) (r : Str × Str × Str)
    (hr : r ∈ P) : ∃ f ∈ L, f.2 = r.2.1 := by
  have := c33_inverse L pp stem P h
  rw [← this]
  exact ⟨_, List.mem_map_of_mem hr, rfl⟩

/-- One lexeme keeps the invariant. -/
theorem cinv_step (pp : List Str) (ls : List Lexeme) (s s' : CState) (L : Lexeme) (hi : CInv pp ls s) (h : s.addLexeme pp L = .ok s') :
    CInv pp (ls ++ [L]) s' := by
  unfold CState.addLexeme at h
  simp only [bind_ok_iff, pure_eq_ok, Except.ok.injEq] at h
  obtain ⟨⟨stem, P⟩, hP, s2, hs2, id, hid, rfl⟩ := h
  obtain ⟨a1, a2, a3, a4, a4', a5, a6, a7, a8⟩ := caddTags_spec P s hi.tags
  simp only at hs2 hid ⊢
  generalize hs1 : List.foldl (fun s r => s.addTag r.2.1) s P = s1 at *
  rw [dictAt_ok_iff] at hid
  -- the state after `addPara`
  have key : (∀ t i, dictGet t s2.tagIds = some i → s2.gramtab[i]? = some t) ∧
      (∀ P k, dictGet P s2.paraIds = some k → ∃ rows, s2.paradigms[k]? = some rows ∧ List.Forall₂ (RowOf s2.gramtab) P rows) ∧
      (∀ k, k < s2.paradigms.length → ∃ P, dictGet P s2.paraIds = some k) ∧
      (∀ Q k, dictGet Q s2.paraIds = some k → dictGet Q s.paraIds = some k ∨ Q = P) ∧
      (∀ Q k, dictGet Q s.paraIds = some k → dictGet Q s2.paraIds = some k) ∧ s2.words = s.words ∧ s2.gramtab = s1.gramtab := by
    have hpara1 : ∀ P k, dictGet P s1.paraIds = some k → ∃ rows, s1.paradigms[k]? = some rows ∧ List.Forall₂ (RowOf s1.gramtab) P rows := by
      intro P k hk
      rw [a6] at hk
      obtain ⟨rows, h1, h2⟩ := hi.para P k hk
      exact ⟨rows, by rw [a5]; exact h1, rowOf_mono a4 h2⟩
    unfold CState.addPara at hs2
    split at hs2
    · simp only [Except.ok.injEq] at hs2
      subst hs2
      exact ⟨a1, hpara1, by rw [a5, a6]; exact hi.from_, fun Q k h => .inl (a6 ▸ h), fun Q k h => a6 ▸ h, a8, rfl⟩
    · next hnone =>
      simp only [bind_ok_iff, pure_eq_ok, Except.ok.injEq] at hs2
      obtain ⟨rows, hrows, rfl⟩ := hs2
      have hrows' := (mapE_ok_iff _ _ _).1 hrows
      have hr : List.Forall₂ (RowOf s1.gramtab) P rows := by
        refine hrows'.imp ?_
        intro r q hrq
        simp only [bind_ok_iff, dictAt_ok_iff, Except.ok.injEq] at hrq
        obtain ⟨t, ht, rfl⟩ := hrq
        exact ⟨rfl, rfl, a1 _ _ ht⟩
      refine ⟨a1, ?_, ?_, ?_, ?_, a8, rfl⟩
      · intro Q k hk
        simp only [dictGet_dictSet] at hk
        split at hk
        · next hQ =>
          simp only [Option.some.injEq] at hk
          subst hk; subst hQ
          exact ⟨rows, by simp, hr⟩
        · obtain ⟨rows', h1, h2⟩ := hpara1 Q k hk
          refine ⟨rows', ?_, h2⟩
          simp only
          rw [List.getElem?_append_left (List.getElem?_eq_some_iff.1 h1).1]; exact h1
      · intro k hk
        simp only [List.length_append, List.length_cons, List.length_nil] at hk
        by_cases hk' : k = s1.paradigms.length
        · exact ⟨P, by simp [dictGet_dictSet, hk']⟩
        · obtain ⟨Q, hQ⟩ := hi.from_ k (by rw [a5] at hk hk'; omega)
          refine ⟨Q, ?_⟩
          simp only [dictGet_dictSet]
          split
          · next hQP => subst hQP; rw [a6, hQ] at hnone; simp at hnone
          · rw [a6]; exact hQ
      · intro Q k hk
        simp only [dictGet_dictSet] at hk
        split at hk
        · next hQ => exact .inr hQ
        · exact .inl (a6 ▸ hk)
      · intro Q k hk
        simp only [dictGet_dictSet]
        split
        · next hQP => subst hQP; rw [a6, hk] at hnone; simp at hnone
        · rw [a6]; exact hk
  obtain ⟨k1, k2, k3, k4, k5, k6, k7⟩ := key
  refine ⟨k1, k2, k3, ?_, ?_, ?_, ?_⟩
  · intro Q k hQ
    rcases k4 Q k hQ with h | rfl
    · obtain ⟨L', h1, h2⟩ := hi.used Q k h
      exact ⟨L', by simp [h1], h2⟩
    · exact ⟨L, by simp, stem, hP⟩
  · intro L' hL'
    rcases List.mem_append.1 hL' with h | h
    · obtain ⟨st, Q, k, h1, h2⟩ := hi.has L' h
      exact ⟨st, Q, k, h1, k5 Q k h2⟩
    · simp only [List.mem_singleton] at h
      subst h
      exact ⟨stem, P, id, hP, hid⟩
  · rintro ⟨w, a, i⟩
    simp only [List.mem_append, List.mem_map, k6, hi.words]
    constructor
    · rintro (⟨L', h1, st, Q, h2, h3, h4⟩ | ⟨⟨r, j⟩, h1, h2⟩)
      · exact ⟨L', .inl h1, st, Q, h2, k5 Q _ h3, h4⟩
      · simp only [Prod.mk.injEq] at h2
        obtain ⟨rfl, rfl, rfl⟩ := h2
        refine ⟨L, .inr (by simp), stem, P, hP, hid, r, ?_, rfl⟩
        simpa using List.mem_zipIdx_iff_getElem?.1 h1
    · rintro ⟨L', h1, st, Q, h2, h3, r, h4, h5⟩
      rcases h1 with h1 | h1
      · left
        rcases k4 Q _ h3 with h | rfl
        · exact ⟨L', h1, st, Q, h2, h, r, h4, h5⟩
        · obtain ⟨st', Q', k', e1, e2⟩ := hi.has L' h1
          rw [h2] at e1
          simp only [Except.ok.injEq, Prod.mk.injEq] at e1
          obtain ⟨rfl, rfl⟩ := e1
          have e3 := k5 _ _ e2
          rw [h3] at e3
          simp only [Option.some.injEq] at e3
          exact ⟨L', h1, st, Q, h2, by rw [e2, e3], r, h4, h5⟩
      · simp only [List.mem_singleton] at h1
        subst h1
        right
        rw [hP] at h2
        simp only [Except.ok.injEq, Prod.mk.injEq] at h2
        obtain ⟨rfl, rfl⟩ := h2
        rw [hid] at h3
        simp only [Option.some.injEq] at h3
        refine ⟨(r, i), List.mem_zipIdx_iff_getElem?.2 h4, ?_⟩
        simp [h5, h3]
  · intro t ht
    simp only [k7] at ht
    rcases a4' t ht with h | ⟨r, h1, h2⟩
    · obtain ⟨L', h1, h2⟩ := hi.gram t h
      exact ⟨L', by simp [h1], h2⟩
    · obtain ⟨f, h3, h4⟩ := tag_of_toParadigm hP r h1
      exact ⟨L, by simp, f, h3, h4.trans h2⟩

theorem cinv_loop (pp : List Str) (rest done : List Lexeme) (s s' : CState) (hi : CInv pp done s) (h : addLexemes pp rest s = .ok s') :
    CInv pp (done ++ rest) s' := by
  induction rest generalizing done s with
  | nil => simp only [addLexemes, Except.ok.injEq] at h; subst h; simpa using hi
  | cons L rest ih =>
    simp only [addLexemes, bind_ok_iff] at h
    obtain ⟨s1, h1, h2⟩ := h
    have := ih (done ++ [L]) s1 (cinv_step pp done s s1 L hi h1) h2
    simpa using this

/-- The loop over non-empty lexemes never raises. -/
theorem addLexemes_total (pp : List Str) (rest done : List Lexeme) (s : CState) (hi : CInv pp done s) (hne : ∀ L ∈ rest, L ≠ []) :
    ∃ s', addLexemes pp rest s = .ok s' := by
  induction rest generalizing done s with
  | nil => exact ⟨s, rfl⟩
  | cons L rest ih =>
    have h1 : ∃ s1, s.addLexeme pp L = .ok s1 := by
      obtain ⟨stem, P, hP⟩ := c33_total L (hne L (by simp)) pp
      obtain ⟨a1, a2, a3, a4, a4', a5, a6, a7, a8⟩ := caddTags_spec P s hi.tags
      unfold CState.addLexeme
      rw [hP, ok_bind]
      simp only
      generalize List.foldl (fun s r => s.addTag r.2.1) s P = s1 at *
      have h2 : ∃ s2 k, s1.addPara P = .ok s2 ∧ dictGet P s2.paraIds = some k := by
        unfold CState.addPara
        split
        · next k hk => exact ⟨s1, k, rfl, hk⟩
        · obtain ⟨rows, hrows⟩ := mapE_total (fun r : Str × Str × Str => do
            let t ← dictAt r.2.1 s1.tagIds
            pure (r.1, t, r.2.2)) P (by
              intro r hr
              obtain ⟨i, hi⟩ := a2 r hr
              exact ⟨(r.1, i, r.2.2), by simp [(dictAt_ok_iff _ _ _).2 hi]⟩)
          rw [hrows, ok_bind]
          exact ⟨_, _, rfl, dictGet_dictSet_self _ _ _⟩
      obtain ⟨s2, k, h3, h4⟩ := h2
      rw [h3, ok_bind, (dictAt_ok_iff _ _ _).2 h4, ok_bind]
      exact ⟨_, rfl⟩
    obtain ⟨s1, h1⟩ := h1
    obtain ⟨s', h2⟩ := ih (done ++ [L]) s1 (cinv_step pp done s s1 L hi h1) (fun L hL => hne L (by simp [hL]))
    exact ⟨s', by simp [addLexemes, h1, h2]⟩

/-! ### The linearised tables -/

theorem getElem?_forall₂ {α β : Type} {R : α → β → Prop} {l : List α} {m : List β} (h : List.Forall₂ R l m) (i : Nat) (a : α)
    (ha : l[i]? = some a) : ∃ b, m[i]? = some b ∧ R a b := by
  induction h generalizing i with
  | nil => simp at ha
  | cons hab _ ih =>
    cases i with
    | zero => simp at ha; subst ha; exact ⟨_, rfl, hab⟩
    | succ i => simpa using ih i (by simpa using ha)

theorem getElem?_forall₂' {α β : Type} {R : α → β → Prop} {l : List α} {m : List β} (h : List.Forall₂ R l m) (i : Nat) (b : β)
    (hb : m[i]? = some b) : ∃ a, l[i]? = some a ∧ R a b := by
  induction h generalizing i with
  | nil => simp at hb
  | cons hab _ ih =>
    cases i with
    | zero => simp at hb; subst hb; exact ⟨_, rfl, hab⟩
    | succ i => simpa using ih i (by simpa using hb)

/-- What `finish` writes for a paradigm. -/
structure LinPara (suffixes prefixes : List Str) (rows : List (Str × Nat × Str)) (p : List Nat) : Prop where
  len : p.length = 3 * rows.length
  at_ : ∀ i r, rows[i]? = some r → (∃ k, p[i]? = some k ∧ suffixes[k]? = some r.1) ∧ p[rows.length + i]? = some r.2.1 ∧
    ∃ k, p[2 * rows.length + i]? = some k ∧ prefixes[k]? = some r.2.2
  small : ∀ n ∈ p, n ≤ maxH
  preId : ∀ i r, rows[i]? = some r → ∃ k, p[2 * rows.length + i]? = some k ∧ dictGet r.2.2 (enumDict prefixes) = some k

theorem linPara_of (suffixes prefixes : List Str) (rows : List (Str × Nat × Str)) (q : List (Nat × Nat × Nat)) (p : List Nat)
    (hq : fixStrings (enumDict suffixes) (enumDict prefixes) rows = .ok q) (hp : linearized q = .ok p) : LinPara suffixes prefixes rows p := by
  have h2 : List.Forall₂ _ rows q := (mapE_ok_iff _ _ _).1 hq
  have hlen : q.length = rows.length := h2.length_eq.symm
  unfold linearized at hp
  simp only at hp
  split at hp
  swap
  · simp at hp
  next hs =>
  simp only [Except.ok.injEq] at hp
  subst hp
  have hpre : ∀ i r, rows[i]? = some r → ∃ k, (q.map (·.1) ++ q.map (·.2.1) ++ q.map (·.2.2))[2 * rows.length + i]? = some k ∧
      dictGet r.2.2 (enumDict prefixes) = some k := by
    intro i r hr
    obtain ⟨b, hb, hrb⟩ := getElem?_forall₂ h2 i r hr
    simp only [bind_ok_iff, dictAt_ok_iff, pure_eq_ok, Except.ok.injEq] at hrb
    obtain ⟨x, hx, y, hy, rfl⟩ := hrb
    refine ⟨y, ?_, hy⟩
    rw [List.getElem?_append_right (by simp [hlen]; omega)]
    simp only [List.length_append, List.length_map, hlen]
    rw [show 2 * rows.length + i - (rows.length + rows.length) = i by omega]
    simp [hb]
  refine ⟨by simp [hlen]; omega, ?_, hs, hpre⟩
  intro i r hr
  obtain ⟨b, hb, hrb⟩ := getElem?_forall₂ h2 i r hr
  simp only [bind_ok_iff, dictAt_ok_iff, pure_eq_ok, Except.ok.injEq] at hrb
  obtain ⟨x, hx, y, hy, rfl⟩ := hrb
  have hi : i < q.length := (List.getElem?_eq_some_iff.1 hb).1
  refine ⟨⟨x, ?_, (enumDict_spec _ _).1 _ hx⟩, ?_, y, ?_, (enumDict_spec _ _).1 _ hy⟩
  · rw [List.append_assoc, List.getElem?_append_left (by simpa using hi)]; simp [hb]
  · rw [List.append_assoc, List.getElem?_append_right (by simp [hlen])]
    rw [List.getElem?_append_left (by simp [hlen]; omega)]
    simp [hlen, hb]
  · rw [List.getElem?_append_right (by simp [hlen]; omega)]
    simp only [List.length_append, List.length_map, hlen]
    rw [show 2 * rows.length + i - (rows.length + rows.length) = i by omega]
    simp [hb]

theorem mem_allSuffixes (paradigms : List (List (Str × Nat × Str))) (x : Str) :
    x ∈ allSuffixes paradigms ↔ ∃ p ∈ paradigms, ∃ r ∈ p, r.1 = x := by
  unfold allSuffixes sortStrs
  rw [List.mem_insertionSort, List.mem_dedup]
  simp [List.mem_flatMap]

/-- Everything there is to know about a compiled dictionary. -/
structure Tables (pp : List Str) (ls : List Lexeme) (s : CState) (c : Compiled) : Prop where
  inv : CInv pp ls s
  gramtab : c.gramtab = s.gramtab
  prefixes : c.prefixes = pp
  paras : List.Forall₂ (LinPara c.suffixes pp) s.paradigms c.paradigms

theorem tables_of (bw : DawgBuild (Nat × Nat)) (bp : DawgBuild (Nat × Nat × Nat)) (o : COptions) (ls : List Lexeme) (c : Compiled)
    (h : compileLexemes bw bp o ls = .ok c) : ∃ s, addLexemes o.paradigmPrefixes ls CState.empty = .ok s ∧
      finish bw bp o s = .ok c ∧ Tables o.paradigmPrefixes ls s c ∧ (∀ e, e ∈ c.words ↔ e ∈ s.words) ∧ c.words.Nodup := by
  unfold compileLexemes at h
  simp only [bind_ok_iff] at h
  obtain ⟨s, hs, h⟩ := h
  refine ⟨s, hs, h, ?_⟩
  have hi : CInv o.paradigmPrefixes ls s := by simpa using cinv_loop o.paradigmPrefixes ls [] CState.empty s (cinv_start _) hs
  unfold finish at h
  simp only [bind_ok_iff, pure_eq_ok, Except.ok.injEq] at h
  obtain ⟨paras, hparas, data, _, words, hwords, pred, _, rfl⟩ := h
  refine ⟨⟨hi, rfl, rfl, ?_⟩, ?_, ?_⟩
  · refine ((mapE_ok_iff _ _ _).1 hparas).imp ?_
    intro rows p hp
    simp only [bind_ok_iff] at hp
    obtain ⟨q, hq, hp⟩ := hp
    exact linPara_of _ _ _ _ _ hq hp
  · intro e
    unfold wordsDawg at hwords
    split at hwords
    · simp only [Except.ok.injEq] at hwords
      subst hwords; exact bw.mem _ _
    · simp at hwords
  · unfold wordsDawg at hwords
    split at hwords
    · simp only [Except.ok.injEq] at hwords
      subst hwords; exact bw.nodup _
    · simp at hwords

/-- A source paradigm in the compiled tables: its forms are where `Dictionary` looks for them. -/
theorem Tables.isForm {pp : List Str} {ls : List Lexeme} {s : CState} {c : Compiled} (T : Tables pp ls s c) {P : StrPara} {k : Nat}
    (hk : dictGet P s.paraIds = some k) : ∃ p, c.toDict.paradigms[k]? = some p ∧ p.length / 3 = P.length ∧
      ∀ i r, P[i]? = some r → c.toDict.IsForm k i p r.2.2 ⟨r.2.1⟩ r.1 := by
  obtain ⟨rows, hrows, hR⟩ := T.inv.para P k hk
  obtain ⟨p, hp, hlin⟩ := getElem?_forall₂ T.paras k rows hrows
  have hlen : rows.length = P.length := hR.length_eq.symm
  have h3 : p.length / 3 = P.length := by rw [hlin.len, hlen]; omega
  refine ⟨p, hp, h3, ?_⟩
  intro i r hr
  obtain ⟨q, hq, e1, e2, e3⟩ := getElem?_forall₂ hR i r hr
  obtain ⟨⟨a, ha1, ha2⟩, hb, ⟨d, hd1, hd2⟩⟩ := hlin.at_ i q hq
  have hi : i < P.length := (List.getElem?_eq_some_iff.1 hr).1
  refine ⟨hp, by omega, ?_, ?_, ?_⟩
  · unfold Dict.formPrefix
    rw [h3, ← hlen, show rows.length * 2 + i = 2 * rows.length + i by omega, (pyGet_ok_iff _ _ _).2 hd1, ok_bind, pyGet_ok_iff]
    simp only [Compiled.toDict, T.prefixes]
    rw [hd2, e2]
  · unfold Dict.formSuffix
    rw [(pyGet_ok_iff _ _ _).2 ha1, ok_bind, pyGet_ok_iff]
    simp only [Compiled.toDict]
    rw [ha2, e1]
  · unfold Dict.tagInfo
    rw [(pyGet_ok_iff c.toDict.paradigms _ _).2 hp, ok_bind, h3, ← hlen, (pyGet_ok_iff _ _ _).2 hb, ok_bind, pyGet_ok_iff]
    simp only [Compiled.toDict, T.gramtab, List.getElem?_map, e3, Option.map_some]

/-- Every paradigm of the compiled dictionary is a source paradigm. -/
theorem Tables.from_ {pp : List Str} {ls : List Lexeme} {s : CState} {c : Compiled} (T : Tables pp ls s c) {k : Nat} {p : List Nat}
    (hp : c.paradigms[k]? = some p) : ∃ P, dictGet P s.paraIds = some k := by
  obtain ⟨rows, hrows, _⟩ := getElem?_forall₂' T.paras k p hp
  exact T.inv.from_ k (List.getElem?_eq_some_iff.1 hrows).1

end Verif
