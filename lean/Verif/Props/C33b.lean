/-
C33 — what the stem and the paradigm of a lexeme are, exactly.
-/
import Verif.Props.C33
import Verif.Spec.Paradigm

namespace Verif

theorem CoreOf.unique {forms : List Str} {c c' : Str} (h : CoreOf forms c) (h' : CoreOf forms c') (hne : forms ≠ []) : c = c' := by
  have hl : c.length = c'.length := le_antisymm (h'.longest c h.common) (h.longest c' h'.common)
  obtain ⟨f, rest, rfl⟩ := List.exists_cons_of_ne_nil hne
  obtain ⟨u, v, huv⟩ := h.common f (by simp)
  have key : ∀ (n : Nat) (u v : Str), u.length ≤ n → f = u ++ c ++ v → c = c' := by
    intro n
    induction n with
    | zero =>
      intro u v hu huv
      obtain ⟨u', v', e1, e2⟩ := h'.first c h.common hl u v (by simp [huv])
      simp only [List.head?_cons, Option.some.injEq] at e1
      have hu0 : u = [] := List.eq_nil_of_length_eq_zero (by omega)
      have hu0' : u' = [] := List.eq_nil_of_length_eq_zero (by rw [hu0] at e2; simpa using e2)
      subst hu0 hu0'
      rw [huv] at e1
      simp only [List.nil_append] at e1
      exact (List.append_inj e1 hl).1
    | succ n ih =>
      intro u v hu huv
      obtain ⟨u', v', e1, e2⟩ := h'.first c h.common hl u v (by simp [huv])
      simp only [List.head?_cons, Option.some.injEq] at e1
      obtain ⟨u2, v2, e3, e4⟩ := h.first c' h'.common hl.symm u' v' (by simp [e1])
      simp only [List.head?_cons, Option.some.injEq] at e3
      by_cases hlt : u2.length ≤ n
      · exact ih u2 v2 hlt e3
      · have hul : u'.length = u.length := by omega
        rw [huv, List.append_assoc, List.append_assoc] at e1
        have e1' := (List.append_inj e1 hul.symm).2
        exact (List.append_inj e1' hl).1
  exact key u.length u v (le_refl _) huv.symm

theorem Before.unique {core f b b' : Str} (h : Before core f b) (h' : Before core f b') : b = b' := by
  obtain ⟨r, hr⟩ := h.occurs
  obtain ⟨r', hr'⟩ := h'.occurs
  have hl : b.length = b'.length := le_antisymm (h.first _ _ hr') (h'.first _ _ hr)
  rw [hr, List.append_assoc, List.append_assoc] at hr'
  exact (List.append_inj hr' hl).1

theorem SplitInto.unique {lex : List (Str × Str)} {stem : Str} {ps : List Str} {rows rows' : List (Str × Str × Str)} (h : SplitInto lex stem ps rows)
    (h' : SplitInto lex stem ps rows') : rows = rows' := by
  have h1 := h.spell.trans h'.spell.symm
  have h2 := h.pre.trans h'.pre.symm
  clear h h' ps lex
  induction rows generalizing rows' with
  | nil => simpa using h1.symm
  | cons r rows ih =>
    cases rows' with
    | nil => simp at h1
    | cons r' rows' =>
      simp only [List.map_cons, List.cons.injEq, Prod.mk.injEq] at h1 h2
      obtain ⟨⟨a, b⟩, c⟩ := h1
      obtain ⟨d, e⟩ := h2
      rw [ih c e]
      congr 1
      obtain ⟨r1, r2, r3⟩ := r
      obtain ⟨r1', r2', r3'⟩ := r'
      simp only at a b d
      subst d b
      simp only [List.append_assoc, List.append_cancel_left_eq] at a
      rw [a]

theorem forall₂_before_unique {core : Str} {fs bs bs' : List Str} (h : List.Forall₂ (Before core) fs bs) (h' : List.Forall₂ (Before core) fs bs') :
    bs = bs' := by
  induction h generalizing bs' with
  | nil => cases h'; rfl
  | cons a _ ih => cases h' with | cons b hb => rw [a.unique b, ih hb]

theorem Extracts.inv {allowed : List Str} {lex : Lexeme} {stem : Str} {rows : StrPara} (h : Extracts allowed lex stem rows) :
    (∃ w t, lex = [(w, t)] ∧ stem = w ∧ rows = [([], t, [])]) ∨
    (2 ≤ lex.length ∧ ∃ core bs, CoreOf (lex.map Prod.fst) core ∧ List.Forall₂ (Before core) (lex.map Prod.fst) bs ∧
      (((∀ b ∈ bs, b ∈ allowed) ∧ stem = core ∧ SplitInto lex core bs rows) ∨
       ((∃ b ∈ bs, b ∉ allowed) ∧ stem = [] ∧ SplitInto lex [] (lex.map fun _ => []) rows))) :=
  match h with
  | .single w t => .inl ⟨w, t, rfl, rfl, rfl⟩
  | .common _ _ bs _ hlen hcore hb hok hrows => .inr ⟨hlen, _, bs, hcore, hb, .inl ⟨hok, rfl, hrows⟩⟩
  | .whole _ core bs _ hlen hcore hb hbad hrows => .inr ⟨hlen, core, bs, hcore, hb, .inr ⟨hbad, rfl, hrows⟩⟩

/-- A lexeme has at most one stem and one paradigm. -/
theorem c33_unique (allowed : List Str) (lex : Lexeme) (stem stem' : Str) (rows rows' : StrPara) (h : Extracts allowed lex stem rows)
    (h' : Extracts allowed lex stem' rows') : stem = stem' ∧ rows = rows' := by
  rcases h.inv with ⟨w, t, rfl, rfl, rfl⟩ | ⟨hlen, core, bs, hcore, hb, hc⟩
  · rcases h'.inv with ⟨w', t', e1, rfl, rfl⟩ | ⟨hlen', _⟩
    · simp only [List.cons.injEq, Prod.mk.injEq, and_true] at e1
      obtain ⟨rfl, rfl⟩ := e1
      exact ⟨rfl, rfl⟩
    · simp at hlen'
  · rcases h'.inv with ⟨w', t', rfl, rfl, rfl⟩ | ⟨_, core', bs', hcore', hb', hc'⟩
    · simp at hlen
    · have := hcore.unique hcore' (by rintro e; rw [List.map_eq_nil_iff] at e; simp [e] at hlen)
      subst this
      have := forall₂_before_unique hb hb'
      subst this
      rcases hc with ⟨hok, rfl, hr⟩ | ⟨⟨b, h1, h2⟩, rfl, hr⟩ <;> rcases hc' with ⟨hok', rfl, hr'⟩ | ⟨⟨b', h1', h2'⟩, rfl, hr'⟩
      · exact ⟨rfl, hr.unique hr'⟩
      · exact absurd (hok b' h1') h2'
      · exact absurd (hok' b h1) h2
      · exact ⟨rfl, hr.unique hr'⟩

theorem core_of (forms : List Str) (hne : forms ≠ []) : CoreOf forms (longestCommonSubstring forms) := by
  obtain ⟨h1, h2⟩ := c34_longest forms hne
  refine ⟨h1, h2, ?_⟩
  intro t ht hl u v huv
  obtain ⟨f, rest, rfl⟩ := List.exists_cons_of_ne_nil hne
  simp only [List.head?_cons, Option.some.injEq] at huv ⊢
  exact c34_first f rest t ht hl u v huv

theorem strIndex_le {x s b r : Str} {i : Nat} (h : strIndex x s = some i) (hs : s = b ++ x ++ r) : i ≤ b.length := by
  induction s generalizing i b with
  | nil =>
    unfold strIndex at h
    split at h
    · simp at h; omega
    · simp at h
  | cons c cs ih =>
    unfold strIndex at h
    split at h
    · simp at h; omega
    · next hp =>
      cases b with
      | nil => exact absurd (List.isPrefixOf_iff_prefix.2 ⟨r, by simpa using hs.symm⟩) hp
      | cons b0 b =>
        cases hi : strIndex x cs with
        | none => rw [hi] at h; simp at h
        | some j =>
          rw [hi] at h
          simp only [Option.map_some, Option.some.injEq] at h
          simp only [List.cons_append, List.cons.injEq] at hs
          have := ih hi (by simpa using hs.2)
          simp only [List.length_cons]
          omega

theorem before_of {core f b : Str} (h : prefixBefore core f = .ok b) : Before core f b := by
  unfold prefixBefore at h
  split at h
  · simp at h
  next i hi =>
  simp only [Except.ok.injEq] at h
  subst h
  obtain ⟨r, hr⟩ := strIndex_some hi
  refine ⟨⟨r, hr.symm⟩, fun b' r' hs => ?_⟩
  have := strIndex_le hi hs
  simp; omega

theorem splitInto_zipWith (stem : Str) (lex : Lexeme) (ps : List Str) (h : List.Forall₂ (fun f p => p ++ stem <+: f.1) lex ps) :
    SplitInto lex stem ps (List.zipWith (paraRow stem) lex ps) := by
  refine ⟨rebuild_zipWith stem lex ps h, ?_⟩
  induction h with
  | nil => rfl
  | cons _ _ ih => simp only [List.zipWith_cons_cons, List.map_cons, ih]; rfl

/-- **C33, exactly.** The extraction gives the stem and the paradigm of the specification, and nothing else. -/
theorem c33_exact (allowed : List Str) (lex : Lexeme) (stem : Str) (rows : StrPara) :
    toParadigm lex allowed = .ok (stem, rows) ↔ Extracts allowed lex stem rows := by
  have sound : ∀ stem rows, toParadigm lex allowed = .ok (stem, rows) → Extracts allowed lex stem rows := by
    intro stem rows h
    match lex with
    | [] => simp [toParadigm] at h
    | [(w, t)] =>
      simp only [toParadigm, Except.ok.injEq, Prod.mk.injEq] at h
      obtain ⟨rfl, rfl⟩ := h
      have : paraRow w (w, t) [] = ([], t, []) := by simp [paraRow]
      rw [this]
      exact .single w t
    | a :: b :: lex =>
      unfold toParadigm at h
      simp only [bind_ok_iff] at h
      obtain ⟨ps, hps, h⟩ := h
      have hcore := core_of ((a :: b :: lex).map Prod.fst) (by simp)
      have hps := (mapE_ok_iff _ _ _).1 hps
      have hb : List.Forall₂ (Before (longestCommonSubstring ((a :: b :: lex).map Prod.fst))) ((a :: b :: lex).map Prod.fst) ps := by
        rw [List.forall₂_map_left_iff]
        exact hps.imp fun f p hfp => before_of hfp
      split at h
      · next hany =>
        simp only [Except.ok.injEq, Prod.mk.injEq] at h
        obtain ⟨rfl, rfl⟩ := h
        obtain ⟨p, hp, hp'⟩ := List.any_eq_true.1 hany
        refine .whole _ _ ps _ (by simp) hcore hb ⟨p, hp, by simpa using hp'⟩ (splitInto_zipWith [] _ _ ?_)
        rw [List.forall₂_map_right_iff, List.forall₂_same]
        intro x _; simp
      · next hany =>
        simp only [Except.ok.injEq, Prod.mk.injEq] at h
        obtain ⟨rfl, rfl⟩ := h
        refine .common _ _ ps _ (by simp) hcore hb (fun p hp => ?_) (splitInto_zipWith _ _ _ ?_)
        · by_contra hc
          exact hany (List.any_eq_true.2 ⟨p, hp, by simpa using hc⟩)
        · refine hps.imp fun f p hfp => ?_
          obtain ⟨r, hr⟩ := (before_of hfp).occurs
          exact ⟨r, hr.symm⟩
  constructor
  · exact sound stem rows
  · intro h
    have hne : lex ≠ [] := by
      intro e
      subst e
      rcases h.inv with ⟨w, t, e, _⟩ | ⟨hlen, _⟩
      · simp at e
      · simp at hlen
    obtain ⟨stem', rows', h'⟩ := c33_total lex hne allowed
    obtain ⟨rfl, rfl⟩ := c33_unique _ _ _ _ _ _ h (sound _ _ h')
    exact h'

/-- Both outcomes occur: with `по` allowed the three forms have the stem `больш`, without it they have none. -/
example : Extracts [c!"", c!"по"] [(c!"больший", c!"ADJF"), (c!"больше", c!"COMP"), (c!"побольше", c!"COMP,V-po")] (c!"больш")
      [(c!"ий", c!"ADJF", c!""), (c!"е", c!"COMP", c!""), (c!"е", c!"COMP,V-po", c!"по")] ∧
    Extracts [c!""] [(c!"больший", c!"ADJF"), (c!"больше", c!"COMP"), (c!"побольше", c!"COMP,V-po")] []
      [(c!"больший", c!"ADJF", c!""), (c!"больше", c!"COMP", c!""), (c!"побольше", c!"COMP,V-po", c!"")] := by
  constructor <;> rw [← c33_exact] <;> decide +kernel

end Verif
