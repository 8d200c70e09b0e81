/-
The lexeme of an analysis can always be computed.
-/
import Verif.Lemmas.Normalized

set_option linter.unusedSectionVars false

namespace Verif

variable {S : Type} [Score S]

/-- Every tag of a lexeme without initials comes from the table of tags, or is the tag of the form asked. -/
theorem lexeme_tags (m : Morph S) (st : Stack) (p : Parse S) (fs : List (Parse S)) (h : lexemeOf m st p = .ok fs)
    (hn : st.noInit) (f : Parse S) (hf : f ∈ fs) : f.tag ∈ m.dict.gramtab ∨ f.tag = p.tag := by
  fun_induction lexemeOf m st p generalizing fs f <;> try (simp at h; done)
  case case2 =>
    unfold dictLexeme at h
    simp only [bind_ok_iff, pure_eq_ok, Except.ok.injEq] at h
    obtain ⟨pi, h1, para, h2, stem, h3, rows, h4, rfl⟩ := h
    obtain ⟨i, hi, rfl⟩ := List.mem_mapIdx.1 hf
    left
    unfold Dict.paradigmInfo at h4
    simp only [bind_ok_iff] at h4
    obtain ⟨pl, _, h4⟩ := h4
    obtain ⟨j, _, hj⟩ := mapE_mem h4 (List.getElem_mem hi)
    simp only [Dict.paradigmRow, bind_ok_iff, pure_eq_ok, Except.ok.injEq] at hj
    obtain ⟨pre, _, suf, _, tag, ht, e⟩ := hj
    simp only [Dict.tagInfo, bind_ok_iff] at ht
    obtain ⟨_, _, tid, _, ht⟩ := ht
    rw [← e]
    exact List.mem_of_getElem? ((pyGet_ok_iff _ _ _).1 ht)
  case case4 => simp only [Except.ok.injEq] at h; subst h; simp at hf; subst hf; exact .inr rfl
  case case5 => simp only [Except.ok.injEq] at h; subst h; simp at hf; subst hf; exact .inr rfl
  case case6 => simp only [Except.ok.injEq] at h; subst h; simp at hf; subst hf; exact .inr rfl
  case case7 hk => have := hn.2; simp [Method.noInit, hk, UKind.isInit] at this
  case case8 hk => have := hn.2; simp [Method.noInit, hk, UKind.isInit] at this
  case case10 ih =>
    simp only [bind_ok_iff, pure_eq_ok, Except.ok.injEq] at h
    obtain ⟨fs0, h0, rfl⟩ := h
    obtain ⟨f0, hf0, rfl⟩ := List.mem_map.1 hf
    exact ih fs0 h0 hn.1 f0 hf0
  case case12 ih =>
    simp only [bind_ok_iff, pure_eq_ok, Except.ok.injEq] at h
    obtain ⟨fs0, h0, rfl⟩ := h
    obtain ⟨f0, hf0, rfl⟩ := List.mem_map.1 hf
    exact ih fs0 h0 hn.1 f0 hf0
  case case14 ih =>
    simp only [bind_ok_iff, pure_eq_ok, Except.ok.injEq] at h
    obtain ⟨fs0, h0, rfl⟩ := h
    obtain ⟨f0, hf0, rfl⟩ := List.mem_map.1 hf
    exact ih fs0 h0 hn.1 f0 hf0
  case case17 ih =>
    simp only [bind_ok_iff, pure_eq_ok, Except.ok.injEq] at h
    obtain ⟨fs0, h0, rfl⟩ := h
    obtain ⟨f0, hf0, rfl⟩ := List.mem_map.1 hf
    exact ih fs0 h0 hn.2 f0 hf0
  case case19 ih2 ih1 =>
    simp only [bind_ok_iff, pure_eq_ok, Except.ok.injEq] at h
    obtain ⟨lf, hlf, rf, hrf, ls, hls, rs, hrs, h⟩ := h
    obtain ⟨r, hr, hb⟩ := mapE_mem h hf
    obtain ⟨l, hl, rfl⟩ := mergeForms_ok hb
    have e : ∀ q : Parse S, withoutRightPart q = .ok lf → lf.tag = q.tag := by
      intro q hlf
      simp only [withoutRightPart, bind_ok_iff, pure_eq_ok, Except.ok.injEq] at hlf
      obtain ⟨_, _, _, _, rfl⟩ := hlf
      rfl
    have := ih2 lf ls hls hn.2.1 l (closest_mem hl)
    rwa [e _ hlf] at this

theorem replaceGrammemes_card (ps : List (Str × Str)) (g : Grams) : (replaceGrammemes ps g).card ≤ g.card := by
  induction ps generalizing g with
  | nil => exact le_refl _
  | cons p ps ih =>
    refine (ih (if p.1 ∈ g then insert p.2 (g.erase p.1) else g)).trans ?_
    split
    · next h =>
      refine (Finset.card_insert_le _ _).trans ?_
      rw [Finset.card_erase_add_one h]
    · exact le_refl _

theorem formDist_le (l r : Parse S) : formDist l r ≤ l.tag.grammemes.card + r.tag.grammemes.card := by
  unfold formDist
  refine (Finset.card_le_card (Finset.symmDiff_subset_union)).trans ((Finset.card_union_le _ _).trans ?_)
  exact Nat.add_le_add (replaceGrammemes_card _ _) (replaceGrammemes_card _ _)

theorem closest_some {ls : List (Parse S)} {r : Parse S} (hne : ls ≠ []) (hd : ∀ l ∈ ls, formDist l r < 1000000) :
    ∃ l, closest ls r = some l := by
  have key : ∀ (ls : List (Parse S)) (best : Nat) (cur : Option (Parse S)),
      (cur.isSome ∨ (ls ≠ [] ∧ ∀ l ∈ ls, formDist l r < best)) → (closestLoop r ls best cur).isSome := by
    intro ls
    induction ls with
    | nil => intro best cur h; simpa [closestLoop] using h
    | cons a ls ih =>
      intro best cur h
      unfold closestLoop
      split
      · exact ih _ _ (.inl rfl)
      · next hlt =>
        rcases h with h | ⟨_, h⟩
        · exact ih _ _ (.inl h)
        · exact absurd (h a (by simp)) hlt
  exact Option.isSome_iff_exists.1 (key ls _ _ (.inr ⟨hne, hd⟩))

/-- No tag is absurdly large (the alignment of compounds gives up at a distance of a million grammemes). -/
def Morph.SmallTags (m : Morph S) : Prop := ∀ t ∈ m.dict.gramtab, t.grammemes.card < 500000

theorem map_ok {α β : Type} {e : Except PyErr (List α)} (g : α → β) (h : ∃ fs, e = .ok fs) :
    ∃ fs, (e.map fun fs => fs.map g) = .ok fs := by
  obtain ⟨fs, rfl⟩ := h; exact ⟨_, rfl⟩

/-- Asking the tags of initials for their gender does not raise. -/
def Morph.GendersKnown (m : Morph S) : Prop := ∀ u ∈ m.units, ∀ letters masc femn score, u.1.cfg = .firstName letters masc femn score →
  ∀ t ∈ masc ++ femn, c!"masc" ∈ t.grammemes ∨ c!"masc" ∈ m.cls.known

/-- The lexeme of an analysis can be computed. -/
theorem deriv_lexeme_ok (m : Morph S) (hd : m.dict.WF) (hmasc : m.GendersKnown) (hsm : m.SmallTags)
    {wl w nf : Str} {tag : Tag} {st : Stack} (h : Deriv m wl w tag nf st) (htag : tag.grammemes.card < 500000)
    (hn : BothCond m st) (s : S) (x : Stack) :
    ∃ fs, lexemeOf m st ⟨w, tag, nf, s, x⟩ = .ok fs := by
  have dict : ∀ {v : Str} {para idx : Nat} {p : List Nat} {pre : Str} {t' : Tag} {suf : Str} (u : UObj) (t : Tag) (n : Str), u.kind = .dict →
      m.dict.IsForm para idx p pre t' suf →
      ∃ fs, lexemeOf m (.single (.dict u v para idx)) ⟨v, t, n, s, x⟩ = .ok fs := by
    intro v para idx p pre t' suf u t n hu hf
    obtain ⟨stem', fs0, _, _, _, h4, h5, _⟩ := dictBase m hd u hu hf v v n
    exact ⟨fs0, h5 _ _ _⟩
  induction h with
  | dict hsp hw hnf ht =>
    obtain ⟨p, pre, tag, suf, stem, hf, _⟩ := hd.words _ hw
    exact dict _ _ _ rfl hf
  | @plain wl arg tag u hu hk harg =>
    simp only [lexemeOf, Stack.single, BUnit.obj]
    generalize u.1.cfg.kind = k at hk
    cases k <;> simp [UKind.isPlain] at hk <;> exact ⟨_, rfl⟩
  | @firstName wl arg tag u letters masc femn score hu hk hl ht harg =>
    have : ∃ b, m.cls.contains tag (c!"masc") = .ok b := by
      unfold TagCls.contains TagCls.isKnown TagCls.assertInit
      split
      · exact ⟨_, rfl⟩
      · next hng =>
        have hmasc := (hmasc u hu _ _ _ _ hk tag ht).resolve_left hng
        rw [if_neg (by rintro e; rw [e] at hmasc; simp at hmasc)]
        simp [hmasc]
    obtain ⟨b, hb⟩ := this
    simp only [lexemeOf, Stack.single, BUnit.obj, hk, UnitCfg.kind, genderTags, hb]
    exact ⟨_, rfl⟩
  | @patronymic wl arg tag u letters tags score hu hk hl ht harg =>
    simp only [lexemeOf, Stack.single, BUnit.obj, hk, UnitCfg.kind]
    exact ⟨_, rfl⟩
  | @particle rest part w nf tag st u parts mult hu hk hp hne hpne hd' ih =>
    rw [lexeme_particle m st hd'.stack_ne _ (by simp [BUnit.obj, hk, UnitCfg.kind]) part w nf hpne tag s x]
    exact map_ok _ (ih htag hn.push)
  | @fixed left right w nf tag st u skip mult hu hk hl hr hl' hr' hskip hkn hd' ih =>
    rw [lexeme_fixed]
    exact map_ok _ (ih htag hn.fixed)
  | @both left right w nf w' nf' tag tag' st st' u skip mult hu hk hl hr hl' hr' hskip hkn hsim hd1 hd2 _ _ =>
    rcases hn with hn | ⟨hh, hs, hn⟩
    · exact hn.2.elim
    obtain ⟨a1, a2, a3⟩ := deriv_based m hd hh hs hd1 hl' hn.2.1
    obtain ⟨b1, b2, b3⟩ := deriv_based m hd hh hs hd2 hr' hn.2.2
    have ok : ∀ {st : Stack} {w n : Str}, DictBased m st w n ∨ PlainBased m st w n → ∃ fs : List (Parse S), fs ≠ [] ∧
        lexemeOf m st ⟨w, tag, n, s, x⟩ = .ok fs := by
      rintro st w n (⟨fs, h1, h2, _⟩ | h)
      · exact ⟨fs, h1, h2 _ _ _⟩
      · exact ⟨_, by simp, h _ _ _⟩
    have small : ∀ {st : Stack} {w n : Str} {fs : List (Parse S)}, lexemeOf m st ⟨w, tag, n, s, x⟩ = .ok fs → st.noInit → ∀ f ∈ fs,
        f.tag.grammemes.card < 500000 := by
      intro st w n fs hfs hst f hf
      rcases lexeme_tags m st _ fs hfs hst f hf with h | h
      · exact hsm _ h
      · rw [h]; exact htag
    obtain ⟨ls, l1, l2⟩ := ok a3
    obtain ⟨rs, r1, r2⟩ := ok b3
    rw [lexeme_both m _ _ _ _ _ _ _ a1 a2, l2, ok_bind, r2, ok_bind]
    apply mapE_total
    intro r hr
    obtain ⟨l, hl⟩ := closest_some (r := r) l1 (by
      intro l hl
      have := formDist_le l r
      have := small l2 hn.2.1 l hl
      have := small r2 hn.2.2 r hr
      omega)
    unfold mergeForms
    rw [hl]
    exact ⟨_, rfl⟩
  | @pref pre rest w nf tag st u prefixes mult minRem hu hk hp hrem hprod hd' ih =>
    rw [lexeme_pref m st hd'.stack_ne _ (by simp [BUnit.obj, hk, UnitCfg.kind]) pre w nf tag s x]
    exact map_ok _ (ih htag hn.push)
  | @upref pre rest v nf tag para idx u mult hu hk hne hlen hrem hprod hsp hw hnf ht =>
    obtain ⟨p, pre', tag', suf, stem, hf, _⟩ := hd.words _ hw
    rw [lexeme_pref m _ (by simp [Stack.single]) _ (by simp [BUnit.obj, hk, UnitCfg.kind]) pre v nf tag s x]
    exact map_ok _ (dict _ _ _ rfl hf)
  | @suff wl start en e nf tag para idx cnt k t pre u mult minLen hu hk hsplit hprod hsp ht hpre hpw he hnf htag =>
    obtain ⟨_, p, pre', tag', suf, hf, _, _⟩ := hd.pred k t ht _ he
    rw [lexeme_suff m _ (by simp [Stack.single]) _ (by simp [BUnit.obj, hk, UnitCfg.kind]) e _]
    exact map_ok _ (dict _ _ _ rfl hf)

end Verif
