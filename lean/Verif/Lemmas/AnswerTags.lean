/-
Where the tags of answers come from: the table of tags of the dictionary, or the units.
-/
import Verif.Lemmas.LexTotal
import Verif.Props.C21

set_option linter.unusedSectionVars false

namespace Verif

variable {S : Type} [Score S]

/-- The tags a unit gives by itself. -/
def UnitCfg.givenTags : UnitCfg S → List Tag
  | .firstName _ masc femn _ => masc ++ femn
  | .patronymic _ tags _ => tags
  | c => c.ownTags

theorem UnitCfg.own_given (c : UnitCfg S) {t : Tag} (h : t ∈ c.ownTags) : t ∈ c.givenTags := by
  cases c <;> simp_all [UnitCfg.givenTags, UnitCfg.ownTags]

theorem tagInfo_mem {d : Dict} {para i : Nat} {t : Tag} (h : d.tagInfo para i = .ok t) : t ∈ d.gramtab := by
  simp only [Dict.tagInfo, bind_ok_iff] at h
  obtain ⟨_, _, tid, _, ht⟩ := h
  exact List.mem_of_getElem? ((pyGet_ok_iff _ _ _).1 ht)

/-- The tag of an analysis is in the table of tags, or was given by a unit. -/
theorem deriv_tag {m : Morph S} {wl w nf : Str} {tag : Tag} {st : Stack} (h : Deriv m wl w tag nf st) :
    tag ∈ m.dict.gramtab ∨ ∃ u ∈ m.units, tag ∈ u.1.cfg.givenTags := by
  induction h with
  | dict _ _ _ ht => exact .inl (tagInfo_mem ht)
  | plain hu _ _ ht => exact .inr ⟨_, hu, UnitCfg.own_given _ ht⟩
  | firstName hu hk _ ht => exact .inr ⟨_, hu, by rw [hk]; exact ht⟩
  | patronymic hu hk _ ht => exact .inr ⟨_, hu, by rw [hk]; exact ht⟩
  | particle _ _ _ _ _ _ ih => exact ih
  | fixed _ _ _ _ _ _ _ _ _ ih => exact ih
  | both _ _ _ _ _ _ _ _ _ _ _ ih _ => exact ih
  | pref _ _ _ _ _ _ ih => exact ih
  | upref _ _ _ _ _ _ _ _ _ ht => exact .inl (tagInfo_mem ht)
  | suff _ _ _ _ _ _ _ _ _ _ ht => exact .inl (tagInfo_mem ht)

mutual
/-- All tags of the units for initials that were used satisfy `T`. -/
def Stack.initialsIn (T : Tag → Prop) : Stack → Prop
  | .nil => True
  | .push r x => r.initialsIn T ∧ x.initialsIn T
def Method.initialsIn (T : Tag → Prop) : Method → Prop
  | .dict _ _ _ _ => True
  | .simple u _ => match u.kind with
    | .firstName masc femn => (∀ t ∈ masc, T t) ∧ ∀ t ∈ femn, T t
    | .patronymic tags => ∀ t ∈ tags, T t
    | _ => True
  | .fixed _ _ r => r.initialsIn T
  | .both _ l r => l.initialsIn T ∧ r.initialsIn T
end

theorem Stack.setFirst_initialsIn {T : Tag → Prop} (u : UObj) (w : Str) (a b : Nat) : ∀ st : Stack, st.initialsIn T → (st.setFirst (.dict u w a b)).initialsIn T
  | .nil, _ => ⟨trivial, trivial⟩
  | .push .nil _, _ => ⟨trivial, trivial⟩
  | .push (.push r m') _, h => ⟨Stack.setFirst_initialsIn u w a b (.push r m') h.1, h.2⟩

theorem lexeme_in (m : Morph S) (T : Tag → Prop) (hg : ∀ t ∈ m.dict.gramtab, T t) (st : Stack) (p : Parse S) (fs : List (Parse S))
    (h : lexemeOf m st p = .ok fs) (hn : st.initialsIn T) (hp : T p.tag) (f : Parse S) (hf : f ∈ fs) : T f.tag ∧ f.stack.initialsIn T := by
  fun_induction lexemeOf m st p generalizing fs f <;> try (simp at h; done)
  case case2 =>
    unfold dictLexeme at h
    simp only [bind_ok_iff, pure_eq_ok, Except.ok.injEq] at h
    obtain ⟨pi, h1, para, h2, stem, h3, rows, h4, rfl⟩ := h
    obtain ⟨i, hi, rfl⟩ := List.mem_mapIdx.1 hf
    refine ⟨hg _ ?_, Stack.setFirst_initialsIn _ _ _ _ _ hn⟩
    unfold Dict.paradigmInfo at h4
    simp only [bind_ok_iff] at h4
    obtain ⟨pl, _, h4⟩ := h4
    obtain ⟨j, _, hj⟩ := mapE_mem h4 (List.getElem_mem hi)
    simp only [Dict.paradigmRow, bind_ok_iff, pure_eq_ok, Except.ok.injEq] at hj
    obtain ⟨pre, _, suf, _, tag, ht, e⟩ := hj
    rw [lexForm, ← e]
    exact tagInfo_mem ht
  case case4 => simp only [Except.ok.injEq] at h; subst h; simp at hf; subst hf; exact ⟨hp, hn⟩
  case case5 => simp only [Except.ok.injEq] at h; subst h; simp at hf; subst hf; exact ⟨hp, hn⟩
  case case6 => simp only [Except.ok.injEq] at h; subst h; simp at hf; subst hf; exact ⟨hp, hn⟩
  case case7 hk =>
    simp only [genderTags, bind_ok_iff, pure_eq_ok, Except.ok.injEq] at h
    obtain ⟨tags, ⟨b, _, rfl⟩, rfl⟩ := h
    obtain ⟨t, ht, rfl⟩ := List.mem_map.1 hf
    refine ⟨?_, hn⟩
    have := hn.2
    simp only [Method.initialsIn, hk] at this
    cases b
    · exact this.2 t ht
    · exact this.1 t ht
  case case8 hk =>
    simp only [Except.ok.injEq] at h
    subst h
    obtain ⟨t, ht, rfl⟩ := List.mem_map.1 hf
    refine ⟨?_, hn⟩
    have := hn.2
    simp only [Method.initialsIn, hk] at this
    exact this t ht
  case case10 ih =>
    simp only [bind_ok_iff, pure_eq_ok, Except.ok.injEq] at h
    obtain ⟨fs0, h0, rfl⟩ := h
    obtain ⟨f0, hf0, rfl⟩ := List.mem_map.1 hf
    obtain ⟨h1, h2⟩ := ih fs0 h0 hn.1 hp f0 hf0
    exact ⟨h1, h2, hn.2⟩
  case case12 ih =>
    simp only [bind_ok_iff, pure_eq_ok, Except.ok.injEq] at h
    obtain ⟨fs0, h0, rfl⟩ := h
    obtain ⟨f0, hf0, rfl⟩ := List.mem_map.1 hf
    obtain ⟨h1, h2⟩ := ih fs0 h0 hn.1 hp f0 hf0
    exact ⟨h1, h2, hn.2⟩
  case case14 ih =>
    simp only [bind_ok_iff, pure_eq_ok, Except.ok.injEq] at h
    obtain ⟨fs0, h0, rfl⟩ := h
    obtain ⟨f0, hf0, rfl⟩ := List.mem_map.1 hf
    obtain ⟨h1, h2⟩ := ih fs0 h0 hn.1 hp f0 hf0
    exact ⟨h1, h2, hn.2⟩
  case case17 ih =>
    simp only [bind_ok_iff, pure_eq_ok, Except.ok.injEq] at h
    obtain ⟨fs0, h0, rfl⟩ := h
    obtain ⟨f0, hf0, rfl⟩ := List.mem_map.1 hf
    obtain ⟨h1, h2⟩ := ih fs0 h0 hn.2 hp f0 hf0
    exact ⟨h1, trivial, h2⟩
  case case19 ih2 ih1 =>
    simp only [bind_ok_iff, pure_eq_ok, Except.ok.injEq] at h
    obtain ⟨lf, hlf, rf, hrf, ls, hls, rs, hrs, h⟩ := h
    obtain ⟨r, hr, hb⟩ := mapE_mem h hf
    obtain ⟨l, hl, rfl⟩ := mergeForms_ok hb
    have e : ∀ q : Parse S, withoutRightPart q = .ok lf → lf.tag = q.tag := by
      intro q hlf
      simp only [withoutRightPart, bind_ok_iff, pure_eq_ok, Except.ok.injEq] at hlf
      obtain ⟨_, _, _, _, rfl⟩ := hlf
      rfl
    have e' : ∀ q : Parse S, withoutLeftPart q = .ok rf → rf.tag = q.tag := by
      intro q hlf
      simp only [withoutLeftPart, bind_ok_iff, pure_eq_ok, Except.ok.injEq] at hlf
      obtain ⟨_, _, _, _, rfl⟩ := hlf
      rfl
    obtain ⟨a1, a2⟩ := ih2 lf ls hls hn.2.1 (by rw [e _ hlf]; exact hp) l (closest_mem hl)
    obtain ⟨_, b2⟩ := ih1 rf rs hrs hn.2.2 (by rw [e' _ hrf]; exact hp) r hr
    exact ⟨a1, trivial, a2, b2⟩

theorem normalized_in (m : Morph S) (T : Tag → Prop) (hg : ∀ t ∈ m.dict.gramtab, T t) (st : Stack) (p q : Parse S)
    (h : normalizedOf m st p = .ok q) (hn : st.initialsIn T) (hp : T p.tag) : T q.tag ∧ q.stack.initialsIn T := by
  fun_induction normalizedOf m st p generalizing q <;> try (simp at h; done)
  case case2 =>
    simp only [dictNormalized, bind_ok_iff, pure_eq_ok, Except.ok.injEq] at h
    obtain ⟨pi, _, h⟩ := h
    split at h
    · simp only [Except.ok.injEq] at h
      subst h
      exact ⟨hp, hn⟩
    · simp only [bind_ok_iff, Except.ok.injEq] at h
      obtain ⟨tag, ht, rfl⟩ := h
      exact ⟨hg _ (tagInfo_mem ht), Stack.setFirst_initialsIn _ _ _ _ _ hn⟩
  case case4 => simp only [Except.ok.injEq] at h; subst h; exact ⟨hp, hn⟩
  case case5 => simp only [Except.ok.injEq] at h; subst h; exact ⟨hp, hn⟩
  case case6 => simp only [Except.ok.injEq] at h; subst h; exact ⟨hp, hn⟩
  case case7 hk =>
    simp only [genderTags, bind_ok_iff, pure_eq_ok, Except.ok.injEq] at h
    obtain ⟨tags, ⟨b, _, rfl⟩, t, ht, rfl⟩ := h
    have ht := List.mem_of_getElem? ((pyGet_ok_iff _ _ _).1 ht)
    refine ⟨?_, hn⟩
    have := hn.2
    simp only [Method.initialsIn, hk] at this
    cases b
    · exact this.2 t ht
    · exact this.1 t ht
  case case8 hk =>
    simp only [bind_ok_iff, pure_eq_ok, Except.ok.injEq] at h
    obtain ⟨t, ht, rfl⟩ := h
    refine ⟨?_, hn⟩
    have := hn.2
    simp only [Method.initialsIn, hk] at this
    exact this t (List.mem_of_getElem? ((pyGet_ok_iff _ _ _).1 ht))
  case case10 ih =>
    simp only [bind_ok_iff, pure_eq_ok, Except.ok.injEq] at h
    obtain ⟨f0, h0, rfl⟩ := h
    obtain ⟨h1, h2⟩ := ih f0 h0 hn.1 hp
    exact ⟨h1, h2, hn.2⟩
  case case12 ih =>
    simp only [bind_ok_iff, pure_eq_ok, Except.ok.injEq] at h
    obtain ⟨f0, h0, rfl⟩ := h
    obtain ⟨h1, h2⟩ := ih f0 h0 hn.1 hp
    exact ⟨h1, h2, hn.2⟩
  case case14 ih =>
    simp only [bind_ok_iff, pure_eq_ok, Except.ok.injEq] at h
    obtain ⟨f0, h0, rfl⟩ := h
    obtain ⟨h1, h2⟩ := ih f0 h0 hn.1 hp
    exact ⟨h1, h2, hn.2⟩
  case case16 =>
    simp only [bind_ok_iff] at h
    obtain ⟨fs, hfs, h⟩ := h
    refine lexeme_in m T hg _ _ fs hfs hn hp q ?_
    cases fs with
    | nil => simp [pyNext] at h
    | cons f fs => simp only [pyNext, Except.ok.injEq] at h; rw [h]; exact List.mem_cons_self ..
  case case18 =>
    simp only [bind_ok_iff] at h
    obtain ⟨lf, hlf, rf, hrf, ls, hls, rs, hrs, r, hr, hb⟩ := h
    obtain ⟨l, hl, rfl⟩ := mergeForms_ok hb
    have hr : r ∈ rs := by
      cases rs with
      | nil => simp [pyNext] at hr
      | cons f fs => simp only [pyNext, Except.ok.injEq] at hr; rw [hr]; exact List.mem_cons_self ..
    have e : ∀ q : Parse S, withoutRightPart q = .ok lf → lf.tag = q.tag := by
      intro q hlf
      simp only [withoutRightPart, bind_ok_iff, pure_eq_ok, Except.ok.injEq] at hlf
      obtain ⟨_, _, _, _, rfl⟩ := hlf
      rfl
    have e' : ∀ q : Parse S, withoutLeftPart q = .ok rf → rf.tag = q.tag := by
      intro q hlf
      simp only [withoutLeftPart, bind_ok_iff, pure_eq_ok, Except.ok.injEq] at hlf
      obtain ⟨_, _, _, _, rfl⟩ := hlf
      rfl
    obtain ⟨a1, a2⟩ := lexeme_in m T hg _ lf ls hls hn.2.1 (by rw [e _ hlf]; exact hp) l (closest_mem hl)
    obtain ⟨_, b2⟩ := lexeme_in m T hg _ rf rs hrs hn.2.2 (by rw [e' _ hrf]; exact hp) r hr
    exact ⟨a1, trivial, a2, b2⟩

/-- The units for initials that were used are units of the analyzer. -/
theorem deriv_initialsIn {m : Morph S} {T : Tag → Prop} (hu : ∀ u ∈ m.units, ∀ t ∈ u.1.cfg.givenTags, T t) {wl w nf : Str} {tag : Tag} {st : Stack}
    (h : Deriv m wl w tag nf st) : st.initialsIn T := by
  have plain : ∀ (u : UObj) (a : Str), u.kind.isInit = false → (Method.simple u a).initialsIn T := by
    intro u a hk
    simp only [Method.initialsIn]
    generalize u.kind = k at hk
    cases k <;> simp_all [UKind.isInit]
  induction h with
  | dict => exact ⟨trivial, trivial⟩
  | @plain _ _ _ u _ hk =>
    refine ⟨trivial, plain _ _ ?_⟩
    simp only [BUnit.obj]
    generalize u.1.cfg.kind = k at hk
    cases k <;> simp_all [UKind.isInit, UKind.isPlain]
  | firstName hm hk =>
    refine ⟨trivial, ?_⟩
    have := hu _ hm
    simp only [hk, UnitCfg.givenTags, List.mem_append] at this
    simp only [Method.initialsIn, BUnit.obj, hk, UnitCfg.kind]
    exact ⟨fun t ht => this t (.inl ht), fun t ht => this t (.inr ht)⟩
  | patronymic hm hk =>
    refine ⟨trivial, ?_⟩
    have := hu _ hm
    simp only [hk, UnitCfg.givenTags] at this
    simp only [Method.initialsIn, BUnit.obj, hk, UnitCfg.kind]
    exact this
  | particle _ hk _ _ _ _ ih => exact ⟨ih, plain _ _ (by simp [BUnit.obj, hk, UnitCfg.kind, UKind.isInit])⟩
  | fixed _ _ _ _ _ _ _ _ _ ih => exact ⟨trivial, ih⟩
  | both _ _ _ _ _ _ _ _ _ _ _ ih ih' => exact ⟨trivial, ih, ih'⟩
  | pref _ hk _ _ _ _ ih => exact ⟨ih, plain _ _ (by simp [BUnit.obj, hk, UnitCfg.kind, UKind.isInit])⟩
  | upref _ hk => exact ⟨⟨trivial, trivial⟩, plain _ _ (by simp [BUnit.obj, hk, UnitCfg.kind, UKind.isInit])⟩
  | suff _ hk => exact ⟨⟨trivial, trivial⟩, plain _ _ (by simp [BUnit.obj, hk, UnitCfg.kind, UKind.isInit])⟩

/-! ### The default analyzers -/

/-- The tags given by the units of both default analyzers. -/
def commonOwnTags : List Tag :=
  [⟨c!"UNKN"⟩, ⟨c!"PNCT"⟩, ⟨c!"LATN"⟩, ⟨c!"ROMN"⟩, ⟨c!"NUMB,intg"⟩, ⟨c!"NUMB,real"⟩] ++ twelve firstNameTag ++ twelve patronymicTag
/-- Russian: `ADVB` (по-хорошему) as well. -/
def ruOwnTags : List Tag := ⟨c!"ADVB"⟩ :: commonOwnTags

/-- What the default units give. -/
def UnitSpec.GivesIn (T : List Tag) (sp : UnitSpec S) : Prop := ∀ t ∈ sp.bound.givenTags, t ∈ T

theorem given_firstName (letters : List Str) (s : S) : UnitSpec.GivesIn commonOwnTags (.firstName letters firstNamePattern s) := by
  unfold UnitSpec.GivesIn
  rw [firstName_bound]
  intro t ht
  simp only [commonOwnTags, List.mem_append]
  exact .inl (.inr ht)

theorem given_patronymic (letters : List Str) (s : S) : UnitSpec.GivesIn commonOwnTags (.patronymic letters patronymicPattern s) := by
  unfold UnitSpec.GivesIn
  rw [patronymic_bound]
  intro t ht
  simp only [commonOwnTags, List.mem_append]
  exact .inr ht

theorem given_default (m : Morph S) {items : List (List (UnitSpec S))} {cls : TagCls} (hm : mkMorph m.env m.dict cls m.sub items m.est = .ok m)
    (T : List Tag) (h : ∀ g ∈ items, ∀ sp ∈ g, sp.GivesIn T) : ∀ u ∈ m.units, ∀ t ∈ u.1.cfg.givenTags, t ∈ T := by
  rintro ⟨u, f⟩ hu t ht
  obtain ⟨_, _, _, _, hgr⟩ := mkMorph_units hm
  obtain ⟨g, hg, hug⟩ := (mem_of_isGroups hgr u).1 ⟨f, hu⟩
  obtain ⟨g', hg', sp, hsp, he⟩ := mem_boundGroups _ _ g hg u hug
  dsimp only at ht
  rw [he] at ht
  exact h g' hg' sp hsp t ht

theorem GivesIn.mono {T T' : List Tag} {sp : UnitSpec S} (h : sp.GivesIn T) (hs : T ⊆ T') : sp.GivesIn T' := fun t ht => hs (h t ht)

theorem given_uk (m : Morph S) (hm : IsUk m) : ∀ u ∈ m.units, ∀ t ∈ u.1.cfg.givenTags, t ∈ commonOwnTags := by
  obtain ⟨cls, hm⟩ := hm
  refine given_default m hm _ ?_
  simp only [ukUnits, List.forall_mem_cons]
  refine ⟨⟨?_, given_firstName _ _, given_patronymic _ _, ?_, ?_, ?_⟩, ?_⟩
  all_goals simp [UnitSpec.GivesIn, UnitSpec.bound, UnitCfg.givenTags, UnitCfg.ownTags, commonOwnTags]

theorem given_ru (m : Morph S) (hm : IsRu m) : ∀ u ∈ m.units, ∀ t ∈ u.1.cfg.givenTags, t ∈ ruOwnTags := by
  obtain ⟨cls, hm⟩ := hm
  refine given_default m hm _ ?_
  have hs : commonOwnTags ⊆ ruOwnTags := List.subset_cons_self _ _
  simp only [ruUnits, List.forall_mem_cons]
  refine ⟨⟨?_, GivesIn.mono (given_firstName _ _) hs, GivesIn.mono (given_patronymic _ _) hs, ?_⟩, ?_⟩
  all_goals simp [UnitSpec.GivesIn, UnitSpec.bound, UnitCfg.givenTags, UnitCfg.ownTags, commonOwnTags, ruOwnTags]

/-- In a default analyzer no analysis has an absurdly large tag. -/
theorem default_small (m : Morph S) (hm : IsRu m ∨ IsUk m) (hsm : m.SmallTags) {wl w nf : Str} {tag : Tag} {st : Stack} (h : Deriv m wl w tag nf st) :
    tag.grammemes.card < 500000 := by
  rcases deriv_tag h with h | ⟨u, hu, ht⟩
  · exact hsm _ h
  · have hs : commonOwnTags ⊆ ruOwnTags := List.subset_cons_self _ _
    have : tag ∈ ruOwnTags := hm.elim (fun hm => given_ru m hm u hu tag ht) fun hm => hs (given_uk m hm u hu tag ht)
    have key : ∀ t ∈ ruOwnTags, t.grammemes.card < 500000 := by decide +kernel
    exact key _ this

end Verif
