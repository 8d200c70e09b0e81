/-
Lemmas about lexemes.
-/
import Verif.Lemmas.Total
import Verif.Lemmas.Deriv
import Verif.Model.Inflect
import Verif.Spec.Stacks

set_option linter.unusedSectionVars false

namespace Verif

variable {S : Type} [Score S]

/-! ### Dictionary lexemes -/

theorem sliceMid_build (pre stem suf : Str) : sliceMid (pre ++ stem ++ suf) pre.length suf.length = stem := by
  unfold sliceMid
  rw [show (pre ++ stem ++ suf).length - suf.length = (pre ++ stem).length by simp only [List.length_append]; omega,
    List.take_left, List.drop_left]

theorem stem_rebuild (d : Dict) (p : List Nat) (idx : Nat) (pre suf stem : Str) (h1 : d.formPrefix p idx = .ok pre)
    (h2 : d.formSuffix p idx = .ok suf) : d.stem p idx (pre ++ stem ++ suf) = .ok stem := by
  unfold Dict.stem
  rw [h1, ok_bind, h2, ok_bind]
  split
  · next h => subst h; simp
  · rw [sliceMid_build]; rfl

/-- The forms of a dictionary lexeme around a stem. -/
structure DictForms (d : Dict) (u : UObj) (para : Nat) (pl : List Nat) (stem n : Str) (fs : List (Parse S)) : Prop where
  len : fs.length = pl.length / 3
  form : ∀ i, i < pl.length / 3 → ∃ pre tag suf, d.IsForm para i pl pre tag suf ∧
    fs[i]? = some ⟨pre ++ stem ++ suf, tag, n, Score.one, .single (.dict u (pre ++ stem ++ suf) para i)⟩

theorem paradigmInfo_ok (d : Dict) (hd : d.WF) (para : Nat) (pl : List Nat) (hp : d.paradigms[para]? = some pl) :
    ∃ rows, d.paradigmInfo para = .ok rows ∧ rows.length = pl.length / 3 ∧
      ∀ i, i < pl.length / 3 → ∃ pre tag suf, d.IsForm para i pl pre tag suf ∧ rows[i]? = some (pre, tag, suf) := by
  unfold Dict.paradigmInfo
  rw [(pyGet_ok_iff _ _ _).2 hp, ok_bind]
  have hrow : ∀ i, i < pl.length / 3 → ∃ pre tag suf, d.IsForm para i pl pre tag suf ∧
      d.paradigmRow para pl i = .ok (pre, tag, suf) := by
    intro i hi
    obtain ⟨pre, tag, suf, hf⟩ := hd.rows para pl hp i hi
    refine ⟨pre, tag, suf, hf, ?_⟩
    unfold Dict.paradigmRow
    rw [hf.hpre, ok_bind, hf.hsuf, ok_bind, hf.htag, ok_bind]; rfl
  obtain ⟨rows, hrows⟩ := mapE_total (d.paradigmRow para pl) (List.range (pl.length / 3)) (by
    intro i hi
    obtain ⟨pre, tag, suf, _, h⟩ := hrow i (by simpa using hi)
    exact ⟨_, h⟩)
  refine ⟨rows, hrows, by rw [mapE_length hrows]; simp, ?_⟩
  intro i hi
  obtain ⟨pre, tag, suf, hf, h⟩ := hrow i hi
  refine ⟨pre, tag, suf, hf, ?_⟩
  have h2 := (mapE_ok_iff _ _ _).1 hrows
  have hlen : rows.length = pl.length / 3 := by rw [mapE_length hrows]; simp
  have hi' : i < rows.length := by omega
  have := h2.get (i := i) (by simpa using hi) hi'
  simp only [List.get_eq_getElem, List.getElem_range] at this
  rw [h] at this
  rw [List.getElem?_eq_getElem hi']
  simpa using this.symm

/-- The lexeme of a dictionary method depends only on the unit, the paradigm, the stem and the normal form. -/
theorem dictForms_exist (d : Dict) (hd : d.WF) (u : UObj) (para : Nat) (pl : List Nat) (hp : d.paradigms[para]? = some pl)
    (stem n : Str) : ∃ fs : List (Parse S), DictForms d u para pl stem n fs ∧
      ∀ v idx w t s x, d.stem pl idx w = .ok stem →
        dictLexeme d u (.single (.dict u v para idx)) ⟨w, t, n, s, x⟩ = .ok fs := by
  obtain ⟨rows, hrows, hlen, hr⟩ := paradigmInfo_ok d hd para pl hp
  refine ⟨rows.mapIdx (lexForm u (.single (.dict u [] para 0)) para stem n), ⟨by simpa using hlen, ?_⟩, ?_⟩
  · intro i hi
    obtain ⟨pre, tag, suf, hf, h⟩ := hr i hi
    refine ⟨pre, tag, suf, hf, ?_⟩
    rw [List.getElem?_mapIdx, h]; rfl
  · intro v idx w t s x hs
    unfold dictLexeme
    simp only [extractParaInfo, Stack.first, Stack.single, if_true, ok_bind, (pyGet_ok_iff _ _ _).2 hp, hs, hrows]
    rfl

theorem DictForms.mem {d : Dict} {u : UObj} {para : Nat} {pl : List Nat} {stem n : Str} {fs : List (Parse S)}
    (h : DictForms d u para pl stem n fs) {f : Parse S} (hf : f ∈ fs) : ∃ i pre tag suf, d.IsForm para i pl pre tag suf ∧
      fs[i]? = some f ∧
      f = ⟨pre ++ stem ++ suf, tag, n, Score.one, .single (.dict u (pre ++ stem ++ suf) para i)⟩ := by
  obtain ⟨i, hi, rfl⟩ := List.mem_iff_getElem.1 hf
  obtain ⟨pre, tag, suf, h1, h2⟩ := h.form i (by rw [← h.len]; exact hi)
  rw [List.getElem?_eq_getElem hi] at h2
  exact ⟨i, pre, tag, suf, h1, List.getElem?_eq_getElem hi, by simpa using h2⟩

/-! ### Two kinds of lexemes of hyphen-free analyses -/

/-- The lexeme does not depend on tag and score, and is the same from each of its forms. -/
def DictBased (m : Morph S) (st : Stack) (w n : Str) : Prop :=
  ∃ fs : List (Parse S), fs ≠ [] ∧ (∀ t s x, lexemeOf m st ⟨w, t, n, s, x⟩ = .ok fs) ∧
    ∀ f ∈ fs, f.nf = n ∧ '-' ∉ f.word ∧ ∀ t s x, lexemeOf m f.stack ⟨f.word, t, n, s, x⟩ = .ok fs

/-- The lexeme is the form itself. -/
def PlainBased (m : Morph S) (st : Stack) (w n : Str) : Prop :=
  ∀ (t : Tag) (s : S) (x : Stack), lexemeOf m st ⟨w, t, n, s, x⟩ = .ok [⟨w, t, n, s, st⟩]

theorem stack_ne_nil (m : Morph S) {st : Stack} {p : Parse S} {fs : List (Parse S)} (h : lexemeOf m st p = .ok fs) : st ≠ .nil := by
  rintro rfl
  simp [lexemeOf] at h

theorem lexeme_pref (m : Morph S) (st : Stack) (hst : st ≠ .nil) (u : UObj) (hu : u.kind = .pref) (pre w n : Str) (t : Tag) (s : S) (x : Stack) :
    lexemeOf m (.push st (.simple u pre)) ⟨pre ++ w, t, pre ++ n, s, x⟩ =
      (lexemeOf m st ⟨w, t, n, s, x⟩).map fun fs => fs.map fun f => (f.withPrefix pre).appendMethod (.simple u pre) := by
  simp only [lexemeOf, hu, if_neg hst, Parse.withoutPrefix, List.drop_left]
  cases lexemeOf m st ⟨w, t, n, s, x⟩ <;> rfl

theorem lexeme_suff (m : Morph S) (st : Stack) (hst : st ≠ .nil) (u : UObj) (hu : u.kind = .suff) (arg : Str) (p : Parse S) :
    lexemeOf m (.push st (.simple u arg)) p =
      (lexemeOf m st p).map fun fs => fs.map fun f => f.appendMethod (.simple u arg) := by
  simp only [lexemeOf, hu, if_neg hst]
  cases lexemeOf m st p <;> rfl

theorem dropRight_append (w part : Str) (h : part ≠ []) : dropRight (w ++ part) part.length = w := by
  unfold dropRight
  rw [if_neg (by simpa using h)]
  simp

theorem lexeme_particle (m : Morph S) (st : Stack) (hst : st ≠ .nil) (u : UObj) (hu : u.kind = .particle) (part w n : Str)
    (hp : part ≠ []) (t : Tag) (s : S) (x : Stack) :
    lexemeOf m (.push st (.simple u part)) ⟨w ++ part, t, n ++ part, s, x⟩ =
      (lexemeOf m st ⟨w, t, n, s, x⟩).map fun fs => fs.map fun f => (f.withSuffix part).appendMethod (.simple u part) := by
  simp only [lexemeOf, hu, if_neg hst, Parse.withoutSuffix, dropRight_append _ _ hp]
  cases lexemeOf m st ⟨w, t, n, s, x⟩ <;> rfl

theorem lexeme_fixed (m : Morph S) (st : Stack) (u : UObj) (left w n : Str) (t : Tag) (s : S) (x : Stack) :
    lexemeOf m (.single (.fixed u left st)) ⟨left ++ '-' :: w, t, left ++ '-' :: n, s, x⟩ =
      (lexemeOf m st ⟨w, t, n, s, x⟩).map fun fs => fs.map fun f =>
        { f.withPrefix (left ++ ['-']) with stack := .single (.fixed u left f.stack) } := by
  have e : ∀ y : Str, (left ++ '-' :: y).drop (left.length + 1) = y := by
    intro y
    rw [show left ++ '-' :: y = (left ++ ['-']) ++ y by simp, show left.length + 1 = (left ++ ['-']).length by simp]
    exact List.drop_left
  simp only [lexemeOf, Stack.single, ne_eq, not_true_eq_false, if_false, Parse.withoutPrefix, e]
  cases lexemeOf m st ⟨w, t, n, s, x⟩ <;> rfl

theorem DictBased.pref {m : Morph S} {st : Stack} {w n : Str} (h : DictBased m st w n) {u : UObj} (hu : u.kind = .pref)
    {pre : Str} (hpre : '-' ∉ pre) : DictBased m (.push st (.simple u pre)) (pre ++ w) (pre ++ n) := by
  obtain ⟨fs, hne, h1, h2⟩ := h
  refine ⟨fs.map fun f => (f.withPrefix pre).appendMethod (.simple u pre), by simpa using hne, ?_, ?_⟩
  · intro t s x
    rw [lexeme_pref m st (stack_ne_nil m (h1 t s x)) u hu, h1]; rfl
  · intro f hf
    obtain ⟨g, hg, rfl⟩ := List.mem_map.1 hf
    obtain ⟨e1, e2, e3⟩ := h2 g hg
    refine ⟨by simp [Parse.withPrefix, Parse.appendMethod, e1], ?_, ?_⟩
    · simp [Parse.withPrefix, Parse.appendMethod, e2, hpre]
    · intro t s x
      show lexemeOf m (.push g.stack (.simple u pre)) ⟨pre ++ g.word, t, pre ++ n, s, x⟩ = _
      rw [lexeme_pref m g.stack (stack_ne_nil m (e3 t s x)) u hu, e3]; rfl

theorem PlainBased.pref {m : Morph S} {st : Stack} {w n : Str} (h : PlainBased m st w n) {u : UObj} (hu : u.kind = .pref)
    {pre : Str} : PlainBased m (.push st (.simple u pre)) (pre ++ w) (pre ++ n) := by
  intro t s x
  rw [lexeme_pref m st (stack_ne_nil m (h t s x)) u hu, h t s x]; rfl

theorem DictBased.particle {m : Morph S} {st : Stack} {w n : Str} (h : DictBased m st w n) {u : UObj} (hu : u.kind = .particle)
    {part : Str} (hp : part ≠ []) (hpre : '-' ∉ part) : DictBased m (.push st (.simple u part)) (w ++ part) (n ++ part) := by
  obtain ⟨fs, hne, h1, h2⟩ := h
  refine ⟨fs.map fun f => (f.withSuffix part).appendMethod (.simple u part), by simpa using hne, ?_, ?_⟩
  · intro t s x
    rw [lexeme_particle m st (stack_ne_nil m (h1 t s x)) u hu _ _ _ hp, h1]; rfl
  · intro f hf
    obtain ⟨g, hg, rfl⟩ := List.mem_map.1 hf
    obtain ⟨e1, e2, e3⟩ := h2 g hg
    refine ⟨by simp [Parse.withSuffix, Parse.appendMethod, e1], ?_, ?_⟩
    · simp [Parse.withSuffix, Parse.appendMethod, e2, hpre]
    · intro t s x
      show lexemeOf m (.push g.stack (.simple u part)) ⟨g.word ++ part, t, n ++ part, s, x⟩ = _
      rw [lexeme_particle m g.stack (stack_ne_nil m (e3 t s x)) u hu _ _ _ hp, e3]; rfl

theorem PlainBased.particle {m : Morph S} {st : Stack} {w n : Str} (h : PlainBased m st w n) {u : UObj} (hu : u.kind = .particle)
    {part : Str} (hp : part ≠ []) : PlainBased m (.push st (.simple u part)) (w ++ part) (n ++ part) := by
  intro t s x
  rw [lexeme_particle m st (stack_ne_nil m (h t s x)) u hu _ _ _ hp, h t s x]; rfl

theorem DictBased.suff {m : Morph S} {st : Stack} {w n : Str} (h : DictBased m st w n) {u : UObj} (hu : u.kind = .suff)
    {arg : Str} : DictBased m (.push st (.simple u arg)) w n := by
  obtain ⟨fs, hne, h1, h2⟩ := h
  refine ⟨fs.map fun f => f.appendMethod (.simple u arg), by simpa using hne, ?_, ?_⟩
  · intro t s x
    rw [lexeme_suff m st (stack_ne_nil m (h1 t s x)) u hu, h1]; rfl
  · intro f hf
    obtain ⟨g, hg, rfl⟩ := List.mem_map.1 hf
    obtain ⟨e1, e2, e3⟩ := h2 g hg
    refine ⟨e1, e2, ?_⟩
    · intro t s x
      show lexemeOf m (.push g.stack (.simple u arg)) ⟨g.word, t, n, s, x⟩ = _
      rw [lexeme_suff m g.stack (stack_ne_nil m (e3 t s x)) u hu, e3]; rfl

theorem lexeme_dict (m : Morph S) (u : UObj) (hu : u.kind = .dict) (v : Str) (para idx : Nat) (p : Parse S) :
    lexemeOf m (.single (.dict u v para idx)) p = dictLexeme m.dict u (.single (.dict u v para idx)) p := by
  simp only [lexemeOf, Stack.single, hu]

theorem stem_ok {d : Dict} {para idx : Nat} {pl : List Nat} {pre suf : Str} {tag : Tag} (hf : d.IsForm para idx pl pre tag suf)
    (w : Str) : ∃ stem, d.stem pl idx w = .ok stem ∧ stem <:+: w := by
  unfold Dict.stem
  rw [hf.hpre, ok_bind, hf.hsuf, ok_bind]
  refine ⟨_, rfl, ?_⟩
  split
  · exact (List.drop_suffix _ _).isInfix
  · exact (List.drop_suffix _ _).isInfix.trans (List.take_prefix _ _).isInfix

theorem not_mem_of_infix {c : Char} {a b : Str} (h : a <:+: b) (hb : c ∉ b) : c ∉ a := fun ha => hb (h.subset ha)

/-- The lexeme of a dictionary method is the same from each of its forms. -/
theorem dictBase (m : Morph S) (hd : m.dict.WF) (u : UObj) (hu : u.kind = .dict) {para idx : Nat} {pl : List Nat}
    {pre suf : Str} {tag : Tag} (hf : m.dict.IsForm para idx pl pre tag suf) (v w n : Str) :
    ∃ (stem : Str) (fs : List (Parse S)), m.dict.stem pl idx w = .ok stem ∧ stem <:+: w ∧
      DictForms m.dict u para pl stem n fs ∧ fs ≠ [] ∧
      (∀ t s x, lexemeOf m (.single (.dict u v para idx)) ⟨w, t, n, s, x⟩ = .ok fs) ∧
      ∀ f ∈ fs, f.nf = n ∧ ∀ t s x, lexemeOf m f.stack ⟨f.word, t, n, s, x⟩ = .ok fs := by
  obtain ⟨stem, h1, h2⟩ := stem_ok hf w
  obtain ⟨fs, h3, h4⟩ := dictForms_exist (S := S) m.dict hd u para pl hf.hpara stem n
  refine ⟨stem, fs, h1, h2, h3, ?_, ?_, ?_⟩
  · intro e
    have := h3.len
    rw [e] at this
    have := hf.hidx
    simp at *
    omega
  · intro t s x
    rw [lexeme_dict m u hu]; exact h4 _ _ _ _ _ _ h1
  · intro f hfm
    obtain ⟨i, pre', tag', suf', hf', _, rfl⟩ := h3.mem hfm
    refine ⟨rfl, fun t s x => ?_⟩
    dsimp only
    rw [lexeme_dict m u hu]
    exact h4 _ _ _ _ _ _ (stem_rebuild _ _ _ _ _ _ hf'.hpre hf'.hsuf)

theorem dictBased (m : Morph S) (hd : m.dict.WF) (hh : m.dict.HyphenUniform) (u : UObj) (hu : u.kind = .dict) {para idx : Nat} {pl : List Nat}
    {pre suf : Str} {tag : Tag} (hf : m.dict.IsForm para idx pl pre tag suf) (v w n : Str) (hpre : '-' ∉ pre) (hsuf : '-' ∉ suf)
    (hw : '-' ∉ w) : DictBased m (.single (.dict u v para idx)) w n := by
  obtain ⟨stem, fs, _, h2, h3, h4, h5, h6⟩ := dictBase m hd u hu hf v w n
  refine ⟨fs, h4, h5, fun f hfm => ?_⟩
  obtain ⟨e1, e2⟩ := h6 f hfm
  refine ⟨e1, ?_, e2⟩
  obtain ⟨i, pre', tag', suf', hf', _, rfl⟩ := h3.mem hfm
  obtain ⟨a1, a2⟩ := hh _ _ _ _ _ _ _ _ _ _ hf hf' hpre hsuf
  simp [a1, a2, not_mem_of_infix h2 hw]

theorem nf_no_hyphen {d : Dict} (hd : d.WF) (hh : d.HyphenUniform) {para idx : Nat} {pl : List Nat}
    {pre suf : Str} {tag : Tag} (hf : d.IsForm para idx pl pre tag suf) {w nf : Str} (hpre : '-' ∉ pre) (hsuf : '-' ∉ suf)
    (hw : '-' ∉ w) (hnf : d.normalForm para idx w = .ok nf) : '-' ∉ nf := by
  unfold Dict.normalForm at hnf
  split at hnf
  · simp at hnf; subst hnf; exact hw
  · rw [(pyGet_ok_iff _ _ _).2 hf.hpara, ok_bind] at hnf
    obtain ⟨stem, h1, h2⟩ := stem_ok hf w
    obtain ⟨pre0, t0, suf0, hf0⟩ := hd.rows _ pl hf.hpara 0 (by have := hf.hidx; omega)
    rw [h1, ok_bind, hf0.hpre, ok_bind, hf0.hsuf, ok_bind] at hnf
    simp only [pure_eq_ok, Except.ok.injEq] at hnf
    obtain ⟨a1, a2⟩ := hh _ _ _ _ _ _ _ _ _ _ hf hf0 hpre hsuf
    subst hnf
    simp [a1, a2, not_mem_of_infix h2 hw]

theorem Spells.no_hyphen {sub : Subst} (hs : ∀ c, '-' ∉ sub c) {a b : Str} (h : Spells sub a b) (ha : '-' ∉ a) : '-' ∉ b := by
  unfold Spells at h
  induction h with
  | nil => exact ha
  | cons h1 _ ih =>
    simp only [List.mem_cons, not_or] at ha ⊢
    refine ⟨?_, ih ha.2⟩
    rintro rfl
    rcases h1 with h1 | h1
    · exact ha.1 h1
    · exact hs _ h1

/-- Analyses of hyphen-free words, without initials. -/
theorem deriv_based (m : Morph S) (hd : m.dict.WF) (hh : m.dict.HyphenUniform) (hs : ∀ c, '-' ∉ m.sub c)
    {wl w nf : Str} {tag : Tag} {st : Stack} (h : Deriv m wl w tag nf st) (hwl : '-' ∉ wl) (hn : st.noInit) :
    '-' ∉ w ∧ '-' ∉ nf ∧ (DictBased m st w nf ∨ PlainBased m st w nf) := by
  have word : ∀ {v : Str} {para idx : Nat} {nf : Str} (u : UObj), u.kind = .dict → '-' ∉ v → (v, (para, idx)) ∈ m.dict.words →
      m.dict.normalForm para idx v = .ok nf → '-' ∉ nf ∧ DictBased m (.single (.dict u v para idx)) v nf := by
    intro v para idx nf u hu hv hw hnf
    obtain ⟨p, pre, tag, suf, stem, hf, rfl⟩ := hd.words _ hw
    simp only [List.mem_append, not_or] at hv
    exact ⟨nf_no_hyphen hd hh hf hv.1.1 hv.2 (by simp [hv]) hnf, dictBased m hd hh u hu hf _ _ _ hv.1.1 hv.2 (by simp [hv])⟩
  induction h with
  | dict hsp hw hnf ht =>
    have hv := hsp.no_hyphen hs hwl
    obtain ⟨h1, h2⟩ := word ⟨_, .dict⟩ rfl hv hw hnf
    exact ⟨hv, h1, .inl h2⟩
  | @plain wl arg tag u hu hk harg =>
    refine ⟨hwl, hwl, .inr fun t s x => ?_⟩
    simp only [lexemeOf, Stack.single, BUnit.obj]
    generalize u.1.cfg.kind = k at hk
    cases k <;> simp [UKind.isPlain] at hk <;> rfl
  | @firstName wl arg tag u letters masc femn score hu hk hl ht harg =>
    exact absurd hn.2 (by simp [Method.noInit, BUnit.obj, hk, UnitCfg.kind, UKind.isInit])
  | @patronymic wl arg tag u letters tags score hu hk hl ht harg =>
    exact absurd hn.2 (by simp [Method.noInit, BUnit.obj, hk, UnitCfg.kind, UKind.isInit])
  | @particle rest part w nf tag st u parts mult hu hk hp hne hpne hd ih =>
    simp only [List.mem_append, not_or] at hwl
    obtain ⟨h1, h2, h3⟩ := ih hwl.1 hn.1
    have hk' : u.1.obj.kind = .particle := by simp [BUnit.obj, hk, UnitCfg.kind]
    refine ⟨by simp [h1, hwl], by simp [h2, hwl], ?_⟩
    rcases h3 with h3 | h3
    · exact .inl (h3.particle hk' hpne hwl.2)
    · exact .inr (h3.particle hk' hpne)
  | fixed => simp at hwl
  | both => simp at hwl
  | @pref pre rest w nf tag st u prefixes mult minRem hu hk hp hrem hprod hd ih =>
    simp only [List.mem_append, not_or] at hwl
    obtain ⟨h1, h2, h3⟩ := ih hwl.2 hn.1
    have hk' : u.1.obj.kind = .pref := by simp [BUnit.obj, hk, UnitCfg.kind]
    refine ⟨by simp [h1, hwl], by simp [h2, hwl], ?_⟩
    rcases h3 with h3 | h3
    · exact .inl (h3.pref hk' hwl.1)
    · exact .inr (h3.pref hk')
  | @upref pre rest v nf tag para idx u mult hu hk hne hlen hrem hprod hsp hw hnf ht =>
    simp only [List.mem_append, not_or] at hwl
    have hv := hsp.no_hyphen hs hwl.2
    obtain ⟨h1, h2⟩ := word u.1.inner rfl hv hw hnf
    have hk' : u.1.obj.kind = .pref := by simp [BUnit.obj, hk, UnitCfg.kind]
    exact ⟨by simp [hv, hwl], by simp [h1, hwl], .inl (h2.pref hk' hwl.1)⟩
  | @suff wl start en e nf tag para idx cnt k t pre u mult minLen hu hk hsplit hprod hsp ht hpre hpw he hnf htag =>
    have hwl' := hwl
    rw [hsplit] at hwl'
    simp only [List.mem_append, not_or] at hwl'
    have hev := hsp.no_hyphen hs hwl'.2
    have hw : '-' ∉ start ++ e := by simp [hwl', hev]
    obtain ⟨_, p, pre', tag', suf, hf, hpre', hsuf⟩ := hd.pred k t ht _ he
    rw [hpre] at hpre'
    simp only [Option.some.injEq] at hpre'
    subst hpre'
    have a1 := not_mem_of_infix hpw.isInfix hwl
    have a2 := not_mem_of_infix hsuf.isInfix hev
    have hk' : u.1.obj.kind = .suff := by simp [BUnit.obj, hk, UnitCfg.kind]
    exact ⟨hw, nf_no_hyphen hd hh hf a1 a2 hw hnf, .inl ((dictBased m hd hh u.1.inner rfl hf _ _ _ a1 a2 hw).suff hk')⟩

end Verif
