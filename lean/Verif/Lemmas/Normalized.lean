/-
Lemmas about `normalized` and about membership of a form in its own lexeme.
-/
import Verif.Lemmas.Reprod

set_option linter.unusedSectionVars false

namespace Verif

variable {S : Type} [Score S]

/-- The form is in its own lexeme. -/
def Member (m : Morph S) (st : Stack) (w : Str) (t : Tag) (n : Str) : Prop :=
  ∀ s x fs, lexemeOf m st ⟨w, t, n, s, x⟩ = .ok fs → ∃ f ∈ fs, f.word = w ∧ f.tag = t ∧ f.nf = n ∧ f.stack = st

theorem Member.push {m : Morph S} {st : Stack} {w n : Str} {t : Tag} (h : Member m st w t n) (hst : st ≠ .nil) (x0 : Method)
    (dw : Str → Str) (g : Parse S → Parse S)
    (hstep : ∀ st' ≠ .nil, ∀ w' t' n' s x, lexemeOf m (.push st' x0) ⟨dw w', t', dw n', s, x⟩ =
      (lexemeOf m st' ⟨w', t', n', s, x⟩).map fun fs => fs.map g)
    (hg : ∀ f, g f = ⟨dw f.word, f.tag, dw f.nf, f.score, .push f.stack x0⟩) :
    Member m (.push st x0) (dw w) t (dw n) := by
  intro s x fs hfs
  rw [hstep st hst] at hfs
  cases h0 : lexemeOf m st ⟨w, t, n, s, x⟩ with
  | error e => rw [h0] at hfs; simp [Except.map] at hfs
  | ok fs0 =>
    rw [h0] at hfs
    simp only [Except.map, Except.ok.injEq] at hfs
    subst hfs
    obtain ⟨f, hf, e1, e2, e3, e4⟩ := h s x fs0 h0
    exact ⟨g f, List.mem_map.2 ⟨f, hf, rfl⟩, by simp [hg, e1], by simp [hg, e2], by simp [hg, e3], by simp [hg, e4]⟩

theorem member_dict (m : Morph S) (hd : m.dict.WF) (u : UObj) (hu : u.kind = .dict) {para idx : Nat} {pl : List Nat}
    {pre suf stem : Str} {tag : Tag} (hf : m.dict.IsForm para idx pl pre tag suf) (w : Str) (hw : w = pre ++ stem ++ suf) (n : Str) :
    Member m (.single (.dict u w para idx)) w tag n := by
  intro s x fs hfs
  obtain ⟨stem', fs0, h1, _, h3, _, h5, _⟩ := dictBase m hd u hu hf w w n
  rw [h5] at hfs
  simp only [Except.ok.injEq] at hfs
  subst hfs
  have : stem' = stem := by
    rw [hw, stem_rebuild _ _ _ _ _ _ hf.hpre hf.hsuf] at h1
    simpa using h1.symm
  subst this
  obtain ⟨pre', tag', suf', hf', he⟩ := h3.form idx hf.hidx
  have e1 : pre' = pre := by have := hf'.hpre; rw [hf.hpre] at this; simpa using this.symm
  have e2 : suf' = suf := by have := hf'.hsuf; rw [hf.hsuf] at this; simpa using this.symm
  have e3 : tag' = tag := by have := hf'.htag; rw [hf.htag] at this; simpa using this.symm
  subst e1 e2 e3
  exact ⟨_, List.mem_of_getElem? he, hw.symm, rfl, rfl, by rw [hw]⟩

/-- Every analysis that is not a compound with both parts inflected and that fits its paradigm is in its own lexeme. -/
theorem deriv_member (m : Morph S) (hd : m.dict.WF) (hga : m.GendersApart)
    {wl w nf : Str} {tag : Tag} {st : Stack} (h : Deriv m wl w tag nf st) (hn : st.noBoth) (hfit : st.fits m.dict) :
    Member m st w tag nf := by
  have dict : ∀ {v : Str} {para idx : Nat} {t : Tag} (u : UObj) (n : Str), u.kind = .dict → m.dict.tagInfo para idx = .ok t →
      (∃ p pre tag suf stem, m.dict.IsForm para idx p pre tag suf ∧ v = pre ++ stem ++ suf) →
      Member m (.single (.dict u v para idx)) v t n := by
    intro v para idx t u n hu ht ⟨p, pre, tag', suf, stem, hf, hv⟩
    have := hf.htag
    rw [ht] at this
    simp only [Except.ok.injEq] at this
    subst this
    exact member_dict m hd u hu hf v hv n
  induction h with
  | dict hsp hw hnf ht => exact dict _ _ rfl ht hfit.2
  | @plain wl arg tag u hu hk harg =>
    intro s x fs hfs
    have hp : lexemeOf m (.single (.simple u.1.obj arg)) ⟨wl, tag, wl, s, x⟩ = .ok [⟨wl, tag, wl, s, .single (.simple u.1.obj arg)⟩] := by
      simp only [lexemeOf, Stack.single, BUnit.obj]
      generalize u.1.cfg.kind = k at hk
      cases k <;> simp [UKind.isPlain] at hk <;> rfl
    rw [hp] at hfs
    simp only [Except.ok.injEq] at hfs
    subst hfs
    exact ⟨_, List.mem_singleton.2 rfl, rfl, rfl, rfl, rfl⟩
  | @firstName wl arg tag u letters masc femn score hu hk hl ht harg =>
    obtain ⟨g1, g2⟩ := hga u hu _ _ _ _ hk
    intro s x fs hfs
    simp only [lexemeOf, Stack.single, BUnit.obj, hk, UnitCfg.kind, bind_ok_iff, pure_eq_ok, Except.ok.injEq] at hfs
    obtain ⟨tags, ht', rfl⟩ := hfs
    have hmem : tag ∈ tags := by
      unfold genderTags at ht'
      rw [bind_ok_iff] at ht'
      obtain ⟨b, hb, h⟩ := ht'
      have hbt := contains_ok hb
      rcases List.mem_append.1 ht with ht | ht
      · have := g1 tag ht
        simp only [this, decide_true] at hbt
        subst hbt
        simp at h; subst h; exact ht
      · have := g2 tag ht
        simp only [this, decide_false] at hbt
        subst hbt
        simp at h; subst h; exact ht
    exact ⟨_, List.mem_map.2 ⟨tag, hmem, rfl⟩, rfl, rfl, rfl, by simp [BUnit.obj, hk, UnitCfg.kind, Stack.single]⟩
  | @patronymic wl arg tag u letters tags score hu hk hl ht harg =>
    intro s x fs hfs
    simp only [lexemeOf, Stack.single, BUnit.obj, hk, UnitCfg.kind, Except.ok.injEq] at hfs
    subst hfs
    exact ⟨_, List.mem_map.2 ⟨tag, ht, rfl⟩, rfl, rfl, rfl, by simp [BUnit.obj, hk, UnitCfg.kind, Stack.single]⟩
  | @particle rest part w nf tag st u parts mult hu hk hp hne hpne hd ih =>
    refine (ih hn.1 hfit.1).push hd.stack_ne _ (· ++ part) _ ?_ (fun f => rfl)
    intro st' hst' w' t' n' s x
    exact lexeme_particle m st' hst' _ (by simp [BUnit.obj, hk, UnitCfg.kind]) part w' n' hpne t' s x
  | @fixed left right w nf tag st u skip mult hu hk hl hr hl' hr' hskip hkn hd ih =>
    intro s x fs hfs
    rw [lexeme_fixed] at hfs
    cases h0 : lexemeOf m st ⟨w, tag, nf, s, x⟩ with
    | error e => rw [h0] at hfs; simp [Except.map] at hfs
    | ok fs0 =>
      rw [h0] at hfs
      simp only [Except.map, Except.ok.injEq] at hfs
      subst hfs
      obtain ⟨f, hf, e1, e2, e3, e4⟩ := ih hn.2 hfit.2 s x fs0 h0
      exact ⟨_, List.mem_map.2 ⟨f, hf, rfl⟩, by simp [Parse.withPrefix, e1], e2, by simp [Parse.withPrefix, e3], by simp [e4]⟩
  | both => exact hn.2.elim
  | @pref pre rest w nf tag st u prefixes mult minRem hu hk hp hrem hprod hd ih =>
    refine (ih hn.1 hfit.1).push hd.stack_ne _ (pre ++ ·) _ ?_ (fun f => rfl)
    intro st' hst' w' t' n' s x
    exact lexeme_pref m st' hst' _ (by simp [BUnit.obj, hk, UnitCfg.kind]) pre w' n' t' s x
  | @upref pre rest v nf tag para idx u mult hu hk hne hlen hrem hprod hsp hw hnf ht =>
    refine (dict u.1.inner nf rfl ht hfit.1.2).push (by simp [Stack.single]) _ (pre ++ ·) _ ?_ (fun f => rfl)
    intro st' hst' w' t' n' s x
    exact lexeme_pref m st' hst' _ (by simp [BUnit.obj, hk, UnitCfg.kind]) pre w' n' t' s x
  | @suff wl start en e nf tag para idx cnt k t pre u mult minLen hu hk hsplit hprod hsp ht hpre hpw he hnf htag =>
    refine (dict u.1.inner nf rfl htag hfit.1.2).push (by simp [Stack.single]) _ id _ ?_ (fun f => rfl)
    intro st' hst' w' t' n' s x
    exact lexeme_suff m st' hst' _ (by simp [BUnit.obj, hk, UnitCfg.kind]) e _

/-! ### normalized -/

/-- What `normalized` does, for a form whose lexeme can be computed. -/
def NormOK (m : Morph S) (st : Stack) (w : Str) (t : Tag) (n : Str) : Prop :=
  ∀ s x fs, lexemeOf m st ⟨w, t, n, s, x⟩ = .ok fs → ∃ q, normalizedOf m st ⟨w, t, n, s, x⟩ = .ok q ∧
    (st.fits m.dict → fs.head?.map Parse.core = some q.core) ∧ q.nf = n ∧
    (st.fits m.dict → st.noBoth → q.word = n) ∧
    ∃ q', (∀ y, normalizedOf m q.stack ⟨q.word, q.tag, q.nf, q.score, y⟩ = .ok q') ∧ q'.core = q.core ∧ (st.noBoth → q' = q)

theorem NormOK.push {m : Morph S} {st : Stack} {w n : Str} {t : Tag} (h : NormOK m st w t n) (hst : st ≠ .nil) (x0 : Method)
    (dw : Str → Str) (g : Parse S → Parse S)
    (hstep : ∀ st' ≠ .nil, ∀ w' t' n' s x, lexemeOf m (.push st' x0) ⟨dw w', t', dw n', s, x⟩ =
      (lexemeOf m st' ⟨w', t', n', s, x⟩).map fun fs => fs.map g)
    (hstep' : ∀ st' ≠ .nil, ∀ w' t' n' s x, normalizedOf m (.push st' x0) ⟨dw w', t', dw n', s, x⟩ =
      (normalizedOf m st' ⟨w', t', n', s, x⟩).map g)
    (hg : ∀ f, g f = ⟨dw f.word, f.tag, dw f.nf, f.score, .push f.stack x0⟩) :
    NormOK m (.push st x0) (dw w) t (dw n) := by
  intro s x fs hfs
  rw [hstep st hst] at hfs
  cases h0 : lexemeOf m st ⟨w, t, n, s, x⟩ with
  | error e => rw [h0] at hfs; simp [Except.map] at hfs
  | ok fs0 =>
    rw [h0] at hfs
    simp only [Except.map, Except.ok.injEq] at hfs
    subst hfs
    obtain ⟨q, e1, e2, e3, e4, q', e5, e6, e7⟩ := h s x fs0 h0
    have hq : q.stack ≠ .nil := by
      intro e
      have := e5 .nil
      rw [e] at this
      simp [normalizedOf] at this
    refine ⟨g q, by rw [hstep' st hst, e1]; rfl, ?_, by simp [hg, e3], fun h1 h2 => by simp [hg, e4 h1.1 h2.1], g q', ?_, ?_,
      fun h => by rw [e7 h.1]⟩
    · intro hfit
      have := e2 hfit.1
      cases fs0 with
      | nil => simp at this
      | cons f0 fs0 =>
        simp only [List.head?_cons, Option.map_some, Option.some.injEq, Parse.core, Prod.mk.injEq] at this
        simp [Parse.core, hg, this]
    · intro y
      rw [hg q]
      dsimp only
      rw [hstep' _ hq, e5]; rfl
    · simp only [Parse.core, Prod.mk.injEq] at e6
      simp [Parse.core, hg, e6]

theorem norm_pref (m : Morph S) (st : Stack) (hst : st ≠ .nil) (u : UObj) (hu : u.kind = .pref) (pre w n : Str) (t : Tag) (s : S) (x : Stack) :
    normalizedOf m (.push st (.simple u pre)) ⟨pre ++ w, t, pre ++ n, s, x⟩ =
      (normalizedOf m st ⟨w, t, n, s, x⟩).map fun f => (f.withPrefix pre).appendMethod (.simple u pre) := by
  simp only [normalizedOf, hu, if_neg hst, Parse.withoutPrefix, List.drop_left]
  cases normalizedOf m st ⟨w, t, n, s, x⟩ <;> rfl

theorem norm_suff (m : Morph S) (st : Stack) (hst : st ≠ .nil) (u : UObj) (hu : u.kind = .suff) (arg : Str) (p : Parse S) :
    normalizedOf m (.push st (.simple u arg)) p =
      (normalizedOf m st p).map fun f => f.appendMethod (.simple u arg) := by
  simp only [normalizedOf, hu, if_neg hst]
  cases normalizedOf m st p <;> rfl

theorem norm_particle (m : Morph S) (st : Stack) (hst : st ≠ .nil) (u : UObj) (hu : u.kind = .particle) (part w n : Str)
    (hp : part ≠ []) (t : Tag) (s : S) (x : Stack) :
    normalizedOf m (.push st (.simple u part)) ⟨w ++ part, t, n ++ part, s, x⟩ =
      (normalizedOf m st ⟨w, t, n, s, x⟩).map fun f => (f.withSuffix part).appendMethod (.simple u part) := by
  simp only [normalizedOf, hu, if_neg hst, Parse.withoutSuffix, dropRight_append _ _ hp]
  cases normalizedOf m st ⟨w, t, n, s, x⟩ <;> rfl

theorem normOK_dict (m : Morph S) (hd : m.dict.WF) (u : UObj) (hu : u.kind = .dict) {para idx : Nat} {pl : List Nat}
    {pre suf : Str} {tag : Tag} (hf : m.dict.IsForm para idx pl pre tag suf) (w n : Str) (hn : m.dict.normalForm para idx w = .ok n) :
    NormOK m (.single (.dict u w para idx)) w tag n := by
  intro s x fs hfs
  obtain ⟨stem, fs0, h1, _, h3, _, h5, _⟩ := dictBase m hd u hu hf w w n
  rw [h5] at hfs
  simp only [Except.ok.injEq] at hfs
  subst hfs
  obtain ⟨pre0, tag0, suf0, hf0, he⟩ := h3.form 0 (by have := hf.hidx; omega)
  have hhead : fs0.head? = some ⟨pre0 ++ stem ++ suf0, tag0, n, Score.one, .single (.dict u (pre0 ++ stem ++ suf0) para 0)⟩ := by
    rw [List.head?_eq_getElem?]; exact he
  have hnorm : ∀ (v : Str) (i : Nat) (p : Parse S), normalizedOf m (.single (.dict u v para i)) p =
      dictNormalized m.dict u (.single (.dict u v para i)) p := by
    intro v i p; simp only [normalizedOf, Stack.single, hu]
  have hx : ∀ (v : Str) (i : Nat), extractParaInfo u (.single (.dict u v para i)) = .ok (para, i) := by
    intro v i; simp [extractParaInfo, Stack.first, Stack.single]
  by_cases h0 : idx = 0
  · subst h0
    have hnw : n = w := by simpa [Dict.normalForm] using hn.symm
    subst hnw
    refine ⟨⟨n, tag, n, s, .single (.dict u n para 0)⟩, ?_, ?_, rfl, fun _ _ => rfl, _, fun y => ?_, rfl, fun _ => rfl⟩
    · rw [hnorm]; simp [dictNormalized, hx]
    · rintro ⟨-, p', pre', tag', suf', stem', hf', hw'⟩
      have ep : p' = pl := by have := hf'.hpara; rw [hf.hpara] at this; simpa using this.symm
      subst ep
      have e1 : pre' = pre0 := by have := hf'.hpre; rw [hf0.hpre] at this; simpa using this.symm
      have e2 : suf' = suf0 := by have := hf'.hsuf; rw [hf0.hsuf] at this; simpa using this.symm
      have e3 : tag = tag0 := by have := hf.htag; rw [hf0.htag] at this; simpa using this.symm
      subst e1 e2 e3
      rw [hw', stem_rebuild _ _ _ _ _ _ hf0.hpre hf0.hsuf] at h1
      have e4 : stem' = stem := by simpa using h1
      subst e4
      rw [hhead, ← hw']; rfl
    · dsimp only; rw [hnorm]; simp [dictNormalized, hx]
  · have hnw : n = pre0 ++ stem ++ suf0 := by
      unfold Dict.normalForm at hn
      rw [if_neg h0, (pyGet_ok_iff _ _ _).2 hf.hpara, ok_bind, h1, ok_bind, hf0.hpre, ok_bind, hf0.hsuf, ok_bind] at hn
      simpa using hn.symm
    refine ⟨⟨n, tag0, n, Score.one, .single (.dict u n para 0)⟩, ?_, ?_, rfl, fun _ _ => rfl, _, fun y => ?_, rfl, fun _ => rfl⟩
    · rw [hnorm]; unfold dictNormalized; rw [hx, ok_bind]; simp only [h0, if_false, hf0.htag, ok_bind]; rfl
    · intro _; rw [hhead, hnw]; rfl
    · dsimp only; rw [hnorm]; simp [dictNormalized, hx]

theorem normOK_plain (m : Morph S) (u : UObj) (hu : u.kind.isPlain = true) (arg w : Str) (t : Tag) :
    NormOK m (.single (.simple u arg)) w t w := by
  have hl : ∀ (t : Tag) (s : S) (x : Stack), lexemeOf m (.single (.simple u arg)) ⟨w, t, w, s, x⟩ = .ok [⟨w, t, w, s, .single (.simple u arg)⟩] ∧
      normalizedOf m (.single (.simple u arg)) ⟨w, t, w, s, x⟩ = .ok ⟨w, t, w, s, .single (.simple u arg)⟩ := by
    intro t s x
    simp only [lexemeOf, normalizedOf, Stack.single]
    generalize u.kind = k at hu
    cases k <;> simp [UKind.isPlain] at hu <;> exact ⟨rfl, rfl⟩
  intro s x fs hfs
  rw [(hl t s x).1] at hfs
  simp only [Except.ok.injEq] at hfs
  subst hfs
  exact ⟨_, (hl t s x).2, fun _ => rfl, rfl, fun _ _ => rfl, _, fun y => (hl t s y).2, rfl, fun _ => rfl⟩

/-- `normalized` of a compound is the first form of its lexeme. -/
theorem norm_compound (m : Morph S) (st : Stack) (hst : (∃ u left r, st = .single (.fixed u left r)) ∨ ∃ u l r, st = .single (.both u l r))
    (p : Parse S) (fs : List (Parse S)) (hne : fs ≠ []) (h : lexemeOf m st p = .ok fs) : normalizedOf m st p = pyNext fs := by
  rcases hst with ⟨u, left, r, rfl⟩ | ⟨u, l, r, rfl⟩
  · simp only [Stack.single, normalizedOf] at *
    rw [h]; rfl
  · simp only [Stack.single, normalizedOf, lexemeOf, ne_eq, not_true_eq_false, if_false, bind_ok_iff] at *
    obtain ⟨lf, h1, rf, h2, ls, h3, rs, h4, h5⟩ := h
    rw [h1, ok_bind, h2, ok_bind, h3, ok_bind, h4, ok_bind]
    cases rs with
    | nil => simp [mapE] at h5; subst h5; simp at hne
    | cons r rs =>
      simp only [mapE, bind_ok_iff, pure_eq_ok, Except.ok.injEq] at h5
      obtain ⟨f, hf, fs', _, rfl⟩ := h5
      simp [pyNext, hf]

theorem normOK_compound {m : Morph S} {st : Stack} (hst : (∃ u left r, st = .single (.fixed u left r)) ∨ ∃ u l r, st = .single (.both u l r))
    {w n : Str} {t : Tag} (hr : Reprod m st w t n) (hne : ∀ s x fs, lexemeOf m st ⟨w, t, n, s, x⟩ = .ok fs → fs ≠ [])
    (hstk : ∀ s x fs, lexemeOf m st ⟨w, t, n, s, x⟩ = .ok fs → ∀ f ∈ fs,
      (∃ u left r, f.stack = .single (.fixed u left r)) ∨ ∃ u l r, f.stack = .single (.both u l r))
    (hword : ∀ s x fs, lexemeOf m st ⟨w, t, n, s, x⟩ = .ok fs → st.fits m.dict → st.noBoth → ∀ f ∈ fs.head?, f.word = n) :
    NormOK m st w t n := by
  intro s x fs hfs
  have hne' := hne s x fs hfs
  obtain ⟨q, qs, rfl⟩ := List.exists_cons_of_ne_nil hne'
  obtain ⟨e1, fs', e2, e3, e4⟩ := hr s x _ hfs q (by simp)
  cases fs' with
  | nil => simp at e3
  | cons q' qs' =>
    refine ⟨q, norm_compound m st hst _ _ hne' hfs, fun _ => rfl, e1, fun h1 h2 => hword s x _ hfs h1 h2 q (by simp), q', ?_, ?_, ?_⟩
    · intro y
      exact norm_compound m q.stack (hstk s x _ hfs q (by simp)) _ _ (by simp) (e2 y)
    · simp only [List.map_cons, List.cons.injEq] at e3; exact e3.1
    · intro h
      have := e4 h
      simp only [List.cons.injEq] at this
      exact this.1

/-- The lexeme of an analysis is not empty, and its first form spells the normal form (when it fits). -/
theorem deriv_first (m : Morph S) (hd : m.dict.WF) {wl w nf : Str} {tag : Tag} {st : Stack} (h : Deriv m wl w tag nf st)
    (hn : st.noBoth) (hfit : st.fits m.dict) : ∀ s x fs, lexemeOf m st ⟨w, tag, nf, s, x⟩ = .ok fs →
      ∀ f ∈ fs.head?, f.word = nf := by
  have push : ∀ {st : Stack} {w n : Str} {t : Tag} (x0 : Method) (dw : Str → Str) (g : Parse S → Parse S),
      (∀ s x fs, lexemeOf m st ⟨w, t, n, s, x⟩ = .ok fs → ∀ f ∈ fs.head?, f.word = n) →
      (∀ s x, lexemeOf m (.push st x0) ⟨dw w, t, dw n, s, x⟩ =
        (lexemeOf m st ⟨w, t, n, s, x⟩).map fun fs => fs.map g) → (∀ f, (g f).word = dw f.word) →
      ∀ s x fs, lexemeOf m (.push st x0) ⟨dw w, t, dw n, s, x⟩ = .ok fs → ∀ f ∈ fs.head?, f.word = dw n := by
    intro st w n t x0 dw g ih hstep hg s x fs hfs f hf
    rw [hstep] at hfs
    cases h0 : lexemeOf m st ⟨w, t, n, s, x⟩ with
    | error e => rw [h0] at hfs; simp [Except.map] at hfs
    | ok fs0 =>
      rw [h0] at hfs
      simp only [Except.map, Except.ok.injEq] at hfs
      subst hfs
      rw [List.head?_map] at hf
      simp only [Option.mem_def, Option.map_eq_some_iff] at hf
      obtain ⟨f0, hf0, rfl⟩ := hf
      rw [hg, ih s x fs0 h0 f0 hf0]
  have dict : ∀ {v : Str} {para idx : Nat} {t : Tag} {n : Str} (u : UObj), u.kind = .dict → m.dict.tagInfo para idx = .ok t →
      m.dict.normalForm para idx v = .ok n →
      (∃ p pre tag suf stem, m.dict.IsForm para idx p pre tag suf ∧ v = pre ++ stem ++ suf) →
      ∀ s x fs, lexemeOf m (.single (.dict u v para idx)) ⟨v, t, n, s, x⟩ = .ok fs → ∀ f ∈ fs.head?, f.word = n := by
    intro v para idx t n u hu ht hn ⟨p, pre, tag', suf, stem, hf, hv⟩ s x fs hfs f hfm
    have := hf.htag
    rw [ht] at this
    simp only [Except.ok.injEq] at this
    subst this
    obtain ⟨q, _, h2, _, h4, _⟩ := normOK_dict m hd u hu hf v n hn s x fs hfs
    have hfit : (Stack.single (.dict u v para idx)).fits m.dict := ⟨trivial, p, pre, _, suf, stem, hf, hv⟩
    have e := h2 hfit
    have e' := h4 hfit ⟨trivial, trivial⟩
    rw [Option.mem_def.1 hfm] at e
    simp only [Option.map_some, Option.some.injEq, Parse.core, Prod.mk.injEq] at e
    rw [e.1, e']
  induction h with
  | dict hsp hw hnf ht => exact dict _ rfl ht hnf hfit.2
  | @plain wl arg tag u hu hk harg =>
    intro s x fs hfs f hf
    obtain ⟨q, _, h2, _, h4, _⟩ := normOK_plain m u.1.obj hk arg wl tag s x fs hfs
    have e := h2 hfit
    have e' := h4 hfit hn
    rw [Option.mem_def.1 hf] at e
    simp only [Option.map_some, Option.some.injEq, Parse.core, Prod.mk.injEq] at e
    rw [e.1, e']
  | @firstName wl arg tag u letters masc femn score hu hk hl ht harg =>
    intro s x fs hfs f hf
    simp only [lexemeOf, Stack.single, BUnit.obj, hk, UnitCfg.kind, bind_ok_iff, pure_eq_ok, Except.ok.injEq] at hfs
    obtain ⟨tags, ht', rfl⟩ := hfs
    obtain ⟨t, _, rfl⟩ := List.mem_map.1 (List.mem_of_mem_head? hf)
    rfl
  | @patronymic wl arg tag u letters tags score hu hk hl ht harg =>
    intro s x fs hfs f hf
    simp only [lexemeOf, Stack.single, BUnit.obj, hk, UnitCfg.kind, Except.ok.injEq] at hfs
    subst hfs
    obtain ⟨t, _, rfl⟩ := List.mem_map.1 (List.mem_of_mem_head? hf)
    rfl
  | @particle rest part w nf tag st u parts mult hu hk hp hne hpne hd ih =>
    refine push _ (· ++ part) (fun f => (f.withSuffix part).appendMethod (.simple u.1.obj part)) (ih hn.1 hfit.1) ?_ (fun f => rfl)
    intro s x
    exact lexeme_particle m st hd.stack_ne _ (by simp [BUnit.obj, hk, UnitCfg.kind]) part w nf hpne tag s x
  | @fixed left right w nf tag st u skip mult hu hk hl hr hl' hr' hskip hkn hd ih =>
    intro s x fs hfs f hf
    rw [lexeme_fixed] at hfs
    cases h0 : lexemeOf m st ⟨w, tag, nf, s, x⟩ with
    | error e => rw [h0] at hfs; simp [Except.map] at hfs
    | ok fs0 =>
      rw [h0] at hfs
      simp only [Except.map, Except.ok.injEq] at hfs
      subst hfs
      rw [List.head?_map] at hf
      simp only [Option.mem_def, Option.map_eq_some_iff] at hf
      obtain ⟨f0, hf0, rfl⟩ := hf
      simp [Parse.withPrefix, ih hn.2 hfit.2 s x fs0 h0 f0 hf0]
  | both => exact hn.2.elim
  | @pref pre rest w nf tag st u prefixes mult minRem hu hk hp hrem hprod hd ih =>
    refine push _ (pre ++ ·) (fun f => (f.withPrefix pre).appendMethod (.simple u.1.obj pre)) (ih hn.1 hfit.1) ?_ (fun f => rfl)
    intro s x
    exact lexeme_pref m st hd.stack_ne _ (by simp [BUnit.obj, hk, UnitCfg.kind]) pre w nf tag s x
  | @upref pre rest v nf tag para idx u mult hu hk hne hlen hrem hprod hsp hw hnf ht =>
    refine push _ (pre ++ ·) (fun f => (f.withPrefix pre).appendMethod (.simple u.1.obj pre)) (dict u.1.inner rfl ht hnf hfit.1.2) ?_ (fun f => rfl)
    intro s x
    exact lexeme_pref m _ (by simp [Stack.single]) _ (by simp [BUnit.obj, hk, UnitCfg.kind]) pre v nf tag s x
  | @suff wl start en e nf tag para idx cnt k t pre u mult minLen hu hk hsplit hprod hsp ht hpre hpw he hnf htag =>
    refine push _ id (fun f => f.appendMethod (.simple u.1.obj e)) (dict u.1.inner rfl htag hnf hfit.1.2) ?_ (fun f => rfl)
    intro s x
    exact lexeme_suff m _ (by simp [Stack.single]) _ (by simp [BUnit.obj, hk, UnitCfg.kind]) e _

theorem map_ne_nil {α β : Type} {e : Except PyErr (List α)} (g : α → β) (h : e ≠ .ok []) :
    (e.map fun fs => fs.map g) ≠ .ok [] := by
  cases e with
  | error e => simp [Except.map]
  | ok fs => simpa [Except.map] using h

/-- The lexeme of an analysis is not empty. -/
theorem deriv_lexeme_ne (m : Morph S) (hd : m.dict.WF) (hga : m.GendersApart)
    {wl w nf : Str} {tag : Tag} {st : Stack} (h : Deriv m wl w tag nf st) (hn : BothCond m st) (s : S) (x : Stack) :
    lexemeOf m st ⟨w, tag, nf, s, x⟩ ≠ .ok [] := by
  have simple : ∀ {st : Stack} {w nf : Str} {tag : Tag}, Member m st w tag nf → lexemeOf m st ⟨w, tag, nf, s, x⟩ ≠ .ok [] := by
    intro st w nf tag h e
    obtain ⟨f, hf, _⟩ := h s x [] e
    simp at hf
  have dict : ∀ {v : Str} {para idx : Nat} {p : List Nat} {pre : Str} {t' : Tag} {suf : Str} (u : UObj) (t : Tag) (n : Str), u.kind = .dict →
      m.dict.IsForm para idx p pre t' suf →
      lexemeOf m (.single (.dict u v para idx)) ⟨v, t, n, s, x⟩ ≠ .ok [] := by
    intro v para idx p pre t' suf u t n hu hf e
    obtain ⟨stem', fs0, _, _, _, h4, h5, _⟩ := dictBase m hd u hu hf v v n
    rw [h5] at e
    simp only [Except.ok.injEq] at e
    exact h4 e
  have h0 := h
  induction h with
  | dict hsp hw hnf ht =>
    obtain ⟨p, pre, tag, suf, stem, hf, _⟩ := hd.words _ hw
    exact dict _ _ _ rfl hf
  | plain => exact simple (deriv_member m hd hga h0 ⟨trivial, trivial⟩ ⟨trivial, trivial⟩)
  | firstName => exact simple (deriv_member m hd hga h0 ⟨trivial, trivial⟩ ⟨trivial, trivial⟩)
  | patronymic => exact simple (deriv_member m hd hga h0 ⟨trivial, trivial⟩ ⟨trivial, trivial⟩)
  | @particle rest part w nf tag st u parts mult hu hk hp hne hpne hd' ih =>
    rw [lexeme_particle m st hd'.stack_ne _ (by simp [BUnit.obj, hk, UnitCfg.kind]) part w nf hpne tag s x]
    exact map_ne_nil _ (ih hn.push hd')
  | @fixed left right w nf tag st u skip mult hu hk hl hr hl' hr' hskip hkn hd' ih =>
    rw [lexeme_fixed]
    exact map_ne_nil _ (ih hn.fixed hd')
  | @both left right w nf w' nf' tag tag' st st' u skip mult hu hk hl hr hl' hr' hskip hkn hsim hd1 hd2 _ _ =>
    rcases hn with hn | ⟨hh, hs, hn⟩
    · exact hn.2.elim
    obtain ⟨a1, a2, a3⟩ := deriv_based m hd hh hs hd1 hl' hn.2.1
    obtain ⟨b1, b2, b3⟩ := deriv_based m hd hh hs hd2 hr' hn.2.2
    rw [lexeme_both m _ _ _ _ _ _ _ a1 a2]
    intro e
    rw [bind_ok_iff] at e
    obtain ⟨ls, h1, e⟩ := e
    rw [bind_ok_iff] at e
    obtain ⟨rs, h2, e⟩ := e
    have hl := mapE_length e
    simp at hl
    have : rs = [] := List.length_eq_zero_iff.1 hl.symm
    subst this
    rcases b3 with ⟨fs, b3, b4, _⟩ | b3
    · rw [b4] at h2
      simp at h2
      exact b3 h2
    · rw [b3] at h2; simp at h2
  | @pref pre rest w nf tag st u prefixes mult minRem hu hk hp hrem hprod hd' ih =>
    rw [lexeme_pref m st hd'.stack_ne _ (by simp [BUnit.obj, hk, UnitCfg.kind]) pre w nf tag s x]
    exact map_ne_nil _ (ih hn.push hd')
  | @upref pre rest v nf tag para idx u mult hu hk hne hlen hrem hprod hsp hw hnf ht =>
    obtain ⟨p, pre', tag', suf, stem, hf, _⟩ := hd.words _ hw
    rw [lexeme_pref m _ (by simp [Stack.single]) _ (by simp [BUnit.obj, hk, UnitCfg.kind]) pre v nf tag s x]
    exact map_ne_nil _ (dict _ _ _ rfl hf)
  | @suff wl start en e nf tag para idx cnt k t pre u mult minLen hu hk hsplit hprod hsp ht hpre hpw he hnf htag =>
    obtain ⟨_, p, pre', tag', suf, hf, _, _⟩ := hd.pred k t ht _ he
    rw [lexeme_suff m _ (by simp [Stack.single]) _ (by simp [BUnit.obj, hk, UnitCfg.kind]) e _]
    exact map_ne_nil _ (dict _ _ _ rfl hf)

/-- `normalized` of an analysis. -/
theorem deriv_normOK (m : Morph S) (hd : m.dict.WF) (hga : m.GendersApart)
    {wl w nf : Str} {tag : Tag} {st : Stack} (h : Deriv m wl w tag nf st) (hn : BothCond m st) : NormOK m st w tag nf := by
  have hr0 := deriv_reprod m hd hga h hn
  have hmem0 := h
  induction h with
  | dict hsp hw hnf ht =>
    obtain ⟨p, pre, tag, suf, stem, hf, _⟩ := hd.words _ hw
    have := hf.htag
    rw [ht] at this
    simp only [Except.ok.injEq] at this
    subst this
    exact normOK_dict m hd _ rfl hf _ _ hnf
  | @plain wl arg tag u hu hk harg => exact normOK_plain m _ hk _ _ _
  | @firstName wl arg tag u letters masc femn score hu hk hl ht harg =>
    obtain ⟨g1, g2⟩ := hga u hu _ _ _ _ hk
    intro s x fs hfs
    have hne := deriv_member m hd hga hmem0 ⟨trivial, trivial⟩ ⟨trivial, trivial⟩ s x fs hfs
    simp only [lexemeOf, Stack.single, BUnit.obj, hk, UnitCfg.kind, bind_ok_iff, pure_eq_ok, Except.ok.injEq] at hfs
    obtain ⟨tags, ht', rfl⟩ := hfs
    cases tags with
    | nil => simp at hne
    | cons t0 tags =>
      refine ⟨⟨wl, t0, wl, s, .single (.simple u.1.obj arg)⟩, ?_, fun _ => by simp [Parse.core, BUnit.obj, hk, UnitCfg.kind, Stack.single], rfl, fun _ _ => rfl, ?_⟩
      · simp [normalizedOf, Stack.single, BUnit.obj, hk, UnitCfg.kind, ht', pyGet]
      · refine ⟨_, fun y => ?_, rfl, fun _ => rfl⟩
        simp [normalizedOf, Stack.single, BUnit.obj, hk, UnitCfg.kind, genderTags_again _ _ _ g1 g2 _ _ ht' t0 (by simp), pyGet]
  | @patronymic wl arg tag u letters tags score hu hk hl ht harg =>
    intro s x fs hfs
    simp only [lexemeOf, Stack.single, BUnit.obj, hk, UnitCfg.kind, Except.ok.injEq] at hfs
    subst hfs
    cases tags with
    | nil => simp at ht
    | cons t0 tags =>
      refine ⟨⟨wl, t0, wl, s, .single (.simple u.1.obj arg)⟩, ?_, fun _ => by simp [Parse.core, BUnit.obj, hk, UnitCfg.kind, Stack.single], rfl, fun _ _ => rfl, ?_⟩
      · simp [normalizedOf, Stack.single, BUnit.obj, hk, UnitCfg.kind, pyGet]
      · refine ⟨_, fun y => ?_, rfl, fun _ => rfl⟩
        simp [normalizedOf, Stack.single, BUnit.obj, hk, UnitCfg.kind, pyGet]
  | @particle rest part w nf tag st u parts mult hu hk hp hne hpne hd' ih =>
    refine (ih hn.push (deriv_reprod m hd hga hd' hn.push) hd').push hd'.stack_ne _ (· ++ part)
      (fun f => (f.withSuffix part).appendMethod (.simple u.1.obj part)) ?_ ?_ (fun f => rfl)
    · intro st' hst' w' t' n' s x
      exact lexeme_particle m st' hst' _ (by simp [BUnit.obj, hk, UnitCfg.kind]) part w' n' hpne t' s x
    · intro st' hst' w' t' n' s x
      exact norm_particle m st' hst' _ (by simp [BUnit.obj, hk, UnitCfg.kind]) part w' n' hpne t' s x
  | @fixed left right w nf tag st u skip mult hu hk hl hr hl' hr' hskip hkn hd' ih =>
    refine normOK_compound (.inl ⟨_, _, _, rfl⟩) hr0 ?_ ?_ (fun s x fs h1 h2 h3 => deriv_first m hd hmem0 h3 h2 s x fs h1)
    · intro s x fs hfs
      rw [lexeme_fixed] at hfs
      cases h0 : lexemeOf m st ⟨w, tag, nf, s, x⟩ with
      | error e => rw [h0] at hfs; simp [Except.map] at hfs
      | ok fs0 =>
        rw [h0] at hfs
        simp only [Except.map, Except.ok.injEq] at hfs
        subst hfs
        intro e
        simp only [List.map_eq_nil_iff] at e
        subst e
        exact deriv_lexeme_ne m hd hga hd' hn.fixed _ _ h0
    · intro s x fs hfs f hf
      rw [lexeme_fixed] at hfs
      cases h0 : lexemeOf m st ⟨w, tag, nf, s, x⟩ with
      | error e => rw [h0] at hfs; simp [Except.map] at hfs
      | ok fs0 =>
        rw [h0] at hfs
        simp only [Except.map, Except.ok.injEq] at hfs
        subst hfs
        obtain ⟨f0, hf0, rfl⟩ := List.mem_map.1 hf
        exact .inl ⟨_, _, _, rfl⟩
  | @both left right w nf w' nf' tag tag' st st' u skip mult hu hk hl hr hl' hr' hskip hkn hsim hd1 hd2 _ _ =>
    refine normOK_compound (.inr ⟨_, _, _, rfl⟩) hr0 (fun s x fs hfs e => deriv_lexeme_ne m hd hga hmem0 hn s x (e ▸ hfs)) ?_
      (fun _ _ _ _ _ h => h.2.elim)
    intro s x fs hfs f hf
    simp only [lexemeOf, Stack.single, ne_eq, not_true_eq_false, if_false, bind_ok_iff] at hfs
    obtain ⟨_, _, _, _, ls, _, rs, _, h5⟩ := hfs
    obtain ⟨r, _, hb⟩ := mapE_mem h5 hf
    unfold mergeForms at hb
    split at hb
    · simp at hb
    · simp only [Except.ok.injEq] at hb
      subst hb
      exact .inr ⟨_, _, _, rfl⟩
  | @pref pre rest w nf tag st u prefixes mult minRem hu hk hp hrem hprod hd' ih =>
    refine (ih hn.push (deriv_reprod m hd hga hd' hn.push) hd').push hd'.stack_ne _ (pre ++ ·)
      (fun f => (f.withPrefix pre).appendMethod (.simple u.1.obj pre)) ?_ ?_ (fun f => rfl)
    · intro st' hst' w' t' n' s x
      exact lexeme_pref m st' hst' _ (by simp [BUnit.obj, hk, UnitCfg.kind]) pre w' n' t' s x
    · intro st' hst' w' t' n' s x
      exact norm_pref m st' hst' _ (by simp [BUnit.obj, hk, UnitCfg.kind]) pre w' n' t' s x
  | @upref pre rest v nf tag para idx u mult hu hk hne hlen hrem hprod hsp hw hnf ht =>
    obtain ⟨p, pre', tag', suf, stem, hf, _⟩ := hd.words _ hw
    have := hf.htag
    rw [ht] at this
    simp only [Except.ok.injEq] at this
    subst this
    refine (normOK_dict m hd u.1.inner rfl hf v nf hnf).push (by simp [Stack.single]) _ (pre ++ ·)
      (fun f => (f.withPrefix pre).appendMethod (.simple u.1.obj pre)) ?_ ?_ (fun f => rfl)
    · intro st' hst' w' t' n' s x
      exact lexeme_pref m st' hst' _ (by simp [BUnit.obj, hk, UnitCfg.kind]) pre w' n' t' s x
    · intro st' hst' w' t' n' s x
      exact norm_pref m st' hst' _ (by simp [BUnit.obj, hk, UnitCfg.kind]) pre w' n' t' s x
  | @suff wl start en e nf tag para idx cnt k t pre u mult minLen hu hk hsplit hprod hsp ht hpre hpw he hnf htag =>
    obtain ⟨_, p, pre', tag', suf, hf, _, _⟩ := hd.pred k t ht _ he
    have := hf.htag
    rw [htag] at this
    simp only [Except.ok.injEq] at this
    subst this
    refine (normOK_dict m hd u.1.inner rfl hf (start ++ e) nf hnf).push (by simp [Stack.single]) _ id
      (fun f => f.appendMethod (.simple u.1.obj e)) ?_ ?_ (fun f => rfl)
    · intro st' hst' w' t' n' s x
      exact lexeme_suff m st' hst' _ (by simp [BUnit.obj, hk, UnitCfg.kind]) e _
    · intro st' hst' w' t' n' s x
      exact norm_suff m st' hst' _ (by simp [BUnit.obj, hk, UnitCfg.kind]) e _

end Verif
