/-
C89: chains of operations.  Whatever is done, one after the other, to an analysis — taking a form of its lexeme, normalizing,
inflecting, making it agree with a number — one never leaves its lexeme, and everything keeps working.
-/
import Verif.Lemmas.CoreEq
import Verif.Props.C24
import Verif.Props.C72
import Verif.Props.C73

set_option linter.unusedSectionVars false

namespace Verif

variable {S : Type} [Score S]

/-! ### Specification -/

/-- `p` was obtained from `p0` by any number of operations of the public API. -/
inductive Obtained (m : Morph S) (sim : Sim) (p0 : Parse S) : Parse S → Prop
  /-- nothing done yet -/
  | start : Obtained m sim p0 p0
  /-- `p.lexeme[i]` -/
  | form {p f : Parse S} {fs : List (Parse S)} : Obtained m sim p0 p → m.lexeme p = .ok fs → f ∈ fs → Obtained m sim p0 f
  /-- `p.normalized` -/
  | normalized {p q : Parse S} : Obtained m sim p0 p → m.normalized p = .ok q → Obtained m sim p0 q
  /-- `p.inflect(required)` -/
  | inflected {p f : Parse S} {req : List Str} : Obtained m sim p0 p → m.inflect sim p req = .ok (some f) → Obtained m sim p0 f
  /-- `p.make_agree_with_number(num)` -/
  | agreed {p f : Parse S} {pick : Grams → Option Str} {num : Int} : Obtained m sim p0 p → m.makeAgree sim pick p num = .ok (some f) →
      Obtained m sim p0 f

/-! ### The forms of a lexeme are normalized to its first form -/

/-- Normalizing any form of the lexeme gives its first form. -/
def NormForms (m : Morph S) (st : Stack) (w : Str) (t : Tag) (n : Str) : Prop :=
  ∀ s x fs, lexemeOf m st ⟨w, t, n, s, x⟩ = .ok fs → ∀ f ∈ fs,
    ∃ q, (∀ y, normalizedOf m f.stack ⟨f.word, f.tag, f.nf, f.score, y⟩ = .ok q) ∧ fs.head?.map Parse.core = some q.core

theorem NormForms.push {m : Morph S} {st : Stack} {w n : Str} {t : Tag} (h : NormForms m st w t n) (hst : st ≠ .nil) (x0 : Method)
    (dw : Str → Str) (g : Parse S → Parse S)
    (hstep : ∀ st' ≠ .nil, ∀ w' t' n' s x, lexemeOf m (.push st' x0) ⟨dw w', t', dw n', s, x⟩ =
      (lexemeOf m st' ⟨w', t', n', s, x⟩).map fun fs => fs.map g)
    (hstep' : ∀ st' ≠ .nil, ∀ w' t' n' s x, normalizedOf m (.push st' x0) ⟨dw w', t', dw n', s, x⟩ =
      (normalizedOf m st' ⟨w', t', n', s, x⟩).map g)
    (hg : ∀ f, g f = ⟨dw f.word, f.tag, dw f.nf, f.score, .push f.stack x0⟩) :
    NormForms m (.push st x0) (dw w) t (dw n) := by
  intro s x fs hfs f hf
  rw [hstep st hst] at hfs
  cases h0 : lexemeOf m st ⟨w, t, n, s, x⟩ with
  | error e => rw [h0] at hfs; simp [Except.map] at hfs
  | ok fs0 =>
    rw [h0] at hfs
    simp only [Except.map, Except.ok.injEq] at hfs
    subst hfs
    obtain ⟨f0, hf0, rfl⟩ := List.mem_map.1 hf
    obtain ⟨q, e1, e2⟩ := h s x fs0 h0 f0 hf0
    have hq : f0.stack ≠ .nil := by
      intro e
      have := e1 .nil
      rw [e] at this
      simp [normalizedOf] at this
    refine ⟨g q, fun y => ?_, ?_⟩
    · rw [hg f0]
      dsimp only
      rw [hstep' _ hq, e1]; rfl
    · cases fs0 with
      | nil => simp at hf0
      | cons a as =>
        simp only [List.head?_cons, Option.map_some, Option.some.injEq, Parse.core, Prod.mk.injEq] at e2
        simp [Parse.core, hg, e2]

theorem normForms_dict (m : Morph S) (hd : m.dict.WF) (u : UObj) (hu : u.kind = .dict) {para idx : Nat} {pl : List Nat}
    {pre suf : Str} {tag : Tag} (hf : m.dict.IsForm para idx pl pre tag suf) (w n : Str) (t : Tag) (hn : m.dict.normalForm para idx w = .ok n)
    (hfit : (Stack.single (.dict u w para idx)).fits m.dict) : NormForms m (.single (.dict u w para idx)) w t n := by
  intro s x fs hfs f hfm
  obtain ⟨stem, fs0, h1, _, h3, _, h5, _⟩ := dictBase m hd u hu hf w w n
  rw [h5] at hfs
  simp only [Except.ok.injEq] at hfs
  subst hfs
  obtain ⟨pre0, tag0, suf0, hf0, he⟩ := h3.form 0 (by have := hf.hidx; omega)
  have hhead : fs0.head? = some ⟨pre0 ++ stem ++ suf0, tag0, n, Score.one, .single (.dict u (pre0 ++ stem ++ suf0) para 0)⟩ := by
    rw [List.head?_eq_getElem?]; exact he
  have hnorm : ∀ (v : Str) (i : Nat) (p : Parse S), normalizedOf m (.single (.dict u v para i)) p =
      dictNormalized m.dict u (.single (.dict u v para i)) p := by
    intro v i p; simp only [normalizedOf, Stack.single, hu]
  have hx : ∀ (v : Str) (i : Nat), extractParaInfo u (.single (.dict u v para i)) = .ok (para, i) := by
    intro v i; simp [extractParaInfo, Stack.first, Stack.single]
  -- the normal form is spelled like the first form
  have hnw : n = pre0 ++ stem ++ suf0 := by
    by_cases h0 : idx = 0
    · subst h0
      have hnw : n = w := by simpa [Dict.normalForm] using hn.symm
      subst hnw
      obtain ⟨-, p', pre', tag', suf', stem', hf', hw'⟩ := hfit
      have ep : p' = pl := by have := hf'.hpara; rw [hf.hpara] at this; simpa using this.symm
      subst ep
      have e1 : pre' = pre0 := by have := hf'.hpre; rw [hf0.hpre] at this; simpa using this.symm
      have e2 : suf' = suf0 := by have := hf'.hsuf; rw [hf0.hsuf] at this; simpa using this.symm
      subst e1 e2
      rw [hw', stem_rebuild _ _ _ _ _ _ hf0.hpre hf0.hsuf] at h1
      have e4 : stem' = stem := by simpa using h1
      subst e4
      exact hw'
    · unfold Dict.normalForm at hn
      rw [if_neg h0, (pyGet_ok_iff _ _ _).2 hf.hpara, ok_bind, h1, ok_bind, hf0.hpre, ok_bind, hf0.hsuf, ok_bind] at hn
      simpa using hn.symm
  obtain ⟨i, pre', tag', suf', hf', hi, rfl⟩ := h3.mem hfm
  by_cases h0 : i = 0
  · subst h0
    have ep : pre' = pre0 := by have := hf'.hpre; rw [hf0.hpre] at this; simpa using this.symm
    have e2 : suf' = suf0 := by have := hf'.hsuf; rw [hf0.hsuf] at this; simpa using this.symm
    have e3 : tag' = tag0 := by have := hf'.htag; rw [hf0.htag] at this; simpa using this.symm
    subst ep e2 e3
    refine ⟨_, fun y => ?_, by rw [hhead]; rfl⟩
    dsimp only
    rw [hnorm]
    simp [dictNormalized, hx]
  · refine ⟨⟨n, tag0, n, Score.one, .single (.dict u n para 0)⟩, fun y => ?_, by rw [hhead, hnw]; rfl⟩
    dsimp only
    rw [hnorm]; unfold dictNormalized; rw [hx, ok_bind]; simp only [h0, if_false, hf0.htag, ok_bind]; rfl

theorem normForms_compound {m : Morph S} {st : Stack}
    {w n : Str} {t : Tag} (hr : Reprod m st w t n)
    (hstk : ∀ s x fs, lexemeOf m st ⟨w, t, n, s, x⟩ = .ok fs → ∀ f ∈ fs,
      (∃ u left r, f.stack = .single (.fixed u left r)) ∨ ∃ u l r, f.stack = .single (.both u l r)) :
    NormForms m st w t n := by
  intro s x fs hfs f hf
  obtain ⟨_, fs', e2, e3, _⟩ := hr s x _ hfs f hf
  cases fs' with
  | nil =>
    have : fs = [] := by simpa using e3.symm
    subst this
    simp at hf
  | cons q' qs' =>
    refine ⟨q', fun y => norm_compound m f.stack (hstk s x _ hfs f hf) _ _ (by simp) (e2 y), ?_⟩
    cases fs with
    | nil => simp at hf
    | cons a as =>
      simp only [List.map_cons, List.cons.injEq] at e3
      simp [e3.1]

/-- Every form of the lexeme of an analysis is normalized to its first form. -/
theorem deriv_normForms (m : Morph S) (hd : m.dict.WF) (hga : m.GendersApart)
    {wl w nf : Str} {tag : Tag} {st : Stack} (h : Deriv m wl w tag nf st) (hn : BothCond m st) (hfit : st.fits m.dict) :
    NormForms m st w tag nf := by
  have hr0 := deriv_reprod m hd hga h hn
  have hmem0 := h
  induction h with
  | dict hsp hw hnf ht =>
    obtain ⟨p, pre, tag, suf, stem, hf, _⟩ := hd.words _ hw
    exact normForms_dict m hd _ rfl hf _ _ _ hnf hfit
  | @plain wl arg tag u hu hk harg =>
    have hl : ∀ (t : Tag) (s : S) (x : Stack), lexemeOf m (.single (.simple u.1.obj arg)) ⟨wl, t, wl, s, x⟩ = .ok [⟨wl, t, wl, s, .single (.simple u.1.obj arg)⟩] ∧
        normalizedOf m (.single (.simple u.1.obj arg)) ⟨wl, t, wl, s, x⟩ = .ok ⟨wl, t, wl, s, .single (.simple u.1.obj arg)⟩ := by
      intro t s x
      simp only [lexemeOf, normalizedOf, Stack.single, BUnit.obj]
      generalize u.1.cfg.kind = k at hk
      cases k <;> simp [UKind.isPlain] at hk <;> exact ⟨rfl, rfl⟩
    intro s x fs hfs f hf
    rw [(hl tag s x).1] at hfs
    simp only [Except.ok.injEq] at hfs
    subst hfs
    simp only [List.mem_singleton] at hf
    subst hf
    exact ⟨_, fun y => (hl tag s y).2, rfl⟩
  | @firstName wl arg tag u letters masc femn score hu hk hl ht harg =>
    obtain ⟨g1, g2⟩ := hga u hu _ _ _ _ hk
    intro s x fs hfs f hf
    simp only [lexemeOf, Stack.single, BUnit.obj, hk, UnitCfg.kind, bind_ok_iff, pure_eq_ok, Except.ok.injEq] at hfs
    obtain ⟨tags, ht', rfl⟩ := hfs
    obtain ⟨t', htm, rfl⟩ := List.mem_map.1 hf
    cases tags with
    | nil => simp at htm
    | cons t0 tags =>
      refine ⟨⟨wl, t0, wl, s, .single (.simple u.1.obj arg)⟩, fun y => ?_, by simp [Parse.core, BUnit.obj, hk, UnitCfg.kind, Stack.single]⟩
      simp [normalizedOf, Stack.single, BUnit.obj, hk, UnitCfg.kind, genderTags_again _ _ _ g1 g2 _ _ ht' t' htm, pyGet]
  | @patronymic wl arg tag u letters tags score hu hk hl ht harg =>
    intro s x fs hfs f hf
    simp only [lexemeOf, Stack.single, BUnit.obj, hk, UnitCfg.kind, Except.ok.injEq] at hfs
    subst hfs
    obtain ⟨t', htm, rfl⟩ := List.mem_map.1 hf
    cases tags with
    | nil => simp at htm
    | cons t0 tags =>
      refine ⟨⟨wl, t0, wl, s, .single (.simple u.1.obj arg)⟩, fun y => ?_, by simp [Parse.core, BUnit.obj, hk, UnitCfg.kind, Stack.single]⟩
      simp [normalizedOf, Stack.single, BUnit.obj, hk, UnitCfg.kind, pyGet]
  | @particle rest part w nf tag st u parts mult hu hk hp hne hpne hd' ih =>
    refine (ih hn.push hfit.1 (deriv_reprod m hd hga hd' hn.push) hd').push hd'.stack_ne _ (· ++ part)
      (fun f => (f.withSuffix part).appendMethod (.simple u.1.obj part)) ?_ ?_ (fun f => rfl)
    · intro st' hst' w' t' n' s x
      exact lexeme_particle m st' hst' _ (by simp [BUnit.obj, hk, UnitCfg.kind]) part w' n' hpne t' s x
    · intro st' hst' w' t' n' s x
      exact norm_particle m st' hst' _ (by simp [BUnit.obj, hk, UnitCfg.kind]) part w' n' hpne t' s x
  | @fixed left right w nf tag st u skip mult hu hk hl hr hl' hr' hskip hkn hd' ih =>
    refine normForms_compound hr0 ?_
    intro s x fs hfs f hf
    rw [lexeme_fixed] at hfs
    cases h0 : lexemeOf m st ⟨w, tag, nf, s, x⟩ with
    | error e => rw [h0] at hfs; simp [Except.map] at hfs
    | ok fs0 =>
      rw [h0] at hfs
      simp only [Except.map, Except.ok.injEq] at hfs
      subst hfs
      obtain ⟨f0, hf0, rfl⟩ := List.mem_map.1 hf
      exact .inl ⟨_, _, _, rfl⟩
  | @both left right w nf w' nf' tag tag' st st' u skip mult hu hk hl hr hl' hr' hskip hkn hsim hd1 hd2 _ _ =>
    refine normForms_compound hr0 ?_
    intro s x fs hfs f hf
    simp only [lexemeOf, Stack.single, ne_eq, not_true_eq_false, if_false, bind_ok_iff] at hfs
    obtain ⟨_, _, _, _, ls, _, rs, _, h5⟩ := hfs
    obtain ⟨r, _, hb⟩ := mapE_mem h5 hf
    unfold mergeForms at hb
    split at hb
    · simp at hb
    · simp only [Except.ok.injEq] at hb
      subst hb
      exact .inr ⟨_, _, _, rfl⟩
  | @pref pre rest w nf tag st u prefixes mult minRem hu hk hp hrem hprod hd' ih =>
    refine (ih hn.push hfit.1 (deriv_reprod m hd hga hd' hn.push) hd').push hd'.stack_ne _ (pre ++ ·)
      (fun f => (f.withPrefix pre).appendMethod (.simple u.1.obj pre)) ?_ ?_ (fun f => rfl)
    · intro st' hst' w' t' n' s x
      exact lexeme_pref m st' hst' _ (by simp [BUnit.obj, hk, UnitCfg.kind]) pre w' n' t' s x
    · intro st' hst' w' t' n' s x
      exact norm_pref m st' hst' _ (by simp [BUnit.obj, hk, UnitCfg.kind]) pre w' n' t' s x
  | @upref pre rest v nf tag para idx u mult hu hk hne hlen hrem hprod hsp hw hnf ht =>
    obtain ⟨p, pre', tag', suf, stem, hf, _⟩ := hd.words _ hw
    refine (normForms_dict m hd u.1.inner rfl hf v nf tag hnf hfit.1).push (by simp [Stack.single]) _ (pre ++ ·)
      (fun f => (f.withPrefix pre).appendMethod (.simple u.1.obj pre)) ?_ ?_ (fun f => rfl)
    · intro st' hst' w' t' n' s x
      exact lexeme_pref m st' hst' _ (by simp [BUnit.obj, hk, UnitCfg.kind]) pre w' n' t' s x
    · intro st' hst' w' t' n' s x
      exact norm_pref m st' hst' _ (by simp [BUnit.obj, hk, UnitCfg.kind]) pre w' n' t' s x
  | @suff wl start en e nf tag para idx cnt k t pre u mult minLen hu hk hsplit hprod hsp ht hpre hpw he hnf htag =>
    obtain ⟨_, p, pre', tag', suf, hf, _, _⟩ := hd.pred k t ht _ he
    refine (normForms_dict m hd u.1.inner rfl hf (start ++ e) nf tag hnf hfit.1).push (by simp [Stack.single]) _ id
      (fun f => f.appendMethod (.simple u.1.obj e)) ?_ ?_ (fun f => rfl)
    · intro st' hst' w' t' n' s x
      exact lexeme_suff m st' hst' _ (by simp [BUnit.obj, hk, UnitCfg.kind]) e _
    · intro st' hst' w' t' n' s x
      exact norm_suff m st' hst' _ (by simp [BUnit.obj, hk, UnitCfg.kind]) e _

/-! ### Operations do not look at scores -/

theorem lexeme_congr (m : Morph S) (p q : Parse S) (h : p.core = q.core) (fs : List (Parse S)) (hl : m.lexeme p = .ok fs) :
    ∃ gs, m.lexeme q = .ok gs ∧ gs.map Parse.core = fs.map Parse.core := by
  have hf : p.word = q.word ∧ p.tag = q.tag ∧ p.nf = q.nf ∧ p.stack = q.stack := CoreEq.fields h
  have hs := lexemeOf_sim m m rfl rfl p.stack p q hf.1 hf.2.1 hf.2.2.1
  unfold Morph.lexeme at hl ⊢
  rw [← hf.2.2.2]
  rw [hl] at hs
  generalize lexemeOf m p.stack q = y at hs
  cases hs with
  | ok hab => exact ⟨_, rfl, (forall₂_map_eq hab _ _ fun _ _ h => h).symm⟩

theorem normalized_congr (m : Morph S) (p q : Parse S) (h : p.core = q.core) (r : Parse S) (hl : m.normalized p = .ok r) :
    ∃ r', m.normalized q = .ok r' ∧ r'.core = r.core := by
  have hf : p.word = q.word ∧ p.tag = q.tag ∧ p.nf = q.nf ∧ p.stack = q.stack := CoreEq.fields h
  have hs := normalizedOf_sim m m rfl rfl p.stack p q hf.1 hf.2.1 hf.2.2.1
  unfold Morph.normalized at hl ⊢
  rw [← hf.2.2.2]
  rw [hl] at hs
  generalize normalizedOf m p.stack q = y at hs
  cases hs with
  | ok hab => exact ⟨_, rfl, hab.symm⟩

/-! ### Chains -/

theorem makeAgree_mem (m : Morph S) (sim : Sim) (pick : Grams → Option Str) (p : Parse S) (num : Int) (f : Parse S)
    (h : m.makeAgree sim pick p num = .ok (some f)) (fs : List (Parse S)) (hfs : m.lexeme p = .ok fs) : f ∈ fs := by
  unfold Morph.makeAgree at h
  split at h
  · exact inflect_mem m sim p _ f h fs hfs
  · simp only [bind_ok_iff] at h
    obtain ⟨_, _, _, _, h⟩ := h
    simp at h

/-- What one step needs to stay inside: the lexemes and normal forms of the start and of every form of its lexeme. -/
theorem chain_inside (m : Morph S) (sim : Sim) (p0 : Parse S) (fs0 : List (Parse S)) (f0 : Parse S) (hh : fs0.head? = some f0)
    (hl0 : m.lexeme p0 = .ok fs0) (hl : ∀ f ∈ fs0, ∃ fs, m.lexeme f = .ok fs ∧ fs.map Parse.core = fs0.map Parse.core)
    (hn0 : ∃ q, m.normalized p0 = .ok q ∧ q.core = f0.core) (hn : ∀ f ∈ fs0, ∃ q, m.normalized f = .ok q ∧ q.core = f0.core)
    (p : Parse S) (h : Obtained m sim p0 p) :
    (p = p0 ∨ ∃ f ∈ fs0, p.core = f.core) ∧ (∃ fs, m.lexeme p = .ok fs ∧ fs.map Parse.core = fs0.map Parse.core) ∧
      ∃ q, m.normalized p = .ok q ∧ q.core = f0.core := by
  -- whatever corresponds to a form of the lexeme behaves like it
  have inside : ∀ p : Parse S, (∃ f ∈ fs0, p.core = f.core) → (p = p0 ∨ ∃ f ∈ fs0, p.core = f.core) ∧
      (∃ fs, m.lexeme p = .ok fs ∧ fs.map Parse.core = fs0.map Parse.core) ∧ ∃ q, m.normalized p = .ok q ∧ q.core = f0.core := by
    rintro p ⟨f, hf, hc⟩
    obtain ⟨fs, h1, h2⟩ := hl f hf
    obtain ⟨gs, h3, h4⟩ := lexeme_congr m f p hc.symm fs h1
    obtain ⟨q, h5, h6⟩ := hn f hf
    obtain ⟨q', h7, h8⟩ := normalized_congr m f p hc.symm q h5
    exact ⟨.inr ⟨f, hf, hc⟩, ⟨gs, h3, h4.trans h2⟩, q', h7, h8.trans h6⟩
  have member : ∀ (fs : List (Parse S)) (f : Parse S), fs.map Parse.core = fs0.map Parse.core → f ∈ fs → ∃ g ∈ fs0, f.core = g.core := by
    intro fs f he hf
    have : f.core ∈ fs0.map Parse.core := by rw [← he]; exact List.mem_map_of_mem hf
    obtain ⟨g, hg, e⟩ := List.mem_map.1 this
    exact ⟨g, hg, e.symm⟩
  induction h with
  | start => exact ⟨.inl rfl, ⟨fs0, hl0, rfl⟩, hn0⟩
  | form _ hfs hf ih =>
    obtain ⟨_, ⟨gs, h1, h2⟩, _⟩ := ih
    rw [hfs] at h1
    cases h1
    exact inside _ (member _ _ h2 hf)
  | normalized _ hq ih =>
    obtain ⟨_, _, q', h1, h2⟩ := ih
    rw [hq] at h1
    cases h1
    exact inside _ ⟨f0, List.mem_of_mem_head? (by rw [hh]; rfl), h2⟩
  | inflected _ hi ih =>
    obtain ⟨_, ⟨gs, h1, h2⟩, _⟩ := ih
    exact inside _ (member _ _ h2 (inflect_mem m sim _ _ _ hi gs h1))
  | agreed _ hi ih =>
    obtain ⟨_, ⟨gs, h1, h2⟩, _⟩ := ih
    exact inside _ (member _ _ h2 (makeAgree_mem m sim _ _ _ _ hi gs h1))

/-- What is asked of an analysis of a default analyzer: the conditions of C13 and C15. -/
structure Ordinary (m : Morph S) (p : Parse S) : Prop where
  compounds : p.stack.noBoth ∨ CompoundsOK m
  roomy : p.stack.roomy m.dict

/-- C89 from the facts it rests on. -/
theorem chain_core (m : Morph S) (hga : m.GendersApart) (hlow : m.env.LowerStable) (hd : m.dict.WF)
    (w : Str) (ps : List (Parse S)) (h : m.parse w = .ok ps) (p0 : Parse S) (hp : p0 ∈ ps) (hb : BothCond m p0.stack) (hroom : p0.stack.roomy m.dict)
    (fs0 : List (Parse S)) (hl0 : m.lexeme p0 = .ok fs0) :
    ∃ f0, fs0.head? = some f0 ∧ ∀ (sim : Sim) (p : Parse S), Obtained m sim p0 p →
      (p = p0 ∨ ∃ f ∈ fs0, p.core = f.core) ∧ p.nf = p0.nf ∧
      (∃ fs, m.lexeme p = .ok fs ∧ fs.map Parse.core = fs0.map Parse.core) ∧
      (∃ q, m.normalized p = .ok q ∧ q.core = f0.core) := by
  have hdv := parse_deriv m hlow w ps h p0 hp
  obtain ⟨q, h1, h2, _⟩ := deriv_normOK m hd hga hdv hb p0.score p0.stack fs0 hl0
  have h2 := h2 (deriv_fits hd hdv hroom)
  rw [Option.map_eq_some_iff] at h2
  obtain ⟨f0, h2, h3⟩ := h2
  refine ⟨f0, h2, fun sim p hob => ?_⟩
  have hre := deriv_reprod m hd hga hdv hb p0.score p0.stack fs0 hl0
  have hnf := deriv_normForms m hd hga hdv hb (deriv_fits hd hdv hroom) p0.score p0.stack fs0 hl0
  obtain ⟨e1, e2, e3⟩ := chain_inside m sim p0 fs0 f0 h2 hl0
    (fun f hf => by
      obtain ⟨_, fs', a, b, _⟩ := hre f hf
      exact ⟨fs', a f.stack, b⟩)
    ⟨q, h1, h3.symm⟩
    (fun f hf => by
      obtain ⟨q, a, b⟩ := hnf f hf
      rw [h2, Option.map_some, Option.some.injEq] at b
      exact ⟨q, a f.stack, b.symm⟩) p hob
  refine ⟨e1, ?_, e2, e3⟩
  rcases e1 with rfl | ⟨f, hf, hc⟩
  · rfl
  · have := (hre f hf).1
    have e : p.nf = f.nf := by simp only [Parse.core, Prod.mk.injEq] at hc; exact hc.2.2.1
    rw [e, this]

/-- **C89.** Whatever is done to a result of `parse`: one stays in its lexeme, with its normal form; every object met on the way
has the lexeme of the first one and is normalized to its first form. -/
theorem c89_chain (m : Morph S) (hm : IsRu m ∨ IsUk m) (hlow : m.env.LowerStable) (hd : m.dict.WF) (hsm : m.SmallTags)
    (w : Str) (ps : List (Parse S)) (h : m.parse w = .ok ps) (p0 : Parse S) (hp : p0 ∈ ps) (ho : Ordinary m p0) :
    ∃ fs0 f0, m.lexeme p0 = .ok fs0 ∧ fs0.head? = some f0 ∧ ∀ (sim : Sim) (p : Parse S), Obtained m sim p0 p →
      (p = p0 ∨ ∃ f ∈ fs0, p.core = f.core) ∧ p.nf = p0.nf ∧
      (∃ fs, m.lexeme p = .ok fs ∧ fs.map Parse.core = fs0.map Parse.core) ∧
      (∃ q, m.normalized p = .ok q ∧ q.core = f0.core) := by
  obtain ⟨fs0, hl0, hne⟩ := c13_lexeme_exists m hm hlow hd hsm w ps h p0 hp ho.compounds
  have hb : BothCond m p0.stack := ho.compounds.elim .inl fun hc => parse_bothCond m hm hlow hc w ps h p0 hp
  obtain ⟨f0, h2, h3⟩ := chain_core m (default_gendersApart m hm) hlow hd w ps h p0 hp hb ho.roomy fs0 hl0
  exact ⟨fs0, f0, hl0, h2, h3⟩

theorem carries_congr {f g : Parse S} (h : f.core = g.core) (req : List Str) : f.carries req ↔ g.carries req := by
  simp only [Parse.core, Prod.mk.injEq] at h
  unfold Parse.carries
  rw [h.2.1]

theorem carried_congr {fs gs : List (Parse S)} (h : fs.map Parse.core = gs.map Parse.core) (req : List Str) :
    (∃ f ∈ fs, f.carries req) ↔ ∃ g ∈ gs, g.carries req := by
  have one : ∀ {fs gs : List (Parse S)}, fs.map Parse.core = gs.map Parse.core → (∃ f ∈ fs, f.carries req) → ∃ g ∈ gs, g.carries req := by
    rintro fs gs h ⟨f, hf, hc⟩
    have : f.core ∈ gs.map Parse.core := by rw [← h]; exact List.mem_map_of_mem hf
    obtain ⟨g, hg, e⟩ := List.mem_map.1 this
    exact ⟨g, hg, (carries_congr e req).2 hc⟩
  exact ⟨one h, one h.symm⟩

/-- **C89, inflection along the way.** Whether grammemes can be asked for does not depend on what was done before: at every point of
every chain `inflect` succeeds (known grammemes), it gives `None` exactly if no form of the lexeme of the first analysis carries the
grammemes, and otherwise a form of that lexeme which does. -/
theorem c89_inflect (m : Morph S) (hm : IsRu m ∨ IsUk m) (hlow : m.env.LowerStable) (hd : m.dict.WF) (hsm : m.SmallTags)
    (w : Str) (ps : List (Parse S)) (h : m.parse w = .ok ps) (p0 : Parse S) (hp : p0 ∈ ps) (ho : Ordinary m p0)
    (fs0 : List (Parse S)) (hl0 : m.lexeme p0 = .ok fs0) (sim : Sim) (hs : sim.Ordered) (p : Parse S) (hob : Obtained m sim p0 p)
    (req : List Str) (hk : ∀ g ∈ req, g ∈ m.cls.known ∧ fixRare1 g ∈ m.cls.known) :
    ∃ res, m.inflect sim p req = .ok res ∧
      (res = none ↔ ∀ f ∈ fs0, ¬ f.carries req ∧ ¬ f.carries (req.map fixRare1)) ∧
      ∀ f, res = some f → (∃ g ∈ fs0, f.core = g.core) ∧
        (f.carries req ∨ ((∀ g ∈ fs0, ¬ g.carries req) ∧ f.carries (req.map fixRare1))) := by
  obtain ⟨fs0', f0, hl0', h2, hchain⟩ := c89_chain m hm hlow hd hsm w ps h p0 hp ho
  rw [hl0] at hl0'
  cases hl0'
  obtain ⟨_, _, ⟨fs, hl, hc⟩, _⟩ := hchain sim p hob
  have hkn : ∀ g ∈ effective fs req, g ∈ m.cls.known := by
    intro g hg
    unfold effective at hg
    split at hg
    · exact (hk g hg).1
    · obtain ⟨g', hg', rfl⟩ := List.mem_map.1 hg
      exact (hk g' hg').2
  obtain ⟨res, g, hr, _, _, hnone, hsome⟩ := c17_inflect m sim hs p req fs hl hkn
  refine ⟨res, hr, ?_, fun f hf => ?_⟩
  · rw [hnone]
    have a := not_congr (carried_congr hc req)
    have b := not_congr (carried_congr hc (req.map fixRare1))
    push Not at a b
    constructor
    · intro hh f hf
      exact ⟨a.1 (fun f hf => (hh f hf).1) f hf, b.1 (fun f hf => (hh f hf).2) f hf⟩
    · intro hh f hf
      exact ⟨a.2 (fun f hf => (hh f hf).1) f hf, b.2 (fun f hf => (hh f hf).2) f hf⟩
  · obtain ⟨h1, h2, _⟩ := hsome f hf
    refine ⟨?_, ?_⟩
    · have : f.core ∈ fs0.map Parse.core := by rw [← hc]; exact List.mem_map_of_mem h1
      obtain ⟨g, hg, e⟩ := List.mem_map.1 this
      exact ⟨g, hg, e.symm⟩
    · unfold effective at h2
      split at h2
      · exact .inl h2
      · next hno =>
        refine .inr ⟨fun g hg hcg => hno ((carried_congr hc req).2 ⟨g, hg, hcg⟩), h2⟩

/-! ### The hypotheses are met -/

theorem Demo.koshka_ordinary : Ordinary Demo.morph Demo.koshka where
  compounds := .inl ⟨trivial, trivial⟩
  roomy := ⟨trivial, trivial, trivial⟩

/-- A chain of three operations: кошка → (plural genitive) кошек → normalized, кошка → (plural genitive) кошек. -/
example : ∃ p, Obtained Demo.morph Sim.exact Demo.koshka p ∧ p.word = c!"кошек" := by
  have h1 : Demo.morph.inflect Sim.exact Demo.koshka [c!"plur", c!"gent"] =
      .ok (some ⟨c!"кошек", ⟨c!"NOUN,anim,femn plur,gent"⟩, c!"кошка", 1, .single (.dict ⟨0, .dict⟩ (c!"кошек") 0 1)⟩) := by decide +kernel
  have h2 : Demo.morph.normalized ⟨c!"кошек", ⟨c!"NOUN,anim,femn plur,gent"⟩, c!"кошка", 1, .single (.dict ⟨0, .dict⟩ (c!"кошек") 0 1)⟩ =
      .ok Demo.koshka := by decide +kernel
  exact ⟨_, ((Obtained.start.inflected h1).normalized h2).inflected h1, rfl⟩

/-- The conclusions, for it. -/
example : ∃ fs0 f0, Demo.morph.lexeme Demo.koshka = .ok fs0 ∧ fs0.head? = some f0 ∧ ∀ (sim : Sim) (p : Parse Rat),
    Obtained Demo.morph sim Demo.koshka p → (p = Demo.koshka ∨ ∃ f ∈ fs0, p.core = f.core) ∧ p.nf = c!"кошка" ∧
      (∃ fs, Demo.morph.lexeme p = .ok fs ∧ fs.map Parse.core = fs0.map Parse.core) ∧
      (∃ q, Demo.morph.normalized p = .ok q ∧ q.core = f0.core) := by
  obtain ⟨ps, hps, hk⟩ := ok_of_any (Demo.morph.parse (c!"Кошка")) (fun ps => decide (Demo.koshka ∈ ps)) (by decide +kernel)
  exact c89_chain Demo.morph (.inl Demo.morph_isRu) demoEnv_lowerStable Demo.dict_wf (by unfold Morph.SmallTags; decide +kernel) _ ps hps
    Demo.koshka (of_decide_eq_true hk) Demo.koshka_ordinary

end Verif
