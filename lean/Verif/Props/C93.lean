/-
C93: operations on results never fail.  Unlike C89 this asks nothing of compounds or of predicted words.
-/
import Verif.Props.C20
import Verif.Props.C89

set_option linter.unusedSectionVars false

namespace Verif

variable {S : Type} [Score S]

/-! ### Stacks on which everything works, whatever the word -/

/-- Stacks without initials and without compounds with both parts inflected. -/
inductive Firm (m : Morph S) : Stack → Prop
  | dict {u : UObj} {w : Str} {para idx : Nat} {pl : List Nat} {pre suf : Str} {t : Tag} (hu : u.kind = .dict)
      (hf : m.dict.IsForm para idx pl pre t suf) : Firm m (.single (.dict u w para idx))
  | plain {u : UObj} {arg : Str} (hu : u.kind.isPlain = true) : Firm m (.single (.simple u arg))
  | push {st : Stack} {u : UObj} {arg : Str} (hu : u.kind = .particle ∨ u.kind = .pref ∨ u.kind = .suff) (h : Firm m st) :
      Firm m (.push st (.simple u arg))
  | fixed {u : UObj} {left : Str} {st : Stack} (h : Firm m st) : Firm m (.single (.fixed u left st))

theorem Firm.ne {m : Morph S} {st : Stack} (h : Firm m st) : st ≠ .nil := by
  cases h <;> simp [Stack.single]

theorem tag_mem {d : Dict} {para i : Nat} {t : Tag} (h : d.tagInfo para i = .ok t) : t ∈ d.gramtab := by
  simp only [Dict.tagInfo, bind_ok_iff] at h
  obtain ⟨_, _, tid, _, ht⟩ := h
  exact List.mem_of_getElem? ((pyGet_ok_iff _ _ _).1 ht)

theorem Firm.ok {m : Morph S} (hd : m.dict.WF) {st : Stack} (h : Firm m st) : ∀ p : Parse S,
    (∃ fs, lexemeOf m st p = .ok fs ∧ fs ≠ [] ∧ ∀ f ∈ fs, Firm m f.stack ∧ (f.tag ∈ m.dict.gramtab ∨ f.tag = p.tag)) ∧
    ∃ q, normalizedOf m st p = .ok q ∧ Firm m q.stack ∧ (q.tag ∈ m.dict.gramtab ∨ q.tag = p.tag) := by
  induction h with
  | @dict u w para idx pl pre suf t hu hf =>
    rintro ⟨w', t', n, s, x⟩
    obtain ⟨stem, fs, _, _, h3, h4, h5, _⟩ := dictBase (S := S) m hd u hu hf w w' n
    refine ⟨⟨fs, h5 _ _ _, h4, fun f hfm => ?_⟩, ?_⟩
    · obtain ⟨i, pre', tag', suf', hf', _, rfl⟩ := h3.mem hfm
      exact ⟨.dict hu hf', .inl (tag_mem hf'.htag)⟩
    · simp only [Stack.single, normalizedOf, hu, dictNormalized, extractParaInfo, Stack.first, if_true, ok_bind]
      split
      · exact ⟨_, rfl, .dict hu hf, .inr rfl⟩
      · obtain ⟨pre0, t0, suf0, hf0⟩ := hd.rows _ pl hf.hpara 0 (by have := hf.hidx; omega)
        rw [hf0.htag, ok_bind]
        exact ⟨_, rfl, .dict hu hf0, .inl (tag_mem hf0.htag)⟩
  | @plain u arg hu =>
    intro p
    simp only [lexemeOf, normalizedOf, Stack.single]
    have key : Firm m (.single (.simple u arg)) := .plain hu
    generalize hk : u.kind = k at hu
    cases k <;> simp [UKind.isPlain] at hu <;> exact ⟨⟨_, rfl, by simp, by simp; exact key⟩, _, rfl, key, .inr rfl⟩
  | @push st u arg hu h ih =>
    intro p
    have hne := h.ne
    have key : ∀ (p' : Parse S) (g : Parse S → Parse S), p'.tag = p.tag → (∀ f, (g f).tag = f.tag ∧ (g f).stack = .push f.stack (.simple u arg)) →
        (∃ fs, (lexemeOf m st p' >>= fun fs => pure (fs.map g)) = .ok fs ∧ fs ≠ [] ∧ ∀ f ∈ fs, Firm m f.stack ∧ (f.tag ∈ m.dict.gramtab ∨ f.tag = p.tag)) ∧
        ∃ q, (normalizedOf m st p' >>= fun f => pure (g f)) = .ok q ∧ Firm m q.stack ∧ (q.tag ∈ m.dict.gramtab ∨ q.tag = p.tag) := by
      intro p' g ht hg
      obtain ⟨⟨fs, h1, h2, h3⟩, q, h4, h5, h6⟩ := ih p'
      rw [h1, h4, ok_bind, ok_bind]
      refine ⟨⟨_, rfl, by simpa using h2, fun f hf => ?_⟩, _, rfl, ?_, ?_⟩
      · obtain ⟨f0, hf0, rfl⟩ := List.mem_map.1 hf
        rw [(hg f0).1, (hg f0).2, ← ht]
        exact ⟨.push hu (h3 f0 hf0).1, (h3 f0 hf0).2⟩
      · rw [(hg q).2]; exact .push hu h5
      · rw [(hg q).1, ← ht]; exact h6
    rcases hu with hk | hk | hk <;> simp only [lexemeOf, normalizedOf, hk, if_neg hne]
    · exact key _ _ rfl fun f => ⟨rfl, rfl⟩
    · exact key _ _ rfl fun f => ⟨rfl, rfl⟩
    · exact key _ _ rfl fun f => ⟨rfl, rfl⟩
  | @fixed u left st h ih =>
    intro p
    simp only [lexemeOf, normalizedOf, Stack.single, ne_eq, not_true_eq_false, if_false]
    obtain ⟨⟨fs, h1, h2, h3⟩, _⟩ := ih (p.withoutPrefix (left.length + 1))
    rw [h1, ok_bind]
    have each : ∀ f ∈ fs.map (fun f : Parse S => { f.withPrefix (left ++ ['-']) with stack := .push .nil (.fixed u left f.stack) }),
        Firm m f.stack ∧ (f.tag ∈ m.dict.gramtab ∨ f.tag = p.tag) := by
      intro f hf
      obtain ⟨f0, hf0, rfl⟩ := List.mem_map.1 hf
      exact ⟨.fixed (h3 f0 hf0).1, (h3 f0 hf0).2⟩
    refine ⟨⟨_, rfl, by simpa using h2, each⟩, ?_⟩
    cases fs with
    | nil => exact absurd rfl h2
    | cons f fs => exact ⟨_, rfl, (each _ (List.mem_cons_self ..)).1, (each _ (List.mem_cons_self ..)).2⟩

/-- Analyses of hyphen-free words are of this kind, initials excepted. -/
theorem deriv_firm {m : Morph S} (hd : m.dict.WF) {wl w nf : Str} {tag : Tag} {st : Stack} (h : Deriv m wl w tag nf st) (hwl : '-' ∉ wl)
    (hn : st.noInit) : Firm m st := by
  induction h with
  | dict hsp hw hnf ht =>
    obtain ⟨p, pre, tag, suf, stem, hf, _⟩ := hd.words _ hw
    exact .dict rfl hf
  | plain hu hk harg => exact .plain hk
  | firstName hu hk hl ht harg => simp [Stack.single, Stack.noInit, Method.noInit, BUnit.obj, hk, UnitCfg.kind, UKind.isInit] at hn
  | patronymic hu hk hl ht harg => simp [Stack.single, Stack.noInit, Method.noInit, BUnit.obj, hk, UnitCfg.kind, UKind.isInit] at hn
  | particle hu hk hp hne hpne hd' ih =>
    exact .push (.inl (by simp [BUnit.obj, hk, UnitCfg.kind])) (ih (fun h => hwl (List.mem_append_left _ h)) hn.1)
  | fixed => exact absurd (by simp) hwl
  | both => exact absurd (by simp) hwl
  | pref hu hk hp hrem hprod hd' ih =>
    exact .push (.inr (.inl (by simp [BUnit.obj, hk, UnitCfg.kind]))) (ih (fun h => hwl (List.mem_append_right _ h)) hn.1)
  | upref hu hk hne hlen hrem hprod hsp hw hnf ht =>
    obtain ⟨p, pre', tag', suf, stem, hf, _⟩ := hd.words _ hw
    exact .push (.inr (.inl (by simp [BUnit.obj, hk, UnitCfg.kind]))) (.dict rfl hf)
  | suff hu hk hsplit hprod hsp ht hpre hpw he hnf htag =>
    obtain ⟨_, p, pre', tag', suf, hf, _, _⟩ := hd.pred _ _ ht _ he
    exact .push (.inr (.inr (by simp [BUnit.obj, hk, UnitCfg.kind]))) (.dict rfl hf)

/-! ### All stacks -/

/-- Stacks on which everything works for the given word, normal form and tag. -/
inductive Sound (m : Morph S) : Stack → Str → Str → Tag → Prop
  | firm {st : Stack} {w n : Str} {t : Tag} (h : Firm m st) : Sound m st w n t
  | firstName {u : UObj} {arg w n : Str} {t : Tag} {masc femn : List Tag} (hu : u.kind = .firstName masc femn) (ht : t ∈ masc ++ femn)
      (hm : ∀ t ∈ masc, c!"masc" ∈ t.grammemes) (hf : ∀ t ∈ femn, c!"masc" ∉ t.grammemes)
      (hk : ∀ t ∈ masc ++ femn, c!"masc" ∈ t.grammemes ∨ c!"masc" ∈ m.cls.known) : Sound m (.single (.simple u arg)) w n t
  | patronymic {u : UObj} {arg w n : Str} {t : Tag} {tags : List Tag} (hu : u.kind = .patronymic tags) (ht : t ∈ tags) :
      Sound m (.single (.simple u arg)) w n t
  | particle {st : Stack} {u : UObj} {part w n : Str} {t : Tag} (hu : u.kind = .particle) (hne : part ≠ []) (h : Sound m st w n t) :
      Sound m (.push st (.simple u part)) (w ++ part) (n ++ part) t
  | pref {st : Stack} {u : UObj} {pre w n : Str} {t : Tag} (hu : u.kind = .pref) (h : Sound m st w n t) :
      Sound m (.push st (.simple u pre)) (pre ++ w) (pre ++ n) t
  | fixed {st : Stack} {u : UObj} {left w n : Str} {t : Tag} (h : Sound m st w n t) :
      Sound m (.single (.fixed u left st)) (left ++ '-' :: w) (left ++ '-' :: n) t
  | both {st st' : Stack} {u : UObj} {w n : Str} {t : Tag} (h : Firm m st) (h' : Firm m st') (hw : '-' ∈ w) (hn : '-' ∈ n)
      (ht : t.grammemes.card < 500000) : Sound m (.single (.both u st st')) w n t

theorem Sound.ne {m : Morph S} {st : Stack} {w n : Str} {t : Tag} (h : Sound m st w n t) : st ≠ .nil := by
  cases h with
  | firm h => exact h.ne
  | _ => simp [Stack.single]

theorem gender_tags {m : Morph S} {masc femn : List Tag} {t : Tag} (ht : t ∈ masc ++ femn)
    (hm : ∀ t ∈ masc, c!"masc" ∈ t.grammemes) (hf : ∀ t ∈ femn, c!"masc" ∉ t.grammemes)
    (hk : ∀ t ∈ masc ++ femn, c!"masc" ∈ t.grammemes ∨ c!"masc" ∈ m.cls.known) :
    ∃ tags, genderTags m.cls masc femn t = .ok tags ∧ tags ≠ [] ∧ ∀ t' ∈ tags, t' ∈ masc ++ femn := by
  have : m.cls.contains t (c!"masc") = .ok (decide (c!"masc" ∈ t.grammemes)) := by
    unfold TagCls.contains TagCls.isKnown TagCls.assertInit
    split
    · next h => simp [h]
    · next h =>
      have hmasc := (hk t ht).resolve_left h
      rw [if_neg (by rintro e; rw [e] at hmasc; simp at hmasc)]
      simp [hmasc, h]
  unfold genderTags
  rw [this, ok_bind]
  by_cases hg : c!"masc" ∈ t.grammemes
  · refine ⟨masc, by simp [hg], ?_, fun t' h => List.mem_append_left _ h⟩
    rintro rfl
    exact hf t (by simpa using ht) hg
  · refine ⟨femn, by simp [hg], ?_, fun t' h => List.mem_append_right _ h⟩
    rintro rfl
    exact hg (hm t (by simpa using ht))

theorem Sound.ok {m : Morph S} (hd : m.dict.WF) (hsm : m.SmallTags) {st : Stack} {w n : Str} {t : Tag}
    (h : Sound m st w n t) : ∀ (s : S) (x : Stack),
    (∃ fs, lexemeOf m st ⟨w, t, n, s, x⟩ = .ok fs ∧ fs ≠ [] ∧ ∀ f ∈ fs, Sound m f.stack f.word f.nf f.tag) ∧
    ∃ q, normalizedOf m st ⟨w, t, n, s, x⟩ = .ok q ∧ Sound m q.stack q.word q.nf q.tag := by
  induction h with
  | firm h =>
    intro s x
    obtain ⟨⟨fs, h1, h2, h3⟩, q, h4, h5, _⟩ := h.ok hd ⟨_, _, _, s, x⟩
    exact ⟨⟨fs, h1, h2, fun f hf => .firm (h3 f hf).1⟩, q, h4, .firm h5⟩
  | @firstName u arg w n t masc femn hu ht hm hf hk =>
    intro s x
    obtain ⟨tags, h1, h2, h3⟩ := gender_tags ht hm hf hk
    simp only [lexemeOf, normalizedOf, Stack.single, hu, h1, ok_bind]
    refine ⟨⟨_, rfl, by simpa using h2, fun f hf' => ?_⟩, ?_⟩
    · obtain ⟨t', ht', rfl⟩ := List.mem_map.1 hf'
      exact .firstName hu (h3 t' ht') hm hf hk
    · cases tags with
      | nil => exact absurd rfl h2
      | cons t' tags => exact ⟨_, rfl, .firstName hu (h3 t' (List.mem_cons_self ..)) hm hf hk⟩
  | @patronymic u arg w n t tags hu ht =>
    intro s x
    simp only [lexemeOf, normalizedOf, Stack.single, hu]
    refine ⟨⟨_, rfl, ?_, fun f hf' => ?_⟩, ?_⟩
    · intro e
      rw [List.map_eq_nil_iff] at e
      rw [e] at ht
      simp at ht
    · obtain ⟨t', ht', rfl⟩ := List.mem_map.1 hf'
      exact .patronymic hu ht'
    · cases tags with
      | nil => simp at ht
      | cons t' tags => exact ⟨_, rfl, .patronymic hu (List.mem_cons_self ..)⟩
  | @particle st u part w n t hu hne h ih =>
    intro s x
    obtain ⟨⟨fs, h1, h2, h3⟩, q, h4, h5⟩ := ih s x
    rw [lexeme_particle m st h.ne u hu part w n hne, norm_particle m st h.ne u hu part w n hne, h1, h4]
    refine ⟨⟨_, rfl, by simpa using h2, fun f hf => ?_⟩, _, rfl, .particle hu hne h5⟩
    obtain ⟨f0, hf0, rfl⟩ := List.mem_map.1 hf
    exact .particle hu hne (h3 f0 hf0)
  | @pref st u pre w n t hu h ih =>
    intro s x
    obtain ⟨⟨fs, h1, h2, h3⟩, q, h4, h5⟩ := ih s x
    rw [lexeme_pref m st h.ne u hu pre w n, norm_pref m st h.ne u hu pre w n, h1, h4]
    refine ⟨⟨_, rfl, by simpa using h2, fun f hf => ?_⟩, _, rfl, .pref hu h5⟩
    obtain ⟨f0, hf0, rfl⟩ := List.mem_map.1 hf
    exact .pref hu (h3 f0 hf0)
  | @fixed st u left w n t h ih =>
    intro s x
    obtain ⟨⟨fs, h1, h2, h3⟩, _⟩ := ih s x
    have hl := lexeme_fixed m st u left w n t s x
    rw [h1] at hl
    have hne : (fs.map fun f : Parse S => { f.withPrefix (left ++ ['-']) with stack := .single (.fixed u left f.stack) }) ≠ [] := by simpa using h2
    have each : ∀ f ∈ (fs.map fun f : Parse S => { f.withPrefix (left ++ ['-']) with stack := .single (.fixed u left f.stack) }),
        Sound m f.stack f.word f.nf f.tag := by
      intro f hf
      obtain ⟨f0, hf0, rfl⟩ := List.mem_map.1 hf
      have := Sound.fixed (u := u) (left := left) (h3 f0 hf0)
      simpa [Parse.withPrefix] using this
    refine ⟨⟨_, hl, hne, each⟩, ?_⟩
    rw [norm_compound m _ (.inl ⟨_, _, _, rfl⟩) _ _ hne hl]
    cases fs with
    | nil => exact absurd rfl h2
    | cons f fs => exact ⟨_, rfl, each _ (List.mem_cons_self ..)⟩
  | @both st st' u w n t h h' hw hn ht =>
    intro s x
    have hl : ∃ fs : List (Parse S), lexemeOf m (.single (.both u st st')) ⟨w, t, n, s, x⟩ = .ok fs ∧ fs ≠ [] ∧
        ∀ f ∈ fs, Sound m f.stack f.word f.nf f.tag := by
      simp only [lexemeOf, Stack.single, ne_eq, not_true_eq_false, if_false, withoutRightPart, withoutLeftPart, beforeHyphen, afterHyphen, if_pos hw,
        if_pos hn, ok_bind, pure_eq_ok]
      obtain ⟨⟨ls, a1, a2, a3⟩, _⟩ := h.ok hd ⟨w.takeWhile (· ≠ '-'), t, n.takeWhile (· ≠ '-'), s, x⟩
      obtain ⟨⟨rs, b1, b2, b3⟩, _⟩ := h'.ok hd ⟨(w.dropWhile (· ≠ '-')).drop 1, t, (n.dropWhile (· ≠ '-')).drop 1, s, x⟩
      rw [a1, ok_bind, b1, ok_bind]
      have small : ∀ t', t' ∈ m.dict.gramtab ∨ t' = t → t'.grammemes.card < 500000 := by
        rintro t' (h | rfl)
        · exact hsm _ h
        · exact ht
      have one : ∀ r ∈ rs, ∃ l ∈ ls, mergeForms u ls r = .ok ⟨l.word ++ '-' :: r.word, l.tag, l.nf ++ '-' :: r.nf,
          Score.div (Score.add l.score r.score) (Score.ofNat 2), .single (.both u l.stack r.stack)⟩ := by
        intro r hr
        obtain ⟨l, hl⟩ := closest_some (r := r) a2 (by
          intro l hl
          have := formDist_le l r
          have := small _ (a3 l hl).2
          have := small _ (b3 r hr).2
          omega)
        refine ⟨l, closest_mem hl, ?_⟩
        unfold mergeForms
        rw [hl]
      obtain ⟨fs, hfs⟩ := mapE_total (mergeForms u ls) rs fun r hr => by
        obtain ⟨l, _, e⟩ := one r hr
        exact ⟨_, e⟩
      refine ⟨fs, hfs, ?_, fun f hf => ?_⟩
      · intro e
        have := mapE_length hfs
        rw [e] at this
        exact b2 (List.length_eq_zero_iff.mp this.symm)
      · obtain ⟨r, hr, e⟩ := mapE_mem hfs hf
        obtain ⟨l, hl, e'⟩ := one r hr
        rw [e'] at e
        cases e
        exact .both (a3 l hl).1 (b3 r hr).1 (by simp) (by simp) (small _ (a3 l hl).2)
    obtain ⟨fs, h1, h2, h3⟩ := hl
    refine ⟨⟨fs, h1, h2, h3⟩, ?_⟩
    rw [norm_compound m _ (.inr ⟨_, _, _, rfl⟩) _ _ h2 h1]
    cases fs with
    | nil => exact absurd rfl h2
    | cons f fs => exact ⟨_, rfl, h3 _ (List.mem_cons_self ..)⟩

/-- Every analysis is of this kind. -/
theorem deriv_sound {m : Morph S} (hd : m.dict.WF) (hga : m.GendersApart) (hgk : m.GendersKnown) {wl w nf : Str} {tag : Tag} {st : Stack} (h : Deriv m wl w tag nf st)
    (hn : st.bothNoInit) (hsm0 : st.noBoth ∨ tag.grammemes.card < 500000) : Sound m st w nf tag := by
  induction h with
  | dict hsp hw hnf ht =>
    obtain ⟨p, pre, tag, suf, stem, hf, _⟩ := hd.words _ hw
    exact .firm (.dict rfl hf)
  | plain hu hk harg => exact .firm (.plain hk)
  | firstName hu hk hl ht harg =>
    obtain ⟨g1, g2⟩ := hga _ hu _ _ _ _ hk
    exact .firstName (by simp [BUnit.obj, hk, UnitCfg.kind]) ht g1 g2 (hgk _ hu _ _ _ _ hk)
  | patronymic hu hk hl ht harg => exact .patronymic (by simp [BUnit.obj, hk, UnitCfg.kind]) ht
  | particle hu hk hp hne hpne hd' ih => exact .particle (by simp [BUnit.obj, hk, UnitCfg.kind]) hpne (ih hn.1 (hsm0.imp_left And.left))
  | fixed hu hk hl hr hl' hr' hskip hkn hd' ih => exact .fixed (ih hn.2 (hsm0.imp_left And.right))
  | both hu hk hl hr hl' hr' hskip hkn hsim hd1 hd2 _ _ =>
    rcases hsm0 with ht | ht
    · exact ht.2.elim
    · exact .both (deriv_firm hd hd1 hl' hn.2.1) (deriv_firm hd hd2 hr' hn.2.2) (by simp) (by simp) ht
  | pref hu hk hp hrem hprod hd' ih => exact .pref (by simp [BUnit.obj, hk, UnitCfg.kind]) (ih hn.1 (hsm0.imp_left And.left))
  | upref hu hk hne hlen hrem hprod hsp hw hnf ht =>
    obtain ⟨p, pre', tag', suf, stem, hf, _⟩ := hd.words _ hw
    exact .firm (.push (.inr (.inl (by simp [BUnit.obj, hk, UnitCfg.kind]))) (.dict rfl hf))
  | suff hu hk hsplit hprod hsp ht hpre hpw he hnf htag =>
    obtain ⟨_, p, pre', tag', suf, hf, _, _⟩ := hd.pred _ _ ht _ he
    exact .firm (.push (.inr (.inr (by simp [BUnit.obj, hk, UnitCfg.kind]))) (.dict rfl hf))

/-! ### C93 -/

/-- With a lexeme and known grammemes, `inflect` raises nothing. -/
theorem inflect_of_lexeme (m : Morph S) (p : Parse S) (fs : List (Parse S)) (hl : m.lexeme p = .ok fs) (sim' : Sim) (req : List Str)
    (hk : ∀ g ∈ req, g ∈ m.cls.known ∧ fixRare1 g ∈ m.cls.known) : ∃ res, m.inflect sim' p req = .ok res := by
  have upd : ∀ r : List Str, (∀ g ∈ r, g ∈ m.cls.known) → ∃ g, updatedGrammemes m.cls p.tag r = .ok g := by
    intro r hr
    unfold updatedGrammemes
    generalize p.tag.grammemes ∪ r.toFinset = g0
    induction r generalizing g0 with
    | nil => exact ⟨_, rfl⟩
    | cons a r ih =>
      have ha := hr a (List.mem_cons_self ..)
      have : m.cls.isKnown a = .ok true := by
        unfold TagCls.isKnown TagCls.assertInit
        rw [if_neg (by rintro e; rw [e] at ha; simp at ha)]
        simp [ha]
      rw [updatedLoop, this, ok_bind, if_pos rfl]
      exact ih (fun g hg => hr g (List.mem_cons_of_mem _ hg)) _
  unfold Morph.inflect
  rw [hl, ok_bind]
  dsimp only
  split
  · obtain ⟨g, hg⟩ := upd (req.map fixRare1) (by
      intro g hg
      obtain ⟨g', hg', rfl⟩ := List.mem_map.1 hg
      exact (hk g' hg').2)
    rw [hg]
    exact ⟨_, rfl⟩
  · obtain ⟨g, hg⟩ := upd req fun g hg => (hk g hg).1
    rw [hg]
    exact ⟨_, rfl⟩

/-- C93 from the facts it rests on. -/
theorem never_fails (m : Morph S) (hga : m.GendersApart) (hgk : m.GendersKnown) (hup : m.UpperInitials) (hlow : m.env.LowerStable) (hd : m.dict.WF)
    (hsm : m.SmallTags) (w : Str) (ps : List (Parse S)) (h : m.parse w = .ok ps) (p0 : Parse S) (hp : p0 ∈ ps)
    (htag : p0.tag.grammemes.card < 500000) (sim : Sim) (p : Parse S) (hob : Obtained m sim p0 p) :
    (∃ fs, m.lexeme p = .ok fs ∧ fs ≠ []) ∧ (∃ q, m.normalized p = .ok q) ∧
    ∀ (sim' : Sim) (req : List Str), (∀ g ∈ req, g ∈ m.cls.known ∧ fixRare1 g ∈ m.cls.known) → ∃ res, m.inflect sim' p req = .ok res := by
  have hs : Sound m p.stack p.word p.nf p.tag := by
    have ok : ∀ p : Parse S, Sound m p.stack p.word p.nf p.tag → _ := fun p hp => hp.ok hd hsm p.score p.stack
    induction hob with
    | start =>
      exact deriv_sound hd hga hgk (parse_deriv m hlow w ps h p0 hp)
        (analyze_bothNoInit m hlow hup _ w ps h p0 hp).1 (.inr htag)
    | form _ hfs hf ih =>
      obtain ⟨⟨fs, h1, _, h3⟩, _⟩ := ok _ ih
      unfold Morph.lexeme at hfs
      rw [h1] at hfs
      cases hfs
      exact h3 _ hf
    | normalized _ hq ih =>
      obtain ⟨_, q, h1, h2⟩ := ok _ ih
      unfold Morph.normalized at hq
      rw [h1] at hq
      cases hq
      exact h2
    | inflected _ hi ih =>
      obtain ⟨⟨fs, h1, _, h3⟩, _⟩ := ok _ ih
      exact h3 _ (inflect_mem m sim _ _ _ hi fs h1)
    | agreed _ hi ih =>
      obtain ⟨⟨fs, h1, _, h3⟩, _⟩ := ok _ ih
      exact h3 _ (makeAgree_mem m sim _ _ _ _ hi fs h1)
  obtain ⟨⟨fs, h1, h2, _⟩, q, h4, _⟩ := hs.ok hd hsm p.score p.stack
  refine ⟨⟨fs, h1, h2⟩, ⟨q, h4⟩, fun sim' req hk => ?_⟩
  exact inflect_of_lexeme m p fs h1 sim' req hk

/-- **C93.** Whatever is done to a result of `parse`, with whatever arguments, the lexeme of every object met on the way exists and is not empty, it can be
normalized, and inflected into any known grammemes. -/
theorem c93_never_fails (m : Morph S) (hm : IsRu m ∨ IsUk m) (hlow : m.env.LowerStable) (hcap : m.env.CapitalInitials) (hd : m.dict.WF) (hsm : m.SmallTags)
    (w : Str) (ps : List (Parse S)) (h : m.parse w = .ok ps) (p0 : Parse S) (hp : p0 ∈ ps)
    (sim : Sim) (p : Parse S) (hob : Obtained m sim p0 p) :
    (∃ fs, m.lexeme p = .ok fs ∧ fs ≠ []) ∧ (∃ q, m.normalized p = .ok q) ∧
    ∀ (sim' : Sim) (req : List Str), (∀ g ∈ req, g ∈ m.cls.known ∧ fixRare1 g ∈ m.cls.known) → ∃ res, m.inflect sim' p req = .ok res :=
  never_fails m (default_gendersApart m hm) (default_gendersKnown m hm) (default_upperInitials m hm hcap) hlow hd hsm w ps h p0 hp
    (default_small m hm hsm (parse_deriv m hlow w ps h p0 hp)) sim p hob

/-- The grammemes `make_agree_with_number` may ask for: the numbers, nominative, genitive and accusative, and the cases of the tag. -/
def Askable (t : Tag) (g : Str) : Prop :=
  g = c!"sing" ∨ g = c!"plur" ∨ g = c!"nomn" ∨ g = c!"gent" ∨ g = c!"accs" ∨ (g ∈ CASES ∧ g ∈ t.grammemes)

/-- It asks for nothing else. -/
theorem agreement_asked (pick : Grams → Option Str) (hp : Picks pick) (t : Tag) (num : Int) (h : c!"NOUN" ∈ t.grammemes → CASES ∩ t.grammemes ≠ ∅) :
    ∃ req : List Str, numeralAgreement pick t num = req.map some ∧ ∀ g ∈ req, Askable t g := by
  have pos : t.category pick PARTS_OF_SPEECH = some (c!"NOUN") → c!"NOUN" ∈ t.grammemes := by
    unfold Tag.category
    split
    · simp
    · next hne =>
      obtain ⟨x, hx, e⟩ := hp _ hne
      rw [e]
      rintro ⟨rfl⟩
      exact (Finset.mem_inter.1 hx).2
  have cs : c!"NOUN" ∈ t.grammemes → ∃ c, Askable t c ∧ t.category pick CASES = some c := by
    intro hN
    unfold Tag.category
    rw [if_neg (h hN)]
    obtain ⟨x, hx, e⟩ := hp _ (h hN)
    exact ⟨x, by simpa [Askable] using .inr (.inr (.inr (.inr (.inr (Finset.mem_inter.1 hx))))), e⟩
  unfold numeralAgreement
  dsimp only
  split
  · exact ⟨[], rfl, by simp⟩
  split
  · next hc =>
    obtain ⟨c, hc, e⟩ := cs (pos hc.1)
    rw [e]
    split
    · exact ⟨[c!"sing", c], rfl, by simp [hc]; simp [Askable]⟩
    · exact ⟨[c!"plur", c], rfl, by simp [hc]; simp [Askable]⟩
  split
  · split
    · exact ⟨[c!"sing", c!"nomn"], rfl, by simp [Askable]⟩
    · exact ⟨[c!"sing", c!"accs"], rfl, by simp [Askable]⟩
  split
  · exact ⟨[c!"sing", c!"gent"], rfl, by simp [Askable]⟩
  split
  · exact ⟨[c!"plur", c!"nomn"], rfl, by simp [Askable]⟩
  · exact ⟨[c!"plur", c!"gent"], rfl, by simp [Askable]⟩

/-- C93 for agreement, from what it rests on. -/
theorem agree_core (m : Morph S) (sim : Sim) (p : Parse S) (fs : List (Parse S)) (hl : m.lexeme p = .ok fs)
    (hi : ∀ (sim' : Sim) (req : List Str), (∀ g ∈ req, g ∈ m.cls.known ∧ fixRare1 g ∈ m.cls.known) → ∃ res, m.inflect sim' p req = .ok res)
    (pick : Grams → Option Str) (hpick : Picks pick) (num : Int)
    (hkn : ∀ g, Askable p.tag g → g ∈ m.cls.known ∧ fixRare1 g ∈ m.cls.known) :
    (∃ res, m.makeAgree sim pick p num = .ok res) ∨
      (c!"NOUN" ∈ p.tag.grammemes ∧ CASES ∩ p.tag.grammemes = ∅ ∧ m.makeAgree sim pick p num = .error .valueError) := by
  have ask : ∀ req : List Str, (∀ g ∈ req, Askable p.tag g) → ∃ res, m.inflect sim p req = .ok res :=
    fun req hr => hi sim req fun g hg => hkn g (hr g hg)
  by_cases hN : c!"NOUN" ∈ p.tag.grammemes ∧ CASES ∩ p.tag.grammemes = ∅
  · -- either the case is asked for and missing, or it is not asked for
    cases ha : allSome (numeralAgreement pick p.tag num) with
    | some req =>
      left
      unfold Morph.makeAgree
      rw [ha]
      refine ask req ?_
      have key : ∀ (l : List (Option Str)) (r : List Str), allSome l = some r → l = r.map some := by
        intro l
        induction l with
        | nil => intro r e; cases e; rfl
        | cons a l ih =>
          intro r e
          cases a with
          | none => simp [allSome] at e
          | some a =>
            simp only [allSome, Option.map_eq_some_iff] at e
            obtain ⟨r', e1, rfl⟩ := e
            rw [ih r' e1]; rfl
      have := key _ _ ha
      have none' : p.tag.category pick CASES = none := by unfold Tag.category; rw [if_pos hN.2]
      unfold numeralAgreement at this
      dsimp only at this
      rw [none'] at this
      intro g hg
      have hg' : some g ∈ req.map some := List.mem_map_of_mem hg
      rw [← this] at hg'
      clear this none' key ha
      revert hg'
      (repeat' split) <;> simp <;> rintro (rfl | rfl) <;> simp [Askable]
    | none =>
      right
      refine ⟨hN.1, hN.2, ?_⟩
      unfold Morph.makeAgree
      rw [ha]
      have : m.cls.known ≠ ∅ := by
        intro e
        have := (hkn (c!"sing") (.inl rfl)).1
        rw [e] at this
        simp at this
      simp [hl, TagCls.assertInit, this]
  · left
    obtain ⟨req, e, hr⟩ := agreement_asked pick hpick p.tag num (fun a b => hN ⟨a, b⟩)
    rw [c20_make_agree m sim pick p num req e]
    exact ask req hr

/-- **C93, agreement.** `make_agree_with_number` works too, for every number, except that a noun without a case is refused with `ValueError`. -/
theorem c93_agree (m : Morph S) (hm : IsRu m ∨ IsUk m) (hlow : m.env.LowerStable) (hcap : m.env.CapitalInitials) (hd : m.dict.WF) (hsm : m.SmallTags)
        (w : Str) (ps : List (Parse S)) (h : m.parse w = .ok ps) (p0 : Parse S) (hp : p0 ∈ ps)
    (sim : Sim) (p : Parse S) (hob : Obtained m sim p0 p) (pick : Grams → Option Str) (hpick : Picks pick) (num : Int)
    (hkn : ∀ g, Askable p.tag g → g ∈ m.cls.known ∧ fixRare1 g ∈ m.cls.known) :
    (∃ res, m.makeAgree sim pick p num = .ok res) ∨
      (c!"NOUN" ∈ p.tag.grammemes ∧ CASES ∩ p.tag.grammemes = ∅ ∧ m.makeAgree sim pick p num = .error .valueError) := by
  obtain ⟨⟨fs, hl, _⟩, _, hi⟩ := c93_never_fails m hm hlow hcap hd hsm w ps h p0 hp sim p hob
  exact agree_core m sim p fs hl hi pick hpick num hkn

/-! ### Non-vacuity -/

/-- A word which is not in its own lexeme (C14): its only analysis has a lexeme of two forms, and everything works on all objects obtained from it. -/
example : ∃ ps, Demo.morphO.parse (c!"наиба") = .ok ps ∧ ps.length = 1 ∧ ∀ p0 ∈ ps, ∀ (sim : Sim) (p : Parse Rat), Obtained Demo.morphO sim p0 p →
    (∃ fs, Demo.morphO.lexeme p = .ok fs ∧ fs ≠ []) ∧ ∃ q, Demo.morphO.normalized p = .ok q := by
  obtain ⟨ps, hps, hk⟩ := ok_of_any (Demo.morphO.parse (c!"наиба"))
    (fun ps => decide (ps.length = 1)) (by decide +kernel)
  have hk := of_decide_eq_true hk
  refine ⟨ps, hps, hk, fun p0 h0 sim p hob => ?_⟩
  obtain ⟨h1, h2, _⟩ := c93_never_fails Demo.morphO (.inl (Demo.isRu_of _ _)) demoEnv_lowerStable Demo.capitalInitials (Dict.check_wf _ (by decide +kernel))
    (by unfold Morph.SmallTags; decide +kernel) _ ps hps p0 h0 sim p hob
  exact ⟨h1, h2⟩

/-- A compound of which both parts are inflected, not in its own lexeme (C14) either. -/
example : ∃ ps, Demo.morphH.parse (c!"белая-черный") = .ok ps ∧ ps.length = 2 ∧ ∀ p0 ∈ ps, ∀ (sim : Sim) (p : Parse Rat), Obtained Demo.morphH sim p0 p →
    (∃ fs, Demo.morphH.lexeme p = .ok fs ∧ fs ≠ []) ∧ ∃ q, Demo.morphH.normalized p = .ok q := by
  obtain ⟨ps, hps, hk⟩ := ok_of_any (Demo.morphH.parse (c!"белая-черный"))
    (fun ps => decide (ps.length = 2)) (by decide +kernel)
  have hk := of_decide_eq_true hk
  refine ⟨ps, hps, hk, fun p0 h0 sim p hob => ?_⟩
  obtain ⟨h1, h2, _⟩ := c93_never_fails Demo.morphH (.inl (Demo.isRu_of _ _)) demoEnv_lowerStable Demo.capitalInitials (Dict.check_wf _ (by decide +kernel))
    Demo.smallTags _ ps hps p0 h0 sim p hob
  exact ⟨h1, h2⟩

/-- Agreement: the analyzer of the examples knows all the grammemes that are asked for. -/
example : ∃ ps, Demo.morph.parse (c!"Кошка") = .ok ps ∧ Demo.koshka ∈ ps ∧ ∀ (sim : Sim) (pick : Grams → Option Str), Picks pick → ∀ num : Int,
    ∃ res, Demo.morph.makeAgree sim pick Demo.koshka num = .ok res := by
  obtain ⟨ps, hps, hk⟩ := ok_of_any (Demo.morph.parse (c!"Кошка")) (fun ps => decide (Demo.koshka ∈ ps)) (by decide +kernel)
  refine ⟨ps, hps, of_decide_eq_true hk, fun sim pick hp num => ?_⟩
  have hc : ∀ g ∈ CASES ∩ Demo.koshka.tag.grammemes, g ∈ Demo.morph.cls.known ∧ fixRare1 g ∈ Demo.morph.cls.known := by decide +kernel
  have he : CASES ∩ Demo.koshka.tag.grammemes ≠ ∅ := by decide +kernel
  refine (c93_agree Demo.morph (.inl Demo.morph_isRu) demoEnv_lowerStable Demo.capitalInitials Demo.dict_wf (by unfold Morph.SmallTags; decide +kernel) _ ps hps
    Demo.koshka (of_decide_eq_true hk) sim _ .start pick hp num ?_).resolve_right fun h => he h.2.1
  rintro g (rfl | rfl | rfl | rfl | rfl | hg)
  · decide +kernel
  · decide +kernel
  · decide +kernel
  · decide +kernel
  · decide +kernel
  · exact hc g (Finset.mem_inter.2 hg)

end Verif
