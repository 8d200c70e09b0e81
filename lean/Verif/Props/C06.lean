/-
C06 — unit groups: the first group that answers gives the whole answer.
-/
import Verif.Lemmas.Deriv
import Verif.Lemmas.DictCheck

set_option linter.unusedSectionVars false

namespace Verif

variable {S : Type} [Score S]

/-- What happens to the collected results after the unit loop (analyzer.py:320-326). -/
def rescored (m : Morph S) (wl : Str) (res : List (Parse S)) : Except PyErr (List (Parse S)) :=
  match m.est with
  | some dawg => applyToParses dawg wl res
  | none => .ok res

/-- C06 for `parse`.  For an analyzer constructed with any `units` argument: before scoring, the result of `parse(w)` is
exactly the concatenated output of the units of the first group that returns anything, each group starting afresh; groups
before it return nothing, groups after it do not matter. -/
theorem c06_parse_first_group (env : Env) (dict : Dict) (cls : TagCls) (sub : Subst) (items : List (List (UnitSpec S)))
    (est : Option (List (Str × Nat))) (m : Morph S) (hm : mkMorph env dict cls sub items est = .ok m) (w : Str)
    (ps : List (Parse S)) :
    m.parse w = .ok ps ↔ ∃ res,
      FirstAnswer (fun g => groupParse m (analyze m (m.env.lower w).length) w (m.env.lower w) g [])
        (boundGroups items 0) res ∧
      rescored m (m.env.lower w) res = .ok ps := by
  have hg := (mkMorph_units hm).2.2.2.2
  unfold Morph.parse Morph.depth
  simp only [analyze, parseStep, bind_ok_iff]
  rw [runParse_eq_firstGroup m _ w _ _ _ hg]
  constructor
  · rintro ⟨res, h1, h2⟩
    refine ⟨res, (firstGroup_iff _ _ _).1 h1, ?_⟩
    unfold rescored
    split at h2 <;> simp_all
  · rintro ⟨res, h1, h2⟩
    refine ⟨res, (firstGroup_iff _ _ _).2 h1, ?_⟩
    unfold rescored at h2
    split at h2 <;> simp_all

/-- C06 for `tag`; the order of the answer may then be changed by P(t|w) data. -/
theorem c06_tag_first_group (env : Env) (dict : Dict) (cls : TagCls) (sub : Subst) (items : List (List (UnitSpec S)))
    (est : Option (List (Str × Nat))) (m : Morph S) (hm : mkMorph env dict cls sub items est = .ok m) (w : Str)
    (ts : List Tag) (h : m.tag w = .ok ts) :
    ∃ res, FirstAnswer (fun g => groupTag m (analyze m (m.env.lower w).length) w (m.env.lower w) g [])
        (boundGroups items 0) res ∧ ts.Perm res ∧ (m.est = none → ts = res) := by
  have hg := (mkMorph_units hm).2.2.2.2
  unfold Morph.tag Morph.depth at h
  simp only [analyze, tagStep, bind_ok_iff] at h
  rw [runTag_eq_firstGroup m _ w _ _ _ hg] at h
  obtain ⟨res, h1, h2⟩ := h
  refine ⟨res, (firstGroup_iff _ _ _).1 h1, ?_⟩
  split at h2
  · next he => simp at h2; subst h2; exact ⟨applyToTags_perm _ _ _, by simp [he]⟩
  · simp at h2; subst h2; exact ⟨.refl _, fun _ => rfl⟩

/-- Is the result a direct dictionary answer, and for which entry. -/
def Parse.dictEntry (p : Parse S) : Option (Str × Nat × Nat) :=
  match p.stack with
  | .push .nil (.dict _ v para idx) => some (v, para, idx)
  | _ => none

/-- Is the result an initial (abbreviated first name or patronymic). -/
def Parse.isInitial (p : Parse S) : Bool :=
  match p.stack with
  | .push .nil (.simple u _) => match u.kind with | .firstName _ _ => true | .patronymic _ => true | _ => false
  | _ => false

/-- Is the result one of a shape unit (number, punctuation, Latin, Roman). -/
def Parse.isShape (p : Parse S) : Bool :=
  match p.stack with
  | .push .nil (.simple u _) => u.kind == .shape
  | _ => false

theorem dictParse_entries (m : Morph S) (u : UObj) (wl : Str) (ps : List (Parse S)) (h : dictParse m u wl = .ok ps) :
    ps.filterMap Parse.dictEntry = lookup m.dict.words m.sub wl := by
  unfold dictParse at h
  replace h := (mapE_ok_iff _ _ _).1 h
  generalize lookup m.dict.words m.sub wl = l at h
  induction h with
  | nil => rfl
  | cons h1 _ ih =>
    simp only [dictParse1, bind_ok_iff, pure_eq_ok, Except.ok.injEq] at h1
    obtain ⟨nf, _, tag, _, rfl⟩ := h1
    rw [List.filterMap_cons]
    simp only [Parse.dictEntry, Stack.single]
    rw [ih]

/-- Which unit classes answer with a single plain method. -/
theorem unitParse_group0 (m : Morph S) (rec : Rec S) (u : BUnit S) (word wl : Str) (seen : Seen)
    (r : List (Parse S) × Seen) (h : unitParse m rec u word wl seen = .ok r) (p : Parse S) (hp : p ∈ r.1) :
    match u.cfg with
    | .dictionary => p.dictEntry.isSome = true ∧ (∃ v ∈ m.dict.words, v.1 = p.word)
    | .firstName _ _ _ _ | .patronymic _ _ _ => p.dictEntry = none ∧ p.isInitial = true ∧ p.word = wl ∧ p.nf = wl
    | .number _ _ _ | .punct _ _ | .latin _ _ | .roman _ _ =>
      p.dictEntry = none ∧ p.isShape = true ∧ p.word = wl ∧ p.nf = wl
    | _ => p.dictEntry = none := by
  unfold unitParse at h
  split at h
  · next hk =>
    simp only [bind_ok_iff, pure_eq_ok, Except.ok.injEq] at h
    obtain ⟨ps, hps, rfl⟩ := h
    obtain ⟨para, idx, h1, h2, h3, h4, _, h5⟩ := dictParse_mem m _ wl ps hps p hp
    simp only [hk, Parse.dictEntry, h5, Stack.single]
    exact ⟨rfl, _, h2, rfl⟩
  iterate 2
    next hk =>
    simp only [Except.ok.injEq] at h
    subst h
    dsimp only [initialsParse] at hp
    split at hp
    · obtain ⟨t, ht, rfl⟩ := List.mem_map.1 hp
      simp [hk, Parse.dictEntry, Parse.isInitial, Stack.single, BUnit.obj, UnitCfg.kind]
    · simp at hp
  iterate 4
    next hk =>
    simp only [bind_ok_iff, pure_eq_ok, Except.ok.injEq] at h
    obtain ⟨t, ht, rfl⟩ := h
    cases t with
    | none => simp [shapeParse] at hp
    | some t =>
      simp only [shapeParse, List.mem_singleton] at hp
      subst hp
      simp [hk, Parse.dictEntry, Parse.isShape, Stack.single, BUnit.obj, UnitCfg.kind]
  · next parts mult hk =>
    simp only [hk]
    split at h
    · simp at h; subst h; simp at hp
    · simp only [bind_ok_iff, pure_eq_ok, Except.ok.injEq] at h
      obtain ⟨ps, hps, rfl⟩ := h
      obtain ⟨q, hq, rfl⟩ := List.mem_map.1 (addParses_mem hp)
      cases hq : q.stack <;> simp [Parse.dictEntry, particleDeco, hq]
  · next hk =>
    simp only [hk]
    simp only [bind_ok_iff, pure_eq_ok, Except.ok.injEq] at h
    obtain ⟨b, hb, rfl⟩ := h
    cases b with
    | false => simp at hp
    | true => simp at hp; subst hp; simp [Parse.dictEntry, Stack.single]
  · next skip mult hk =>
    simp only [hk]
    simp only [bind_ok_iff, pure_eq_ok, Except.ok.injEq] at h
    obtain ⟨ps, hps, rfl⟩ := h
    unfold hyphenParse at hps
    split at hps
    · simp only [bind_ok_iff, pure_eq_ok, Except.ok.injEq] at hps
      obtain ⟨lp, hlp, rp, hrp, rfl⟩ := hps
      rcases List.mem_append.1 hp with hp | hp
      · obtain ⟨l, hl1, r, hr1, _, _, rfl⟩ := parseBoth_mem _ _ _ _ _ hp
        simp [Parse.dictEntry, Stack.single]
      · obtain ⟨r, hr1, _, rfl⟩ := parseFixed_mem _ _ _ _ _ hp
        simp [Parse.dictEntry, Stack.single]
    · simp at hps; subst hps; simp at hp
  iterate 2
    next hk =>
    simp only [hk]
    simp only [bind_ok_iff, pure_eq_ok, Except.ok.injEq] at h
    obtain ⟨ps, hps, rfl⟩ := h
    obtain ⟨pre, rest, qs, q, hs, hqs, hq, hprod, rfl⟩ := prefixCands_mem _ _ _ _ _ hps _ (addParses_mem hp)
    cases hq : q.stack <;> simp [Parse.dictEntry]
  · next hk =>
    simp only [hk]
    unfold suffixParse at h
    split at h
    · simp at h; subst h; simp at hp
    · simp only [bind_ok_iff, pure_eq_ok, Except.ok.injEq] at h
      obtain ⟨r', hr', ps, hps, rfl⟩ := h
      have hp := (sortByScore_perm ps).mem_iff.1 hp
      obtain ⟨⟨c, tot⟩, hc, hb⟩ := mapE_mem hps hp
      simp only [sfxBuild, bind_ok_iff, pure_eq_ok, Except.ok.injEq] at hb
      obtain ⟨nf, hnf, rfl⟩ := hb
      simp [Parse.dictEntry]
  · next hk =>
    simp only [hk]
    simp only [Except.ok.injEq] at h
    subst h
    dsimp only at hp
    split at hp
    · simp at hp; subst hp; simp [Parse.dictEntry, Stack.single]
    · simp at hp

/-- The stack-based classifications do not depend on the score. -/
theorem core_eq_iff (p q : Parse S) : p.core = q.core ↔ p.word = q.word ∧ p.tag = q.tag ∧ p.nf = q.nf ∧ p.stack = q.stack := by
  simp [Parse.core]

/-- If the first group answers, all results come from it. -/
theorem parse_of_first_group (env : Env) (dict : Dict) (cls : TagCls) (sub : Subst) (g0 : List (UnitSpec S))
    (items : List (List (UnitSpec S))) (est : Option (List (Str × Nat))) (m : Morph S)
    (hm : mkMorph env dict cls sub (g0 :: items) est = .ok m) (w : Str) (ps : List (Parse S)) (h : m.parse w = .ok ps) :
    ∃ r0, groupParse m (analyze m (m.env.lower w).length) w (m.env.lower w)
        (g0.mapIdx fun i sp => ⟨0 + i, sp.bound⟩) [] = .ok r0 ∧
      (r0 ≠ [] → (ps.map Parse.core).Perm (r0.map Parse.core)) := by
  obtain ⟨res, hres, hsc⟩ := (c06_parse_first_group env dict cls sub (g0 :: items) est m hm w ps).1 h
  have hperm : (ps.map Parse.core).Perm (res.map Parse.core) := by
    unfold rescored at hsc
    split at hsc
    · exact applyToParses_core _ _ _ _ hsc
    · simp at hsc; subst hsc; exact .refl _
  rw [← firstGroup_iff, boundGroups, firstGroup, bind_ok_iff] at hres
  obtain ⟨r0, hr0, hres⟩ := hres
  refine ⟨r0, hr0, ?_⟩
  intro hne
  cases r0 with
  | nil => exact absurd rfl hne
  | cons a as => simp at hres; subst hres; exact hperm

/-- C06, in particular: when the dictionary has a spelling of the word, `parse` of the default Russian analyzer returns
only dictionary entries and initials; of the default Ukrainian analyzer also Latin/Roman shapes (same group).  No
predicted result appears, whatever the other units would say. -/
theorem c06_known_word_not_predicted (m : Morph S) (w : Str) (hknown : m.wordIsKnown w = true) (ps : List (Parse S))
    (h : m.parse w = .ok ps) :
    (IsRu m → ∀ p ∈ ps, p.dictEntry.isSome = true ∨ p.isInitial = true) ∧
    (IsUk m → ∀ p ∈ ps, p.dictEntry.isSome = true ∨ p.isInitial = true ∨ p.isShape = true) := by
  have hl : lookup m.dict.words m.sub (m.env.lower w) ≠ [] := by
    simp only [Morph.wordIsKnown, Dict.wordIsKnown, Bool.false_eq_true, if_false, Bool.not_eq_true',
      List.isEmpty_eq_false_iff] at hknown
    obtain ⟨v, hv⟩ := List.exists_mem_of_ne_nil _ hknown
    obtain ⟨h1, r, h2⟩ := (Dawg.mem_similarKeys _ _ _ _).1 hv
    exact List.ne_nil_of_mem ((mem_lookup _ _ _ _ _).2 ⟨h1, h2⟩)
  have hne : ∀ (us : List (BUnit S)) (n : Nat) (rec : Rec S) (r0 : List (Parse S)),
      groupParse m rec w (m.env.lower w) (⟨n, .dictionary⟩ :: us) [] = .ok r0 → r0 ≠ [] := by
    intro us n rec r0 hr0
    simp only [groupParse, unitParse, bind_ok_iff, pure_eq_ok, Except.ok.injEq] at hr0
    obtain ⟨r, ⟨ps', hps', rfl⟩, rest, _, rfl⟩ := hr0
    have := dictParse_entries m _ _ _ hps'
    intro e
    have := (List.append_eq_nil_iff.1 e).1
    dsimp only at this
    subst this
    simp at *
    exact hl (by simpa using this.symm)
  constructor
  · rintro ⟨cls, hm⟩ p hp
    unfold ruUnits at hm
    obtain ⟨r0, hr0, hperm⟩ := parse_of_first_group _ _ _ _ _ _ _ m hm w ps h
    have hperm := hperm (hne _ _ _ _ hr0)
    obtain ⟨q, hq, he⟩ := List.mem_map.1 (hperm.mem_iff.1 (List.mem_map.2 ⟨p, hp, rfl⟩))
    obtain ⟨u, hu, seen, r, hr, hqr⟩ := groupParse_mem _ _ _ _ _ _ _ hr0 q hq
    have key := unitParse_group0 _ _ _ _ _ _ _ hr q hqr
    have he := (core_eq_iff _ _).1 he
    simp only [List.mapIdx_cons, List.mapIdx_nil, List.mem_cons, List.not_mem_nil, or_false] at hu
    have e1 : p.dictEntry = q.dictEntry := by simp [Parse.dictEntry, he]
    have e2 : p.isInitial = q.isInitial := by simp [Parse.isInitial, he]
    rw [e1, e2]
    rcases hu with rfl | rfl | rfl
    · exact .inl key.1
    · exact .inr key.2.1
    · exact .inr key.2.1
  · rintro ⟨cls, hm⟩ p hp
    unfold ukUnits at hm
    obtain ⟨r0, hr0, hperm⟩ := parse_of_first_group _ _ _ _ _ _ _ m hm w ps h
    have hperm := hperm (hne _ _ _ _ hr0)
    obtain ⟨q, hq, he⟩ := List.mem_map.1 (hperm.mem_iff.1 (List.mem_map.2 ⟨p, hp, rfl⟩))
    obtain ⟨u, hu, seen, r, hr, hqr⟩ := groupParse_mem _ _ _ _ _ _ _ hr0 q hq
    have key := unitParse_group0 _ _ _ _ _ _ _ hr q hqr
    have he := (core_eq_iff _ _).1 he
    simp only [List.mapIdx_cons, List.mapIdx_nil, List.mem_cons, List.not_mem_nil, or_false] at hu
    have e1 : p.dictEntry = q.dictEntry := by simp [Parse.dictEntry, he]
    have e2 : p.isInitial = q.isInitial := by simp [Parse.isInitial, he]
    have e3 : p.isShape = q.isShape := by simp [Parse.isShape, he]
    rw [e1, e2, e3]
    rcases hu with rfl | rfl | rfl | rfl | rfl
    · exact .inl key.1
    · exact .inr (.inl key.2.1)
    · exact .inr (.inl key.2.1)
    · exact .inr (.inr key.2.1)
    · exact .inr (.inr key.2.1)

/-! Non-vacuity (tests): a constructed analyzer, a known word, a word answered by a later group. -/
example : IsRu Demo.morph := Demo.morph_isRu
example : Demo.morph.wordIsKnown (c!"Кошка") = true := by decide +kernel
example : (Demo.morph.parse (c!"мошка")).toOption.map (·.map Parse.dictEntry) = some [none] := by decide +kernel

end Verif
