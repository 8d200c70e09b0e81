/-
C60 — what prefix removal returns.
-/
import Verif.Lemmas.Answering
import Verif.Props.C01
import Verif.Props.C40
import Verif.Props.C42

set_option linter.unusedSectionVars false

namespace Verif

variable {S : Type} [Score S]

/-- A result obtained by removing the prefix `pre` (method number `u`). -/
def Parse.byPrefix (p : Parse S) (u : UObj) (pre : Str) : Prop := ∃ rest, p.stack = .push rest (.simple u pre) ∧ u.kind = .pref

/-- `p` is `q` with `pre` put in front of the word and of the normal form (scores apart). -/
def Parse.prefixedBy (p q : Parse S) (u : UObj) (pre : Str) : Prop :=
  p.word = pre ++ q.word ∧ p.tag = q.tag ∧ p.nf = pre ++ q.nf ∧ p.stack = .push q.stack (.simple u pre)

/-- No known prefix of the `units` argument is the empty string. -/
def ProperPrefixes (items : List (List (UnitSpec S))) : Prop := ∀ g ∈ items, ∀ ps mult k, .knownPrefix ps mult k ∈ g → [] ∉ ps

theorem properPrefixes_units {items : List (List (UnitSpec S))} (hi : ProperPrefixes items) {m : Morph S} {cls : TagCls}
    (hm : mkMorph m.env m.dict cls m.sub items m.est = .ok m) : ∀ u ∈ m.units, u.1.cfg.properPrefixes := by
  intro u hu
  obtain ⟨g, hg, hug⟩ := (mem_of_isGroups (mkMorph_units hm).2.2.2.2 u.1).1 ⟨u.2, hu⟩
  obtain ⟨g', hg', sp, hsp, hcfg⟩ := mem_boundGroups items 0 g hg u.1 hug
  rw [hcfg]
  cases sp <;> simp only [UnitSpec.bound, UnitCfg.properPrefixes]
  exact hi g' hg' _ _ _ hsp

theorem prefixCands_iff (u : UObj) (mult : S) (f : Str → Except PyErr (List (Parse S))) (sp : List (Str × Str)) (out : List (Parse S))
    (h : prefixCands u mult f sp = .ok out) (p : Parse S) :
    p ∈ out ↔ ∃ s ∈ sp, ∃ qs, f s.2 = .ok qs ∧ ∃ q ∈ qs, q.tag.isProductive = true ∧
      p = ⟨s.1 ++ q.word, q.tag, s.1 ++ q.nf, Score.mul q.score mult, .push q.stack (.simple u s.1)⟩ := by
  simp only [prefixCands, bind_ok_iff, pure_eq_ok, Except.ok.injEq] at h
  obtain ⟨ps, hps, rfl⟩ := h
  rw [List.mem_flatten]
  constructor
  · rintro ⟨l, hl, hp⟩
    obtain ⟨s, hs, hb⟩ := mapE_mem hps hl
    simp only [bind_ok_iff, pure_eq_ok, Except.ok.injEq] at hb
    obtain ⟨qs, hqs, rfl⟩ := hb
    obtain ⟨q, hq, rfl⟩ := List.mem_map.1 hp
    rw [List.mem_filter] at hq
    exact ⟨s, hs, qs, hqs, q, hq.1, hq.2, rfl⟩
  · rintro ⟨s, hs, qs, hqs, q, hq, hpr, rfl⟩
    obtain ⟨l, hl, hb⟩ := mapE_mem' hps hs
    simp only [hqs, ok_bind, pure_eq_ok, Except.ok.injEq] at hb
    subst hb
    exact ⟨_, hl, List.mem_map.2 ⟨q, List.mem_filter.2 ⟨hq, hpr⟩, rfl⟩⟩

theorem prefixCands_rest (u : UObj) (mult : S) (f : Str → Except PyErr (List (Parse S))) (sp : List (Str × Str)) (out : List (Parse S))
    (h : prefixCands u mult f sp = .ok out) (s : Str × Str) (hs : s ∈ sp) : ∃ qs, f s.2 = .ok qs := by
  simp only [prefixCands, bind_ok_iff, pure_eq_ok, Except.ok.injEq] at h
  obtain ⟨ps, hps, rfl⟩ := h
  obtain ⟨l, hl, hb⟩ := mapE_mem' hps hs
  simp only [bind_ok_iff, pure_eq_ok, Except.ok.injEq] at hb
  obtain ⟨qs, hqs, _⟩ := hb
  exact ⟨qs, hqs⟩

theorem outer_of_byPrefix {p : Parse S} {u : UObj} {pre : Str} {v : BUnit S} {k : UKind} (h : ∃ rest, p.stack = .push rest (.simple u pre) ∧ u.kind = k)
    (ho : p.outer = some v.obj) : v.obj = u ∧ v.cfg.kind = k := by
  obtain ⟨rest, hst, hk⟩ := h
  simp only [Parse.outer, hst, Method.obj, Option.some.injEq] at ho
  subst ho
  exact ⟨rfl, hk⟩

theorem dictParse_iff (m : Morph S) (u : UObj) (w : Str) (qs : List (Parse S)) (h : dictParse m u w = .ok qs) (q : Parse S) :
    q ∈ qs ↔ ∃ v para idx, Spells m.sub w v ∧ (v, (para, idx)) ∈ m.dict.words ∧ ∃ nf, m.dict.normalForm para idx v = .ok nf ∧
      ∃ tag, m.dict.tagInfo para idx = .ok tag ∧ q = ⟨v, tag, nf, Score.one, .single (.dict u v para idx)⟩ := by
  constructor
  · intro hq
    obtain ⟨e, he, hb⟩ := mapE_mem h hq
    simp only [dictParse1, bind_ok_iff, pure_eq_ok, Except.ok.injEq] at hb
    obtain ⟨nf, hnf, tag, htag, rfl⟩ := hb
    obtain ⟨h1, h2⟩ := (mem_lookup _ _ _ _ _).1 he
    exact ⟨e.1, e.2.1, e.2.2, h1, h2, nf, hnf, tag, htag, rfl⟩
  · rintro ⟨v, para, idx, h1, h2, nf, hnf, tag, htag, rfl⟩
    obtain ⟨q, hq, hb⟩ := mapE_mem' h ((mem_lookup m.dict.words m.sub w v (para, idx)).2 ⟨h1, h2⟩)
    simp only [dictParse1, pure_eq_ok, Except.ok.injEq, hnf, htag, ok_bind] at hb
    subst hb
    exact hq

/-- C60, soundness, for any `units` argument (without empty known prefixes): a result obtained by removing `pre` comes either from an answer of
`parse` for the rest of the word, where `pre` is a known prefix, or from a dictionary entry the rest of the word spells, where `pre` has at most
five letters and the rest at least three; never from an unproductive one. -/
theorem c60_prefix_sound (items : List (List (UnitSpec S))) (hi : ProperPrefixes items) (m : Morph S) (hlow : m.env.LowerStable) (cls : TagCls)
    (hm : mkMorph m.env m.dict cls m.sub items m.est = .ok m) (w : Str) (ps : List (Parse S))
    (h : m.parse w = .ok ps) (p : Parse S) (hp : p ∈ ps) (u : UObj) (pre : Str) (hu : p.byPrefix u pre) :
    ∃ g ∈ items, ∃ rest, m.env.lower w = pre ++ rest ∧ p.tag.isProductive = true ∧
      ((∃ prefixes mult k, .knownPrefix prefixes mult k ∈ g ∧ pre ∈ prefixes ∧ k ≤ rest.length ∧
          ∃ qs, m.parse rest = .ok qs ∧ ∃ q ∈ qs, p.prefixedBy q u pre) ∨
       (∃ mult, .unknownPrefix mult ∈ g ∧ 1 ≤ pre.length ∧ pre.length ≤ 5 ∧ 3 ≤ rest.length ∧
          ∃ v para idx, Spells m.sub rest v ∧ (v, (para, idx)) ∈ m.dict.words ∧ m.dict.tagInfo para idx = .ok p.tag ∧
            p.word = pre ++ v ∧ p.paradigm? = some para ∧ ∃ nf, m.dict.normalForm para idx v = .ok nf ∧ p.nf = pre ++ nf)) := by
  rw [(parse_unfold m hlow (properPrefixes_units hi hm) w).1] at h
  obtain ⟨g, hg, v, hv, ho, seen, r, hr, q, hq, he⟩ := result_unit hm _ w ps h p hp
  obtain ⟨hvu, hvk⟩ := outer_of_byPrefix hu ho
  obtain ⟨e1, e2, e3, e4⟩ := (core_eq_iff _ _).1 he
  obtain ⟨stk, hst, -⟩ := hu
  obtain ⟨g', hg', sp, hsp, hcfg⟩ := mem_boundGroups items 0 g hg v hv
  refine ⟨g', hg', ?_⟩
  unfold unitParse at hr
  cases sp <;> rw [hcfg] at hvk <;> simp only [UnitSpec.bound, UnitCfg.kind, reduceCtorEq] at hvk hcfg
  case knownPrefix prefixes mult k =>
    rw [hcfg] at hr
    simp only [bind_ok_iff, pure_eq_ok, Except.ok.injEq] at hr
    obtain ⟨cs, hcs, rfl⟩ := hr
    obtain ⟨s, hs, qs, hqs, q', hq', hpr, rfl⟩ := (prefixCands_iff _ _ _ _ _ hcs q).1 ((addParses_sub _ _).subset hq)
    obtain ⟨a1, a2, a3⟩ := (c42_splits_mem _ _ _ _ _).1 hs
    have hpre : s.1 = pre := by rw [hst] at e4; injection e4 with _ e4; injection e4
    subst hpre
    refine ⟨s.2, a2, by rw [← e2]; exact hpr, .inl ⟨prefixes, mult, k, hsp, a1, a3, qs, hqs, q', hq', e1.symm, e2.symm, e3.symm, ?_⟩⟩
    rw [← e4, hvu]
  case unknownPrefix mult =>
    rw [hcfg] at hr
    simp only [bind_ok_iff, pure_eq_ok, Except.ok.injEq] at hr
    obtain ⟨cs, hcs, rfl⟩ := hr
    obtain ⟨s, hs, qs, hqs, q', hq', hpr, rfl⟩ := (prefixCands_iff _ _ _ _ _ hcs q).1 ((addParses_sub _ _).subset hq)
    obtain ⟨a1, a2, a3, a4⟩ := (c40_word_splits_mem _ _ _ _ _).1 hs
    have hpre : s.1 = pre := by rw [hst] at e4; injection e4 with _ e4; injection e4
    subst hpre
    obtain ⟨v', para, idx, b1, b2, nf, b3, tag, b4, rfl⟩ := (dictParse_iff _ _ _ _ hqs q').1 hq'
    refine ⟨s.2, a1.symm, by rw [← e2]; exact hpr, .inr ⟨mult, hsp, a2, a3, a4, v', para, idx, b1, b2, by rw [← e2]; exact b4, e1.symm, ?_, nf, b3, e3.symm⟩⟩
    unfold Parse.paradigm?
    rw [← e4]
    rfl

theorem mem_of_key (ps res : List (Parse S)) (hperm : (ps.map Parse.core).Perm (res.map Parse.core)) (q : Parse S) (hq : ∃ p ∈ res, p.key = q.key) :
    ∃ p ∈ ps, p.word = q.word ∧ p.tag.eqv q.tag = true ∧ p.paradigm? = q.paradigm? := by
  obtain ⟨p, hp, he⟩ := hq
  obtain ⟨p', hp', he'⟩ := List.mem_map.1 (hperm.mem_iff.2 (List.mem_map.2 ⟨p, hp, rfl⟩))
  obtain ⟨e1, e2, e3, e4⟩ := (core_eq_iff _ _).1 he'
  simp only [Parse.key, SeenKey.reduced.injEq] at he
  refine ⟨p', hp', by rw [e1, he.1], by rw [e2]; simp [Tag.eqv, he.2.1], ?_⟩
  unfold Parse.paradigm?
  rw [e4]
  have h3 := he.2.2
  cases h1 : p.stack.first with
  | none =>
    cases h2 : q.stack.first with
    | none => rfl
    | some m2 => rw [h1, h2] at h3; cases m2 <;> simp [Method.key3] at h3 ⊢
  | some m1 =>
    cases h2 : q.stack.first with
    | none => rw [h1, h2] at h3; cases m1 <;> simp [Method.key3] at h3 ⊢
    | some m2 => rw [h1, h2] at h3; cases m1 <;> cases m2 <;> simp [Method.key3] at h3 ⊢ <;> exact h3

/-- When the answer comes from a group, every candidate of every prefix unit of the group is represented in it. -/
theorem group_addParses (items : List (List (UnitSpec S))) (m : Morph S) (cls : TagCls) (rec : Rec S)
    (hm : mkMorph m.env m.dict cls m.sub items m.est = .ok m) (w : Str) (ps : List (Parse S))
    (h : parseStep m rec w = .ok ps) (g : List (BUnit S)) (hg : g ∈ boundGroups items 0) (q : Parse S) (hq : q ∈ ps) (v : BUnit S) (hv : v ∈ g)
    (ho : q.outer = some v.obj) (u : BUnit S) (hu : u ∈ g) :
    ∃ seen r, unitParse m rec u w (m.env.lower w) seen = .ok r ∧
      ∀ cs, r = addParses cs seen → ∀ c ∈ cs, ∃ p ∈ ps, p.word = c.word ∧ p.tag.eqv c.tag = true ∧ p.paradigm? = c.paradigm? := by
  obtain ⟨res, hres, hperm⟩ := answering_group hm rec w ps h g hg q hq v hv ho
  obtain ⟨seen, r, hr, hsub, hseen⟩ := groupParse_unit_seen m rec w _ g res hres u hu
  refine ⟨seen, r, hr, ?_⟩
  rintro cs rfl c hc
  apply mem_of_key ps res hperm
  rcases ((addParses_spec cs seen).2.2 _).1 (addParses_seen cs seen c hc) with h | h
  · rcases hseen _ h with h | ⟨x, h⟩
    · exact h
    · simp [Parse.key] at h
  · obtain ⟨p, hp, he⟩ := List.mem_map.1 h
    exact ⟨p, hsub p hp, he⟩

/-- C60, completeness for known prefixes, for any `units` argument: when the answer comes from a group with a known-prefix unit, then for every
known prefix the word begins with (with enough letters after it) every productive answer for the rest is represented. -/
theorem c60_known_prefix_complete (items : List (List (UnitSpec S))) (hi : ProperPrefixes items) (m : Morph S) (hlow : m.env.LowerStable)
    (cls : TagCls) (hm : mkMorph m.env m.dict cls m.sub items m.est = .ok m) (w : Str) (ps : List (Parse S))
    (h : m.parse w = .ok ps) (g : List (BUnit S)) (hg : g ∈ boundGroups items 0) (q : Parse S) (hq : q ∈ ps) (v : BUnit S) (hv : v ∈ g)
    (ho : q.outer = some v.obj) (u : BUnit S) (hu : u ∈ g) (prefixes : List Str) (mult : S) (k : Nat) (hc : u.cfg = .knownPrefix prefixes mult k)
    (pre rest : Str) (hpre : pre ∈ prefixes) (hw : m.env.lower w = pre ++ rest) (hk : k ≤ rest.length) :
    ∃ qs, m.parse rest = .ok qs ∧ ∀ q ∈ qs, q.tag.isProductive = true →
      ∃ p ∈ ps, p.word = pre ++ q.word ∧ p.tag.eqv q.tag = true ∧ p.paradigm? = q.paradigm? := by
  rw [(parse_unfold m hlow (properPrefixes_units hi hm) w).1] at h
  obtain ⟨seen, r, hr, hall⟩ := group_addParses items m cls _ hm w ps h g hg q hq v hv ho u hu
  unfold unitParse at hr
  simp only [hc, bind_ok_iff, pure_eq_ok, Except.ok.injEq] at hr
  obtain ⟨cs, hcs, rfl⟩ := hr
  have hmem := (c42_splits_mem prefixes k (m.env.lower w) pre rest).2 ⟨hpre, hw, hk⟩
  obtain ⟨qs, hqs⟩ := prefixCands_rest _ _ _ _ _ hcs _ hmem
  refine ⟨qs, hqs, ?_⟩
  intro q hq hpr
  obtain ⟨p, hp, h1, h2, h3⟩ := hall cs rfl _ ((prefixCands_iff _ _ _ _ _ hcs _).2 ⟨(pre, rest), hmem, qs, hqs, q, hq, hpr, rfl⟩)
  refine ⟨p, hp, h1, h2, ?_⟩
  rw [h3]
  unfold Parse.paradigm?
  cases hst : q.stack with
  | nil => rfl
  | push r m => rfl

/-- C60, completeness for unknown prefixes: when the answer comes from a group with an unknown-prefix unit, every productive dictionary entry that the
word spells without its first one to five letters (at least three remain) is represented. -/
theorem c60_unknown_prefix_complete (items : List (List (UnitSpec S))) (m : Morph S)
    (cls : TagCls) (hm : mkMorph m.env m.dict cls m.sub items m.est = .ok m) (w : Str) (ps : List (Parse S))
    (h : m.parse w = .ok ps) (g : List (BUnit S)) (hg : g ∈ boundGroups items 0) (q : Parse S) (hq : q ∈ ps) (v : BUnit S) (hv : v ∈ g)
    (ho : q.outer = some v.obj) (u : BUnit S) (hu : u ∈ g) (mult : S) (hc : u.cfg = .unknownPrefix mult)
    (pre rest : Str) (hw : m.env.lower w = pre ++ rest) (h1 : 1 ≤ pre.length) (h5 : pre.length ≤ 5) (h3 : 3 ≤ rest.length)
    (x : Str) (para idx : Nat) (hx : Spells m.sub rest x) (hd : (x, (para, idx)) ∈ m.dict.words) :
    ∃ tag, m.dict.tagInfo para idx = .ok tag ∧ (tag.isProductive = true →
      ∃ p ∈ ps, p.word = pre ++ x ∧ p.tag.eqv tag = true ∧ p.paradigm? = some para) := by
  obtain ⟨seen, r, hr, hall⟩ := group_addParses items m cls _ hm w ps h g hg q hq v hv ho u hu
  unfold unitParse at hr
  simp only [hc, bind_ok_iff, pure_eq_ok, Except.ok.injEq] at hr
  obtain ⟨cs, hcs, rfl⟩ := hr
  have hmem := (c40_word_splits_mem (m.env.lower w) pre rest 3 5).2 ⟨hw.symm, h1, h5, h3⟩
  obtain ⟨qs, hqs⟩ := prefixCands_rest _ _ _ _ _ hcs _ hmem
  obtain ⟨q', hq', hb⟩ := mapE_mem' hqs ((mem_lookup m.dict.words m.sub rest x (para, idx)).2 ⟨hx, hd⟩)
  simp only [dictParse1, bind_ok_iff, pure_eq_ok, Except.ok.injEq] at hb
  obtain ⟨nf, hnf, tag, htag, rfl⟩ := hb
  refine ⟨tag, htag, fun hpr => ?_⟩
  exact hall cs rfl _ ((prefixCands_iff _ _ _ _ _ hcs _).2 ⟨(pre, rest), hmem, qs, hqs, _, hq', hpr, rfl⟩)

theorem ru_properPrefixes : ProperPrefixes (ruUnits (S := S)) := by
  intro g hg ps mult k h
  simp only [ruUnits, List.mem_cons, List.not_mem_nil, or_false] at hg
  rcases hg with rfl | rfl | rfl | rfl | rfl | rfl | rfl | rfl | rfl | rfl <;> simp at h
  obtain ⟨rfl, _⟩ := h
  decide +kernel

theorem uk_properPrefixes : ProperPrefixes (ukUnits (S := S)) := by
  intro g hg ps mult k h
  simp only [ukUnits, List.mem_cons, List.not_mem_nil, or_false] at hg
  rcases hg with rfl | rfl | rfl | rfl | rfl | rfl | rfl | rfl <;> simp at h
  obtain ⟨rfl, _⟩ := h
  decide +kernel

/-- C60 for the Russian analyzer. -/
theorem c60_ru (m : Morph S) (hm : IsRu m) (hlow : m.env.LowerStable) (w : Str) (ps : List (Parse S))
    (h : m.parse w = .ok ps) (p : Parse S) (hp : p ∈ ps) (u : UObj) (pre : Str) (hu : p.byPrefix u pre) :
    ∃ rest, m.env.lower w = pre ++ rest ∧ p.tag.isProductive = true ∧ 3 ≤ rest.length ∧
      ((pre ∈ ruKnownPrefixes ∧ ∃ qs, m.parse rest = .ok qs ∧ ∃ q ∈ qs, p.prefixedBy q u pre) ∨
       (1 ≤ pre.length ∧ pre.length ≤ 5 ∧
          ∃ v para idx, Spells m.sub rest v ∧ (v, (para, idx)) ∈ m.dict.words ∧ m.dict.tagInfo para idx = .ok p.tag ∧
            p.word = pre ++ v ∧ p.paradigm? = some para ∧ ∃ nf, m.dict.normalForm para idx v = .ok nf ∧ p.nf = pre ++ nf)) := by
  obtain ⟨cls, hm⟩ := hm
  obtain ⟨g, hg, rest, hw, hpr, hh⟩ := c60_prefix_sound ruUnits ru_properPrefixes m hlow cls hm w ps h p hp u pre hu
  refine ⟨rest, hw, hpr, ?_⟩
  simp only [ruUnits, List.mem_cons, List.not_mem_nil, or_false] at hg
  rcases hh with ⟨prefixes, mult, k, hk, h1, h2, h3⟩ | ⟨mult, _, h1, h2, h3, h4⟩
  · rcases hg with rfl | rfl | rfl | rfl | rfl | rfl | rfl | rfl | rfl | rfl <;> simp at hk
    obtain ⟨rfl, _, rfl⟩ := hk
    exact ⟨h2, .inl ⟨h1, h3⟩⟩
  · exact ⟨h3, .inr ⟨h1, h2, h4⟩⟩

/-- C60 for the Ukrainian analyzer. -/
theorem c60_uk (m : Morph S) (hm : IsUk m) (hlow : m.env.LowerStable) (w : Str) (ps : List (Parse S))
    (h : m.parse w = .ok ps) (p : Parse S) (hp : p ∈ ps) (u : UObj) (pre : Str) (hu : p.byPrefix u pre) :
    ∃ rest, m.env.lower w = pre ++ rest ∧ p.tag.isProductive = true ∧ 3 ≤ rest.length ∧
      ((pre ∈ ukKnownPrefixes ∧ ∃ qs, m.parse rest = .ok qs ∧ ∃ q ∈ qs, p.prefixedBy q u pre) ∨
       (1 ≤ pre.length ∧ pre.length ≤ 5 ∧
          ∃ v para idx, Spells m.sub rest v ∧ (v, (para, idx)) ∈ m.dict.words ∧ m.dict.tagInfo para idx = .ok p.tag ∧
            p.word = pre ++ v ∧ p.paradigm? = some para ∧ ∃ nf, m.dict.normalForm para idx v = .ok nf ∧ p.nf = pre ++ nf)) := by
  obtain ⟨cls, hm⟩ := hm
  obtain ⟨g, hg, rest, hw, hpr, hh⟩ := c60_prefix_sound ukUnits uk_properPrefixes m hlow cls hm w ps h p hp u pre hu
  refine ⟨rest, hw, hpr, ?_⟩
  simp only [ukUnits, List.mem_cons, List.not_mem_nil, or_false] at hg
  rcases hh with ⟨prefixes, mult, k, hk, h1, h2, h3⟩ | ⟨mult, _, h1, h2, h3, h4⟩
  · rcases hg with rfl | rfl | rfl | rfl | rfl | rfl | rfl | rfl <;> simp at hk
    obtain ⟨rfl, _, rfl⟩ := hk
    exact ⟨h2, .inl ⟨h1, h3⟩⟩
  · exact ⟨h3, .inr ⟨h1, h2, h4⟩⟩

/-! Non-vacuity. -/
example : (Demo.morph.parse (c!"некошка")).toOption.map (·.map fun p => (p.word, p.nf, p.paradigm?, p.stack.len)) =
    some [(c!"некошка", c!"некошка", some 0, 2)] := by decide +kernel
example : (Demo.morph.parse (c!"буркошка")).toOption.map (·.map fun p => (p.word, p.nf, p.paradigm?, p.stack.len)) =
    some [(c!"буркошка", c!"буркошка", some 0, 2)] := by decide +kernel
example : IsRu Demo.morph ∧ Demo.morph.env.LowerStable := ⟨Demo.morph_isRu, demoEnv_lowerStable⟩

end Verif
