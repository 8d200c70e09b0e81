/-
C62 — the scores of the default analyzers before P(t|w) data are applied.
-/
import Verif.Props.C59
import Verif.Props.C61

set_option linter.unusedSectionVars false

namespace Verif

variable {S : Type} [Score S]

/-- What the score of an answer of each unit is, given how the rest of the word is analyzed. -/
theorem unitParse_score (m : Morph S) (hd : m.dict.WF) (hs : m.sub.Proper) (rec : Rec S) (u : BUnit S) (word wl : Str) (seen : Seen)
    (r : List (Parse S) × Seen) (h : unitParse m rec u word wl seen = .ok r) (p : Parse S) (hp : p ∈ r.1) :
    match u.cfg with
    | .dictionary | .unkn _ => p.score = Score.one
    | .firstName _ _ _ sc | .patronymic _ _ sc | .number _ _ sc | .punct _ sc | .latin _ sc | .roman _ sc | .adverb _ sc => p.score = sc
    | .particle _ mult => ∃ rest part, wl = rest ++ part ∧ ∃ qs, rec.parse rest = .ok qs ∧ ∃ q ∈ qs, p.stack = .push q.stack (.simple u.obj part) ∧
        p.score = Score.mul q.score mult
    | .hyphenated _ mult => ∃ a b, wl = a ++ '-' :: b ∧ ∃ lp rp, rec.parse a = .ok lp ∧ rec.parse b = .ok rp ∧
        ((∃ l ∈ lp, ∃ r ∈ rp, p.stack = .single (.both u.obj l.stack r.stack) ∧ p.score = Score.mul l.score mult) ∨
         (∃ r ∈ rp, p.stack = .single (.fixed u.obj a r.stack) ∧ p.score = Score.mul r.score mult))
    | .knownPrefix _ mult _ => ∃ pre rest, wl = pre ++ rest ∧ ∃ qs, rec.parse rest = .ok qs ∧ ∃ q ∈ qs,
        p.stack = .push q.stack (.simple u.obj pre) ∧ p.score = Score.mul q.score mult
    | .unknownPrefix mult => p.score = Score.mul Score.one mult
    | .knownSuffix mult _ => ∃ k i sfx cnt para idx, m.dict.LongestEnding m.sub wl k i ∧ m.dict.Predicts m.sub wl k i sfx cnt para idx p.tag ∧
        p.score = Score.mul (Score.div (Score.ofNat cnt) (Score.ofNat (1 + m.dict.endingCount m.sub wl k i))) mult := by
  unfold unitParse at h
  cases hc : u.cfg <;> rw [hc] at h <;> dsimp only at h ⊢
  case dictionary =>
    simp only [bind_ok_iff, pure_eq_ok, Except.ok.injEq] at h
    obtain ⟨ps, hps, rfl⟩ := h
    obtain ⟨_, _, _, _, _, _, _, _, _, rfl⟩ := (dictParse_iff m _ _ _ hps p).1 hp
    rfl
  case unkn =>
    simp only [Except.ok.injEq] at h
    subst h
    dsimp only at hp
    split at hp <;> simp at hp
    subst hp; rfl
  case firstName | patronymic =>
    simp only [Except.ok.injEq] at h
    subst h
    dsimp only [initialsParse] at hp
    split at hp
    · obtain ⟨t, ht, rfl⟩ := List.mem_map.1 hp; rfl
    · simp at hp
  case number | punct | latin | roman =>
    simp only [bind_ok_iff, pure_eq_ok, Except.ok.injEq] at h
    obtain ⟨t, ht, rfl⟩ := h
    cases t with
    | none => simp [shapeParse] at hp
    | some t => simp [shapeParse] at hp; subst hp; rfl
  case adverb =>
    simp only [bind_ok_iff, pure_eq_ok, Except.ok.injEq] at h
    obtain ⟨b, hb, rfl⟩ := h
    cases b <;> simp at hp
    subst hp; rfl
  case particle =>
    split at h
    · simp at h; subst h; simp at hp
    · next rest part hsp =>
      simp only [bind_ok_iff, pure_eq_ok, Except.ok.injEq] at h
      obtain ⟨qs, hqs, rfl⟩ := h
      obtain ⟨q, hq, rfl⟩ := List.mem_map.1 ((addParses_sub _ _).subset hp)
      exact ⟨rest, part, (particleSplit_some _ _ _ _ hsp).1, qs, hqs, q, hq, rfl, rfl⟩
  case hyphenated =>
    simp only [bind_ok_iff, pure_eq_ok, Except.ok.injEq] at h
    obtain ⟨ps, hps, rfl⟩ := h
    unfold hyphenParse at hps
    split at hps
    · next hsh =>
      simp only [bind_ok_iff, pure_eq_ok, Except.ok.injEq] at hps
      obtain ⟨lp, hlp, rp, hrp, rfl⟩ := hps
      refine ⟨_, _, (hyphenShould_split _ _ hsh).1, lp, rp, hlp, hrp, ?_⟩
      rcases List.mem_append.1 hp with hp | hp
      · obtain ⟨l, hl, r, hr, _, _, rfl⟩ := parseBoth_mem _ _ _ _ _ hp
        exact .inl ⟨l, hl, r, hr, rfl, rfl⟩
      · obtain ⟨r, hr, _, rfl⟩ := parseFixed_mem _ _ _ _ _ hp
        exact .inr ⟨r, hr, rfl, rfl⟩
    · simp at hps; subst hps; simp at hp
  case knownPrefix =>
    simp only [bind_ok_iff, pure_eq_ok, Except.ok.injEq] at h
    obtain ⟨cs, hcs, rfl⟩ := h
    obtain ⟨s, hs, qs, hqs, q, hq, hpr, rfl⟩ := (prefixCands_iff _ _ _ _ _ hcs p).1 ((addParses_sub _ _).subset hp)
    exact ⟨s.1, s.2, ((c42_splits_mem _ _ _ _ _).1 hs).2.1, qs, hqs, q, hq, rfl, rfl⟩
  case unknownPrefix =>
    simp only [bind_ok_iff, pure_eq_ok, Except.ok.injEq] at h
    obtain ⟨cs, hcs, rfl⟩ := h
    obtain ⟨s, hs, qs, hqs, q, hq, hpr, rfl⟩ := (prefixCands_iff _ _ _ _ _ hcs p).1 ((addParses_sub _ _).subset hp)
    obtain ⟨_, _, _, _, _, _, _, _, _, rfl⟩ := (dictParse_iff m _ _ _ hqs q).1 hq
    rfl
  case knownSuffix =>
    obtain ⟨_, k, i, sfx, cnt, para, idx, h2, h3, _, _, _, h7⟩ := (suffixParse_exact m hd hs u _ _ word wl seen r h).1 p hp
    exact ⟨k, i, sfx, cnt, para, idx, h2, h3, h7⟩

/-- The score of a result of the default analyzers, by its outermost method (`u`): dictionary words and unknown words 1, initials 0.1,
numbers, punctuation, Latin and Roman 0.9, adverbs in "по-" 0.7; removing a particle multiplies the score of the rest by 0.9, compound words
and known prefixes by 0.75, unknown prefixes by 0.5, and a prediction by ending has half the share of its count. -/
def DefaultScore (m : Morph S) (wl : Str) (p : Parse S) (u : UObj) : Prop :=
  match u.kind with
  | .dict | .unkn => p.score = Score.one
  | .firstName _ _ | .patronymic _ => p.score = dec 1 10
  | .shape => p.score = dec 9 10
  | .adverb => p.score = dec 7 10
  | .particle => ∃ rest part, wl = rest ++ part ∧ ∃ qs, m.parse rest = .ok qs ∧ ∃ q ∈ qs, p.stack = .push q.stack (.simple u part) ∧
      p.score = Score.mul q.score (dec 9 10)
  | .hyphenated => ∃ a b, wl = a ++ '-' :: b ∧ ∃ lp rp, m.parse a = .ok lp ∧ m.parse b = .ok rp ∧
      ((∃ l ∈ lp, ∃ r ∈ rp, p.stack = .single (.both u l.stack r.stack) ∧ p.score = Score.mul l.score (dec 75 100)) ∨
       (∃ r ∈ rp, p.stack = .single (.fixed u a r.stack) ∧ p.score = Score.mul r.score (dec 75 100)))
  | .pref => (∃ pre rest, wl = pre ++ rest ∧ ∃ qs, m.parse rest = .ok qs ∧ ∃ q ∈ qs,
      p.stack = .push q.stack (.simple u pre) ∧ p.score = Score.mul q.score (dec 75 100)) ∨ p.score = Score.mul Score.one (dec 5 10)
  | .suff => ∃ k i sfx cnt para idx, m.dict.LongestEnding m.sub wl k i ∧ m.dict.Predicts m.sub wl k i sfx cnt para idx p.tag ∧
      p.score = Score.mul (Score.div (Score.ofNat cnt) (Score.ofNat (1 + m.dict.endingCount m.sub wl k i))) (dec 5 10)

/-- The multipliers of the default units. -/
def UnitCfg.defaultScores : UnitCfg S → Prop
  | .dictionary | .unkn _ => True
  | .firstName _ _ _ sc | .patronymic _ _ sc => sc = dec 1 10
  | .number _ _ sc | .punct _ sc | .latin _ sc | .roman _ sc | .particle _ sc => sc = dec 9 10
  | .adverb _ sc => sc = dec 7 10
  | .hyphenated _ sc | .knownPrefix _ sc _ => sc = dec 75 100
  | .unknownPrefix sc | .knownSuffix sc _ => sc = dec 5 10

theorem c62_scores (m : Morph S) (hm : IsRu m ∨ IsUk m) (hest : m.est = none) (hlow : m.env.LowerStable) (hd : m.dict.WF) (hs : m.sub.Proper)
    (w : Str) (ps : List (Parse S)) (h : m.parse w = .ok ps) (p : Parse S) (hp : p ∈ ps) (u : UObj) (ho : p.outer = some u) :
    DefaultScore m (m.env.lower w) p u := by
  obtain ⟨items, cls, hm, hi, hsc⟩ : ∃ (items : List (List (UnitSpec S))) (cls : TagCls), mkMorph m.env m.dict cls m.sub items m.est = .ok m ∧
      ProperPrefixes items ∧ (∀ g ∈ items, ∀ sp ∈ g, sp.bound.defaultScores) := by
    rcases hm with ⟨cls, hm⟩ | ⟨cls, hm⟩
    · exact ⟨ruUnits, cls, hm, ru_properPrefixes, by simp [ruUnits, UnitSpec.bound, UnitCfg.defaultScores]⟩
    · exact ⟨ukUnits, cls, hm, uk_properPrefixes, by simp [ukUnits, UnitSpec.bound, UnitCfg.defaultScores]⟩
  rw [(parse_unfold m hlow (properPrefixes_units hi hm) w).1] at h
  unfold parseStep at h
  simp only [hest, bind_ok_iff, pure_eq_ok, Except.ok.injEq, exists_eq_right] at h
  rw [runParse_eq_firstGroup m _ w _ _ _ (mkMorph_units hm).2.2.2.2] at h
  rcases (firstGroup_iff _ _ _).1 h with ⟨_, before, g, after, hgr, _, hrun⟩ | ⟨rfl, _⟩
  swap
  · simp at hp
  obtain ⟨v, hv, seen, r, hr, hpr⟩ := groupParse_mem _ _ _ _ _ _ _ hrun p hp
  have ho' := unitParse_outer _ _ _ _ _ _ _ hr p hpr
  rw [ho] at ho'
  obtain rfl := Option.some.inj ho'
  have key := unitParse_score m hd hs _ v w _ seen r hr p hpr
  obtain ⟨g', hg', sp, hsp, hcfg⟩ := mem_boundGroups items 0 g (hgr ▸ by simp) v hv
  have hds := hsc g' hg' sp hsp
  rw [← hcfg] at hds
  unfold DefaultScore
  have hk : v.obj.kind = v.cfg.kind := rfl
  rw [hk]
  cases hc : v.cfg <;> simp only [hc, UnitCfg.defaultScores] at hds key <;> simp only [UnitCfg.kind] <;> first
    | exact key
    | (subst hds; exact key)
    | (subst hds; exact .inl key)
    | (subst hds; exact .inr key)

/-! Non-vacuity. -/
example : [c!"кошка", c!"А", c!"12", c!"по-белому", c!"кошка-то", c!"некошка", c!"буркошка", c!"мурошка", c!"ззз"].map
      (fun w => (Demo.morph.parse w).toOption.map (·.map fun p => p.score)) =
    [some [1], some (List.replicate 24 (1/10)), some [9/10], some [7/10], some [9/10], some [3/4], some [1/2], some [1/3], some [1]] := by decide +kernel
example : Demo.morph.est = none ∧ IsRu Demo.morph ∧ Demo.morph.env.LowerStable ∧ Demo.morph.dict.WF ∧ Demo.morph.sub.Proper :=
  ⟨rfl, Demo.morph_isRu, demoEnv_lowerStable, Demo.dict_wf, c05_default_targets.2.2.1⟩

end Verif
