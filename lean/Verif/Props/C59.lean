/-
C59 — prediction by the ending of a word uses the longest known ending, and all of it.
-/
import Verif.Lemmas.Answering
import Verif.Props.C05

set_option linter.unusedSectionVars false

namespace Verif

variable {S : Type} [Score S]

theorem mem_sfxPrefixes_of (d : Dict) (wl : Str) (k : Nat) (pre : Str) (h : d.prefixes[k]? = some pre) (hp : pre <+: wl) : (k, pre) ∈ sfxPrefixes d wl :=
  (mem_sfxPrefixes d wl (k, pre)).2 ⟨h, hp⟩

/-- What the unit returns. -/
theorem suffixParse_exact (m : Morph S) (hd : m.dict.WF) (hs : m.sub.Proper) (u : BUnit S) (mult : S) (minLen : Nat) (word wl : Str) (seen : Seen)
    (r : List (Parse S) × Seen) (h : suffixParse m u mult minLen word wl seen = .ok r) :
    (∀ p ∈ r.1, minLen ≤ word.length ∧ ∃ k i sfx cnt para idx, m.dict.LongestEnding m.sub wl k i ∧
      m.dict.Predicts m.sub wl k i sfx cnt para idx p.tag ∧ p.word = dropRight wl i ++ sfx ∧ m.dict.normalForm para idx p.word = .ok p.nf ∧
      p.stack = .push (.single (.dict u.inner p.word para idx)) (.simple u.obj sfx) ∧
      p.score = Score.mul (Score.div (Score.ofNat cnt) (Score.ofNat (1 + m.dict.endingCount m.sub wl k i))) mult) ∧
    (minLen ≤ word.length → ∀ k i, m.dict.LongestEnding m.sub wl k i → ∀ sfx cnt para idx tag, m.dict.Predicts m.sub wl k i sfx cnt para idx tag →
      SeenKey.reduced (dropRight wl i ++ sfx) tag.tuple (.para para) ∈ seen ∨
      ∃ p ∈ r.1, p.key = .reduced (dropRight wl i ++ sfx) tag.tuple (.para para)) := by
  unfold suffixParse at h
  split at h
  · next hl =>
    simp at h; subst h
    exact ⟨by simp, fun h => by omega⟩
  · next hl =>
    simp only [bind_ok_iff, pure_eq_ok, Except.ok.injEq] at h
    obtain ⟨r', hr', ps, hps, rfl⟩ := h
    obtain ⟨h1, h2⟩ := sfxPrefixLoop_longest m.dict hd m.sub hs wl _ (fun _ h => h) _ _ hr'
    constructor
    · intro p hp
      have hp := (sortByScore_perm ps).mem_iff.1 hp
      obtain ⟨c, hc, hb⟩ := mapE_mem hps hp
      simp only [sfxBuild, bind_ok_iff, pure_eq_ok, Except.ok.injEq] at hb
      obtain ⟨nf, hnf, rfl⟩ := hb
      obtain ⟨ip, hip, i, a1, a2, a3, a4⟩ := h1 c hc
      exact ⟨by omega, ip.1, i, c.1.suffix, c.1.cnt, c.1.para, c.1.idx, a1, a2, a3, hnf, rfl, by rw [← a4]⟩
    · intro _ k i hl sfx cnt para idx tag hp
      obtain ⟨pre, hpre, hw⟩ := hp.pre
      rcases h2 (k, pre) (mem_sfxPrefixes_of _ _ _ _ hpre hw) i hl ⟨cnt, dropRight wl i ++ sfx, sfx, tag, para, idx⟩ hp rfl with h | ⟨c, hc, he⟩
      · exact .inl h
      · right
        obtain ⟨p, hp, hb⟩ := mapE_mem' hps hc
        simp only [sfxBuild, bind_ok_iff, pure_eq_ok, Except.ok.injEq] at hb
        obtain ⟨nf, hnf, rfl⟩ := hb
        exact ⟨_, (sortByScore_perm ps).mem_iff.2 hp, he⟩

/-- A result obtained by the ending of the word (method number `u`, ending `sfx`). -/
def Parse.byEnding (p : Parse S) (u : UObj) (sfx : Str) : Prop := ∃ rest, p.stack = .push rest (.simple u sfx) ∧ u.kind = .suff

/-- C59, soundness, for any `units` argument.  A result obtained by the ending of the word rests on the longest ending known for a paradigm
prefix the word begins with; the tag, the word and the normal form are those of the predicted form of the predicted paradigm. -/
theorem c59_longest_ending (items : List (List (UnitSpec S))) (m : Morph S) (cls : TagCls)
    (hm : mkMorph m.env m.dict cls m.sub items m.est = .ok m) (hd : m.dict.WF) (hs : m.sub.Proper) (w : Str) (ps : List (Parse S))
    (h : m.parse w = .ok ps) (p : Parse S) (hp : p ∈ ps) (u : UObj) (sfx : Str) (hu : p.byEnding u sfx) :
    ∃ g ∈ items, ∃ mult minLen, .knownSuffix mult minLen ∈ g ∧ minLen ≤ w.length ∧
    ∃ k i cnt para idx, m.dict.LongestEnding m.sub (m.env.lower w) k i ∧
      m.dict.Predicts m.sub (m.env.lower w) k i sfx cnt para idx p.tag ∧ p.word = dropRight (m.env.lower w) i ++ sfx ∧
      m.dict.normalForm para idx p.word = .ok p.nf ∧ p.paradigm? = some para := by
  obtain ⟨g, hg, v, hv, ho, seen, r, hr, q, hq, he⟩ := result_unit hm _ w ps h p hp
  obtain ⟨rest, hst, hk⟩ := hu
  have hvk : v.cfg.kind = .suff := by
    simp only [Parse.outer, hst, Method.obj, Option.some.injEq] at ho
    rw [ho] at hk; exact hk
  obtain ⟨g', hg', sp, hsp, hcfg⟩ := mem_boundGroups items 0 g hg v hv
  have : ∃ mult minLen, v.cfg = .knownSuffix mult minLen ∧ sp = .knownSuffix mult minLen := by
    rw [hcfg] at hvk ⊢
    cases sp <;> simp [UnitSpec.bound, UnitCfg.kind] at hvk
    exact ⟨_, _, rfl, rfl⟩
  obtain ⟨mult, minLen, hc, rfl⟩ := this
  refine ⟨g', hg', mult, minLen, hsp, ?_⟩
  unfold unitParse at hr
  rw [hc] at hr
  obtain ⟨h1, k, i, sfx', cnt, para, idx, h2, h3, h4, h5, h6, h7⟩ := (suffixParse_exact m hd hs v mult minLen w _ seen r hr).1 q hq
  obtain ⟨e1, e2, e3, e4⟩ := (core_eq_iff _ _).1 he
  rw [e2] at h3
  rw [e1] at h4
  rw [e1, e3] at h5
  rw [e1, e4] at h6
  have : sfx' = sfx := by rw [hst] at h6; injection h6 with _ h6; injection h6 with _ h6; exact h6.symm
  subst this
  refine ⟨h1, k, i, cnt, para, idx, h2, h3, h4, h5, ?_⟩
  simp [Parse.paradigm?, h6, Stack.single, Stack.first]

/-- C59, completeness, for any `units` argument: when the answer comes from a group that predicts by endings, every prediction of every longest
ending is among the results (possibly found by another unit of the group: results are not repeated). -/
theorem c59_all_predictions (items : List (List (UnitSpec S))) (m : Morph S) (cls : TagCls)
    (hm : mkMorph m.env m.dict cls m.sub items m.est = .ok m) (hd : m.dict.WF) (hs : m.sub.Proper) (w : Str) (ps : List (Parse S))
    (h : m.parse w = .ok ps) (g : List (BUnit S)) (hg : g ∈ boundGroups items 0) (q : Parse S) (hq : q ∈ ps) (v : BUnit S) (hv : v ∈ g)
    (ho : q.outer = some v.obj) (u : BUnit S) (hu : u ∈ g) (mult : S) (minLen : Nat) (hc : u.cfg = .knownSuffix mult minLen)
    (hlen : minLen ≤ w.length) (k i : Nat) (hl : m.dict.LongestEnding m.sub (m.env.lower w) k i) (sfx : Str) (cnt para idx : Nat) (tag : Tag)
    (hp : m.dict.Predicts m.sub (m.env.lower w) k i sfx cnt para idx tag) :
    ∃ p ∈ ps, p.word = dropRight (m.env.lower w) i ++ sfx ∧ p.tag.eqv tag = true ∧ p.paradigm? = some para := by
  obtain ⟨res, hres, hperm⟩ := answering_group hm _ w ps h g hg q hq v hv ho
  obtain ⟨seen, r, hr, hsub, hseen⟩ := groupParse_unit_seen m _ w _ g res hres u hu
  unfold unitParse at hr
  rw [hc] at hr
  have hkey : ∃ p ∈ res, p.key = .reduced (dropRight (m.env.lower w) i ++ sfx) tag.tuple (.para para) := by
    rcases (suffixParse_exact m hd hs u mult minLen w _ seen r hr).2 hlen k i hl sfx cnt para idx tag hp with h | ⟨p, hp, he⟩
    · rcases hseen _ h with h | ⟨x, h⟩
      · exact h
      · simp at h
    · exact ⟨p, hsub p hp, he⟩
  obtain ⟨p, hp, he⟩ := hkey
  obtain ⟨p', hp', he'⟩ := List.mem_map.1 (hperm.mem_iff.2 (List.mem_map.2 ⟨p, hp, rfl⟩))
  obtain ⟨e1, e2, e3, e4⟩ := (core_eq_iff _ _).1 he'
  simp only [Parse.key, SeenKey.reduced.injEq] at he
  refine ⟨p', hp', by rw [e1, he.1], by rw [e2]; simp [Tag.eqv, he.2.1], ?_⟩
  unfold Parse.paradigm?
  rw [e4]
  have h3 := he.2.2
  split at h3
  · next mth hm =>
    rw [hm]
    cases mth <;> simp [Method.key3] at h3
    · simp [h3]
  · simp at h3

/-- C59 for the default analyzers: prediction by endings needs a word of at least four letters. -/
theorem c59_default (m : Morph S) (hm : IsRu m ∨ IsUk m) (hd : m.dict.WF) (hs : m.sub.Proper) (w : Str) (ps : List (Parse S))
    (h : m.parse w = .ok ps) (p : Parse S) (hp : p ∈ ps) (u : UObj) (sfx : Str) (hu : p.byEnding u sfx) :
    4 ≤ w.length ∧
    (∃ k i cnt para idx, m.dict.LongestEnding m.sub (m.env.lower w) k i ∧
      m.dict.Predicts m.sub (m.env.lower w) k i sfx cnt para idx p.tag ∧ p.word = dropRight (m.env.lower w) i ++ sfx ∧
      m.dict.normalForm para idx p.word = .ok p.nf ∧ p.paradigm? = some para) ∧
    ∀ k i, m.dict.LongestEnding m.sub (m.env.lower w) k i → ∀ sfx' cnt para idx tag,
      m.dict.Predicts m.sub (m.env.lower w) k i sfx' cnt para idx tag →
      ∃ p ∈ ps, p.word = dropRight (m.env.lower w) i ++ sfx' ∧ p.tag.eqv tag = true ∧ p.paradigm? = some para := by
  obtain ⟨items, cls, hm, hi⟩ : ∃ (items : List (List (UnitSpec S))) (cls : TagCls), mkMorph m.env m.dict cls m.sub items m.est = .ok m ∧
      (∀ g ∈ items, ∀ mult minLen, .knownSuffix mult minLen ∈ g → minLen = 4) := by
    rcases hm with ⟨cls, hm⟩ | ⟨cls, hm⟩
    · exact ⟨ruUnits, cls, hm, by simp [ruUnits]⟩
    · exact ⟨ukUnits, cls, hm, by simp [ukUnits]⟩
  obtain ⟨g, hg, mult, minLen, hsp, hlen, rest⟩ := c59_longest_ending items m cls hm hd hs w ps h p hp u sfx hu
  have := hi g hg mult minLen hsp
  subst this
  refine ⟨hlen, rest, ?_⟩
  intro k i hl sfx' cnt para idx tag hpr
  obtain ⟨g, hg, v, hv, ho, -⟩ := result_unit hm _ w ps h p hp
  obtain ⟨rest', hst, hk⟩ := hu
  have hvk : v.cfg.kind = .suff := by
    simp only [Parse.outer, hst, Method.obj, Option.some.injEq] at ho
    rw [ho] at hk; exact hk
  obtain ⟨g', hg', sp, hsp', hcfg⟩ := mem_boundGroups items 0 g hg v hv
  have : ∃ mult minLen, v.cfg = .knownSuffix mult minLen ∧ sp = .knownSuffix mult minLen := by
    rw [hcfg] at hvk ⊢
    cases sp <;> simp [UnitSpec.bound, UnitCfg.kind] at hvk
    exact ⟨_, _, rfl, rfl⟩
  obtain ⟨mult', minLen', hc, rfl⟩ := this
  have := hi g' hg' mult' minLen' hsp'
  subst this
  exact c59_all_predictions items m cls hm hd hs w ps h g hg p hp v hv ho v hv mult' 4 hc hlen k i hl sfx' cnt para idx tag hpr

/-- The score of a prediction, before P(t|w) data are applied: the share of the count in all counts of the ending (plus one), times the
multiplier of the unit. -/
theorem c59_score (items : List (List (UnitSpec S))) (m : Morph S) (cls : TagCls) (hest : m.est = none)
    (hm : mkMorph m.env m.dict cls m.sub items m.est = .ok m) (hd : m.dict.WF) (hs : m.sub.Proper) (w : Str) (ps : List (Parse S))
    (h : m.parse w = .ok ps) (p : Parse S) (hp : p ∈ ps) (u : UObj) (sfx : Str) (hu : p.byEnding u sfx) :
    ∃ g ∈ items, ∃ mult minLen, .knownSuffix mult minLen ∈ g ∧ ∃ k i cnt para idx, m.dict.LongestEnding m.sub (m.env.lower w) k i ∧
      m.dict.Predicts m.sub (m.env.lower w) k i sfx cnt para idx p.tag ∧
      p.score = Score.mul (Score.div (Score.ofNat cnt) (Score.ofNat (1 + m.dict.endingCount m.sub (m.env.lower w) k i))) mult := by
  obtain ⟨res, hres, hsc⟩ := (c06_parse_first_group _ _ cls _ _ _ m hm w ps).1 h
  simp only [rescored, hest, Except.ok.injEq] at hsc
  subst hsc
  rcases hres with ⟨_, before, g, after, hgr, _, hrun⟩ | ⟨rfl, _⟩
  swap
  · simp at hp
  obtain ⟨v, hv, seen, r, hr, hpr⟩ := groupParse_mem _ _ _ _ _ _ _ hrun p hp
  obtain ⟨rest', hst, hk⟩ := hu
  have ho := unitParse_outer _ _ _ _ _ _ _ hr p hpr
  have hvk : v.cfg.kind = .suff := by
    simp only [Parse.outer, hst, Method.obj, Option.some.injEq] at ho
    rw [ho] at hk; exact hk
  obtain ⟨g', hg', sp, hsp', hcfg⟩ := mem_boundGroups items 0 g (hgr ▸ by simp) v hv
  have : ∃ mult minLen, v.cfg = .knownSuffix mult minLen ∧ sp = .knownSuffix mult minLen := by
    rw [hcfg] at hvk ⊢
    cases sp <;> simp [UnitSpec.bound, UnitCfg.kind] at hvk
    exact ⟨_, _, rfl, rfl⟩
  obtain ⟨mult, minLen, hc, rfl⟩ := this
  unfold unitParse at hr
  rw [hc] at hr
  obtain ⟨h1, k, i, sfx', cnt, para, idx, h2, h3, h4, h5, h6, h7⟩ := (suffixParse_exact m hd hs v mult minLen w _ seen r hr).1 p hpr
  have : sfx' = sfx := by rw [hst] at h6; injection h6 with _ h6; injection h6 with _ h6; exact h6.symm
  subst this
  exact ⟨g', hg', mult, minLen, hsp', k, i, cnt, para, idx, h2, h3, h7⟩

/-! Non-vacuity: the ending "шка" is used and not "ка". -/
example : (Demo.morph.parse (c!"мурошка")).toOption.map (·.map fun p => (p.word, p.nf, p.paradigm?, p.score)) =
    some [(c!"мурошка", c!"мурошка", some 0, 1/3)] := by decide +kernel
example : Demo.dict.Predicts ruSubst (c!"мурошка") 0 3 (c!"шка") 2 0 0 ⟨c!"NOUN,anim,femn sing,nomn"⟩ where
  pre := ⟨[], by decide +kernel, by decide⟩
  stored := ⟨_, rfl, by decide +kernel⟩
  len := by decide
  spells := by decide +kernel
  hasTag := by decide +kernel
  productive := by decide +kernel
example : Demo.dict.WF ∧ Subst.Proper ruSubst ∧ IsRu Demo.morph := ⟨Demo.dict_wf, c05_default_targets.2.2.1, Demo.morph_isRu⟩

end Verif
