/-
C11: order and normalisation of scores.  C12: scores are probabilities.  (Exact arithmetic.)
-/
import Verif.Props.C01b

set_option linter.unusedSectionVars false

namespace Verif

/-! ### Helpers -/

instance : Std.Total (fun a b : Parse Rat => Score.le b.score a.score = true) := ⟨by
  intro a b; simp only [Score.le, decide_eq_true_eq]; exact (le_total _ _)⟩
instance : IsTrans (Parse Rat) (fun a b : Parse Rat => Score.le b.score a.score = true) := ⟨by
  intro a b c; simp only [Score.le, decide_eq_true_eq]; exact fun h1 h2 => le_trans h2 h1⟩

theorem sortByScore_sorted (ps : List (Parse Rat)) : (sortByScore ps).Pairwise fun a b => b.score ≤ a.score := by
  have := List.pairwise_insertionSort (fun a b : Parse Rat => Score.le b.score a.score = true) ps
  exact this.imp fun h => by simpa [Score.le] using h

/-- Sorting is stable: parses with equal scores keep their order. -/
theorem sortByScore_stable (ps : List (Parse Rat)) (s : Rat) :
    (sortByScore ps).filter (fun p => decide (p.score = s)) = ps.filter fun p => decide (p.score = s) := by
  have h1 : (ps.filter fun p => decide (p.score = s)).Sublist (sortByScore ps) := by
    apply List.sublist_insertionSort
    · rw [List.pairwise_iff_forall_sublist]
      intro a b hab
      have ha : a ∈ ps.filter fun p => decide (p.score = s) := hab.subset (by simp)
      have hb : b ∈ ps.filter fun p => decide (p.score = s) := hab.subset (by simp)
      simp only [List.mem_filter, decide_eq_true_eq] at ha hb
      simp [Score.le, ha.2, hb.2]
    · exact List.filter_sublist
  have h2 := h1.filter fun p => decide (p.score = s)
  rw [List.filter_filter] at h2
  simp only [Bool.and_self] at h2
  refine (h2.eq_of_length ?_).symm
  exact ((sortByScore_perm ps).filter _).length_eq.symm

/-- What `parse` makes of the collected analyses. -/
theorem parse_collected_of {S : Type} [Score S] (m : Morph S) (hu : ∀ u ∈ m.units, u.1.cfg.properPrefixes) (hlow : m.env.LowerStable) (w : Str)
    (ps : List (Parse S)) (h : m.parse w = .ok ps) : ∃ res, m.collected w = .ok res ∧ rescored m (m.env.lower w) res = .ok ps := by
  rw [(parse_unfold m hlow hu w).1] at h
  unfold parseStep at h
  rw [bind_ok_iff] at h
  obtain ⟨res, h1, h2⟩ := h
  refine ⟨res, h1, ?_⟩
  unfold rescored
  split
  · next he => rw [he] at h2; exact h2
  · next he => rw [he] at h2; exact h2

theorem parse_collected {S : Type} [Score S] (m : Morph S) (hm : IsRu m ∨ IsUk m) (hlow : m.env.LowerStable) (w : Str)
    (ps : List (Parse S)) (h : m.parse w = .ok ps) : ∃ res, m.collected w = .ok res ∧ rescored m (m.env.lower w) res = .ok ps :=
  parse_collected_of m (default_properPrefixes m hm) hlow w ps h

/-! ### C11 -/

theorem with_data_core (m : Morph Rat)  (dawg : List (Str × Nat))
    (hest : m.est = some dawg) (w : Str) (ps : List (Parse Rat)) 
    (hcol : ∃ res, m.collected w = .ok res ∧ rescored m (m.env.lower w) res = .ok ps)
    (hdata : ∃ p ∈ ps, (prob dawg (m.env.lower w) p.tag : Rat) ≠ 0) :
    ps.Pairwise (fun a b => b.score ≤ a.score) ∧
    (∀ p ∈ ps, p.score = prob dawg (m.env.lower w) p.tag) ∧
    ∃ res, m.collected w = .ok res ∧ ∀ s : Rat,
      (ps.filter fun p => decide (p.score = s)).map Parse.core =
        (res.filter fun p => decide ((prob dawg (m.env.lower w) p.tag : Rat) = s)).map Parse.core := by
  obtain ⟨res, hres, hsc⟩ := hcol
  simp only [rescored, hest] at hsc
  have hcore := applyToParses_core _ _ _ _ hsc
  unfold applyToParses at hsc
  split at hsc
  · simp at hsc; subst hsc; simp at hdata
  · dsimp only at hsc
    split at hsc
    · next hz =>
      exfalso
      obtain ⟨p, hp, hne⟩ := hdata
      have : p.core ∈ res.map Parse.core := hcore.mem_iff.1 (List.mem_map.2 ⟨p, hp, rfl⟩)
      obtain ⟨q, hq, he⟩ := List.mem_map.1 this
      simp only [Parse.core, Prod.mk.injEq] at he
      rw [sumS_eq] at hz
      have hz : (res.map fun p => (prob dawg (m.env.lower w) p.tag : Rat)).sum = 0 := by simpa [Score.isZero] using hz
      have hle := List.single_le_sum (l := res.map fun p => (prob dawg (m.env.lower w) p.tag : Rat)) (by
        intro x hx; obtain ⟨p, _, rfl⟩ := List.mem_map.1 hx; exact prob_nonneg _ _ _) _
        (List.mem_map.2 ⟨q, hq, rfl⟩)
      rw [hz, he.2.1] at hle
      exact hne (le_antisymm hle (prob_nonneg _ _ _))
    · simp at hsc; subst hsc
      refine ⟨sortByScore_sorted _, ?_, res, hres, ?_⟩
      · intro p hp
        obtain ⟨q, _, rfl⟩ := List.mem_map.1 ((sortByScore_perm _).mem_iff.1 hp)
        rfl
      · intro s
        rw [sortByScore_stable, List.filter_map, List.map_map]
        rfl

/-- **C11, with data.** If P(t|w) data is stored for at least one result, then the list is sorted by non-increasing
score, every score is the stored P(t|w), and analyses with equal scores appear in the order in which the units gave them. -/
theorem c11_with_data (m : Morph Rat) (hm : IsRu m ∨ IsUk m) (hlow : m.env.LowerStable) (dawg : List (Str × Nat))
    (hest : m.est = some dawg) (w : Str) (ps : List (Parse Rat)) (h : m.parse w = .ok ps)
    (hdata : ∃ p ∈ ps, (prob dawg (m.env.lower w) p.tag : Rat) ≠ 0) :
    ps.Pairwise (fun a b => b.score ≤ a.score) ∧
    (∀ p ∈ ps, p.score = prob dawg (m.env.lower w) p.tag) ∧
    ∃ res, m.collected w = .ok res ∧ ∀ s : Rat,
      (ps.filter fun p => decide (p.score = s)).map Parse.core =
        (res.filter fun p => decide ((prob dawg (m.env.lower w) p.tag : Rat) = s)).map Parse.core :=
  with_data_core m dawg hest w ps (parse_collected m hm hlow w ps h) hdata

theorem without_data_core (m : Morph Rat)  (dawg : List (Str × Nat))
    (hest : m.est = some dawg) (w : Str) (ps : List (Parse Rat)) 
    (hcol : ∃ res, m.collected w = .ok res ∧ rescored m (m.env.lower w) res = .ok ps)
    (hdata : ∀ p ∈ ps, (prob dawg (m.env.lower w) p.tag : Rat) = 0) :
    (ps ≠ [] → (ps.map Parse.score).sum = 1) ∧
    ∃ res, m.collected w = .ok res ∧ ps.map Parse.core = res.map Parse.core ∧
      ps.map Parse.score = res.map fun p => p.score / (res.map Parse.score).sum := by
  obtain ⟨res, hres, hsc⟩ := hcol
  simp only [rescored, hest] at hsc
  have hcore := applyToParses_core _ _ _ _ hsc
  unfold applyToParses at hsc
  split at hsc
  · next he => simp at hsc; subst hsc; subst he; exact ⟨by simp, [], hres, rfl, rfl⟩
  · dsimp only at hsc
    split at hsc
    · split at hsc
      · simp at hsc
      · next hnz =>
        simp at hsc; subst hsc
        have hnz : (res.map Parse.score).sum ≠ 0 := by rw [sumS_eq] at hnz; simpa [Score.isZero] using hnz
        have hs : ((res.map fun p => ({ p with score := Score.mul p.score (Score.div Score.one
            (sumS (res.map Parse.score))) } : Parse Rat)).map Parse.score) =
            res.map fun p => p.score / (res.map Parse.score).sum := by
          rw [List.map_map, sumS_eq]
          apply List.map_congr_left
          intro p _
          show p.score * (1 / _) = _
          rw [mul_one_div]
        refine ⟨fun _ => ?_, res, hres, by rw [List.map_map]; rfl, hs⟩
        rw [hs]
        have : ∀ (l : List (Parse Rat)) (t : Rat), (l.map fun p => p.score / t).sum = (l.map Parse.score).sum / t := by
          intro l t
          induction l with
          | nil => simp
          | cons a l ih => simp only [List.map_cons, List.sum_cons, ih, add_div]
        rw [this, div_self hnz]
    · next hz =>
      exfalso
      apply hz
      rw [sumS_eq]
      have : (res.map fun p => (prob dawg (m.env.lower w) p.tag : Rat)).sum = 0 := by
        apply List.sum_eq_zero
        intro x hx
        obtain ⟨q, hq, rfl⟩ := List.mem_map.1 hx
        obtain ⟨p, hp, he⟩ := List.mem_map.1 (hcore.mem_iff.2 (List.mem_map.2 ⟨q, hq, rfl⟩))
        simp only [Parse.core, Prod.mk.injEq] at he
        rw [← he.2.1]; exact hdata p hp
      rw [this]; rfl

/-- **C11, without data.** If no result has P(t|w) data, the order of the units is kept, and the scores are the unit
scores divided by their sum, so they add up to 1. -/
theorem c11_without_data (m : Morph Rat) (hm : IsRu m ∨ IsUk m) (hlow : m.env.LowerStable) (dawg : List (Str × Nat))
    (hest : m.est = some dawg) (w : Str) (ps : List (Parse Rat)) (h : m.parse w = .ok ps)
    (hdata : ∀ p ∈ ps, (prob dawg (m.env.lower w) p.tag : Rat) = 0) :
    (ps ≠ [] → (ps.map Parse.score).sum = 1) ∧
    ∃ res, m.collected w = .ok res ∧ ps.map Parse.core = res.map Parse.core ∧
      ps.map Parse.score = res.map fun p => p.score / (res.map Parse.score).sum :=
  without_data_core m dawg hest w ps (parse_collected m hm hlow w ps h) hdata

/-- **C11.** Without a probability estimator the analyses are returned as the units gave them. -/
theorem c11_no_estimator (m : Morph Rat) (hm : IsRu m ∨ IsUk m) (hlow : m.env.LowerStable)
    (hest : m.est = none) (w : Str) (ps : List (Parse Rat)) (h : m.parse w = .ok ps) : m.collected w = .ok ps := by
  obtain ⟨res, hres, hsc⟩ := parse_collected m hm hlow w ps h
  simp only [rescored, hest] at hsc
  simp at hsc; subst hsc; exact hres

/-- A dictionary in which кош is two different nouns. -/
def Demo.dictU : Dict :=
  { Demo.dict with words := [(c!"кош", (4, 0)), (c!"кош", (5, 0)), (c!"кошка", (0, 0))],
                   paradigms := Demo.dict.paradigms ++ [[4, 0, 0], [4, 0, 0]] }

def Demo.morphU : Morph Rat := { Demo.morph with dict := Demo.dictU, est := some [] }

theorem Demo.morphU_isRu : IsRu Demo.morphU := by
  refine ⟨Demo.cls, ?_⟩
  unfold mkMorph
  show (initUnits (ruUnits (S := Rat)) Demo.cls >>= fun r =>
    pure (⟨Demo.morphU.env, Demo.morphU.dict, r.1, Demo.morphU.sub, r.2, Demo.morphU.est⟩ : Morph Rat)) = _
  rw [Demo.bound_ok]; rfl

/-- **C11, defect.** Without P(t|w) data the list need not be sorted by decreasing score: кош-кошка gets scores
1/4, 1/4, 1/2. -/
theorem c11_not_always_sorted :
    IsRu Demo.morphU ∧ Demo.morphU.dict.WF ∧
    (Demo.morphU.parse (c!"кош-кошка")).toOption.map (List.map Parse.score) = some [1/4, 1/4, 1/2] :=
  ⟨Demo.morphU_isRu, Dict.check_wf _ (by decide +kernel), by decide +kernel⟩

/-- Non-vacuity: a word with data and a word without data, on an analyzer with P(t|w) data. -/
example : (∃ p ∈ ((Demo.morphP.parse (c!"кошка")).toOption.getD []),
      (prob [(c!"кошка:NOUN,anim,femn sing,nomn", 700000)] (c!"кошка") p.tag : Rat) ≠ 0) ∧
    (∀ p ∈ ((Demo.morphP.parse (c!"кошек")).toOption.getD []),
      (prob [(c!"кошка:NOUN,anim,femn sing,nomn", 700000)] (c!"кошек") p.tag : Rat) = 0) := by decide +kernel

/-! ### C12 -/

/-- Unit parameters lie between 0 and 1 (the defaults are 0.1 … 0.9). -/
def UnitCfg.unitScores : UnitCfg Rat → Prop
  | .firstName _ _ _ s | .patronymic _ _ s | .number _ _ s | .punct _ s | .latin _ s | .roman _ s => 0 ≤ s ∧ s ≤ 1
  | .particle _ s | .adverb _ s | .hyphenated _ s | .knownPrefix _ s _ | .unknownPrefix s | .knownSuffix s _ => 0 ≤ s ∧ s ≤ 1
  | .dictionary | .unkn _ => True

def Prob01 (x : Rat) : Prop := 0 ≤ x ∧ x ≤ 1

theorem Prob01.mul {a b : Rat} (ha : Prob01 a) (hb : Prob01 b) : Prob01 (a * b) :=
  ⟨mul_nonneg ha.1 hb.1, mul_le_one₀ ha.2 hb.1 hb.2⟩

theorem sfxLoop_cnt (cands : Nat → Except PyErr (List SfxCand)) (is : List Nat) (total : Nat) (seen : Seen)
    (r : List SfxCand × Nat × Seen) (h : sfxLoop cands is total seen = .ok r) (c : SfxCand) (hc : c ∈ r.1) :
    c.cnt ≤ r.2.1 := by
  induction is generalizing total seen r with
  | nil => simp [sfxLoop] at h; subst h; simp at hc
  | cons i is ih =>
    rw [sfxLoop, bind_ok_iff] at h
    obtain ⟨cs, _, h⟩ := h
    have hle : ∀ c ∈ cs, c.cnt ≤ cntSum cs := fun c hc =>
      List.single_le_sum (by simp) _ (List.mem_map.2 ⟨c, hc, rfl⟩)
    dsimp only at h
    split at h
    · simp at h; subst h
      have := hle c ((dedupCands_sub cs seen).subset hc)
      dsimp only; omega
    · simp only [bind_ok_iff, pure_eq_ok, Except.ok.injEq] at h
      obtain ⟨r', hr', rfl⟩ := h
      have ht := sfxLoop_total _ _ _ _ _ hr'
      dsimp only at hc ⊢
      rcases List.mem_append.1 hc with hc | hc
      · have := hle c ((dedupCands_sub cs seen).subset hc)
        omega
      · exact ih _ _ _ hr' hc

theorem sfxPrefixLoop_cnt (d : Dict) (sub : Subst) (wl : Str) (ips : List (Nat × Str)) (seen : Seen)
    (r : List (SfxCand × Nat) × Seen) (h : sfxPrefixLoop d sub wl ips seen = .ok r) (c : SfxCand × Nat)
    (hc : c ∈ r.1) : c.1.cnt ≤ c.2 ∧ 1 ≤ c.2 := by
  refine ⟨?_, sfxPrefixLoop_total _ _ _ _ _ _ h c hc⟩
  induction ips generalizing seen r with
  | nil => simp [sfxPrefixLoop] at h; subst h; simp at hc
  | cons ip ips ih =>
    simp only [sfxPrefixLoop, bind_ok_iff, pure_eq_ok, Except.ok.injEq, pyGet_ok_iff] at h
    obtain ⟨t, ht, r1, hr1, r2, hr2, rfl⟩ := h
    rcases List.mem_append.1 hc with hc | hc
    · obtain ⟨x, hx, rfl⟩ := List.mem_map.1 hc
      exact sfxLoop_cnt _ _ _ _ _ hr1 x hx
    · exact ih _ _ hr2 hc

theorem unitParse_prob (m : Morph Rat) (rec : Rec Rat) (hrec : ∀ x ps, rec.parse x = .ok ps → ∀ p ∈ ps, Prob01 p.score)
    (u : BUnit Rat) (hu : u.cfg.unitScores) (word wl : Str) (seen : Seen) (r : List (Parse Rat) × Seen)
    (hr : unitParse m rec u word wl seen = .ok r) (p : Parse Rat) (hp : p ∈ r.1) : Prob01 p.score := by
  have one : Prob01 1 := ⟨zero_le_one, le_rfl⟩
  unfold unitParse at hr
  split at hr
  case h_1 =>
    simp only [bind_ok_iff, pure_eq_ok, Except.ok.injEq] at hr
    obtain ⟨ps, hps, rfl⟩ := hr
    obtain ⟨_, _, _, _, _, _, hs, _⟩ := dictParse_mem m _ wl ps hps p hp
    rw [hs]; exact one
  case h_2 hcfg | h_3 hcfg =>
    rw [hcfg] at hu
    simp only [Except.ok.injEq] at hr
    subst hr
    simp only [initialsParse] at hp
    split at hp
    · obtain ⟨t, _, rfl⟩ := List.mem_map.1 hp; exact hu
    · simp at hp
  case h_4 hcfg | h_5 hcfg | h_6 hcfg | h_7 hcfg =>
    rw [hcfg] at hu
    simp only [bind_ok_iff, pure_eq_ok, Except.ok.injEq] at hr
    obtain ⟨t, _, rfl⟩ := hr
    unfold shapeParse at hp
    cases t with
    | none => simp at hp
    | some t => simp at hp; subst hp; exact hu
  case h_8 hcfg =>
    rw [hcfg] at hu
    split at hr
    · simp at hr; subst hr; simp at hp
    · simp only [bind_ok_iff, pure_eq_ok, Except.ok.injEq] at hr
      obtain ⟨ps, hps, rfl⟩ := hr
      obtain ⟨q, hq, rfl⟩ := List.mem_map.1 (addParses_mem hp)
      exact (hrec _ _ hps q hq).mul hu
  case h_9 hcfg =>
    rw [hcfg] at hu
    simp only [bind_ok_iff, pure_eq_ok, Except.ok.injEq] at hr
    obtain ⟨b, _, rfl⟩ := hr
    cases b
    · simp at hp
    · simp at hp; subst hp; exact hu
  case h_10 skip mult hcfg =>
    rw [hcfg] at hu
    simp only [bind_ok_iff, pure_eq_ok, Except.ok.injEq] at hr
    obtain ⟨ps, hps, rfl⟩ := hr
    unfold hyphenParse at hps
    split at hps
    · simp only [bind_ok_iff, pure_eq_ok, Except.ok.injEq] at hps
      obtain ⟨lp, hlp, rp, hrp, rfl⟩ := hps
      rcases List.mem_append.1 hp with hp | hp
      · obtain ⟨l, hl, _, _, _, _, rfl⟩ := parseBoth_mem _ _ _ _ _ hp
        exact (hrec _ _ hlp l hl).mul hu
      · obtain ⟨l, hl, _, rfl⟩ := parseFixed_mem _ _ _ _ _ hp
        exact (hrec _ _ hrp l hl).mul hu
    · simp at hps; subst hps; simp at hp
  case h_11 pfs mult k hcfg =>
    rw [hcfg] at hu
    simp only [bind_ok_iff, pure_eq_ok, Except.ok.injEq] at hr
    obtain ⟨ps, hps, rfl⟩ := hr
    obtain ⟨pre, rest, qs, q, hs, hqs, hq, _, rfl⟩ := prefixCands_mem _ _ _ _ _ hps p (addParses_mem hp)
    exact (hrec _ _ hqs q hq).mul hu
  case h_12 mult hcfg =>
    rw [hcfg] at hu
    simp only [bind_ok_iff, pure_eq_ok, Except.ok.injEq] at hr
    obtain ⟨ps, hps, rfl⟩ := hr
    obtain ⟨pre, rest, qs, q, hs, hqs, hq, _, rfl⟩ := prefixCands_mem _ _ _ _ _ hps p (addParses_mem hp)
    obtain ⟨_, _, _, _, _, _, hs, _⟩ := dictParse_mem m _ rest qs hqs q hq
    refine Prob01.mul ?_ hu
    rw [hs]; exact one
  case h_13 mult k hcfg =>
    rw [hcfg] at hu
    unfold suffixParse at hr
    split at hr
    · simp at hr; subst hr; simp at hp
    · simp only [bind_ok_iff, pure_eq_ok, Except.ok.injEq] at hr
      obtain ⟨r', hr', ps, hps, rfl⟩ := hr
      have hp := (sortByScore_perm ps).mem_iff.1 hp
      obtain ⟨⟨c, n⟩, hc, hb⟩ := mapE_mem hps hp
      obtain ⟨h1, h2⟩ := sfxPrefixLoop_cnt _ _ _ _ _ _ hr' _ hc
      simp only [sfxBuild, bind_ok_iff, pure_eq_ok, Except.ok.injEq] at hb
      obtain ⟨nf, _, rfl⟩ := hb
      refine Prob01.mul ⟨?_, ?_⟩ hu
      · show (0 : Rat) ≤ ((c.cnt : Nat) : Rat) / ((n : Nat) : Rat)
        positivity
      · show ((c.cnt : Nat) : Rat) / ((n : Nat) : Rat) ≤ 1
        have hn : (0 : Rat) < ((n : Nat) : Rat) := by exact_mod_cast h2
        rw [div_le_one hn]
        exact_mod_cast h1
  case h_14 =>
    simp only [Except.ok.injEq] at hr
    subst hr
    split at hp
    · simp at hp; subst hp; exact one
    · simp at hp

theorem dictGet_mem {α β : Type} [DecidableEq α] (k : α) (l : List (α × β)) (v : β) (h : dictGet k l = some v) : (k, v) ∈ l := by
  induction l with
  | nil => simp [dictGet] at h
  | cons a l ih =>
    obtain ⟨k', v'⟩ := a
    simp only [dictGet] at h
    split at h
    · next he => simp at h; subst h; subst he; simp
    · simp [ih h]

theorem prob_le_one (dawg : List (Str × Nat)) (h : ∀ e ∈ dawg, e.2 ≤ 1000000) (w : Str) (t : Tag) :
    Prob01 (prob dawg w t) := by
  refine ⟨prob_nonneg _ _ _, ?_⟩
  unfold prob
  show (((dictGet (probKey w t) dawg).getD 0 : Nat) : Rat) / ((1000000 : Nat) : Rat) ≤ 1
  rw [div_le_one (by norm_num)]
  have : (dictGet (probKey w t) dawg).getD 0 ≤ 1000000 := by
    cases hd : dictGet (probKey w t) dawg with
    | none => simp
    | some v => exact h _ (dictGet_mem _ _ _ hd)
  exact_mod_cast this

theorem applyToParses_prob (dawg : List (Str × Nat)) (hd : ∀ e ∈ dawg, e.2 ≤ 1000000) (wl : Str) (ps out : List (Parse Rat))
    (hps : ∀ p ∈ ps, Prob01 p.score) (h : applyToParses dawg wl ps = .ok out) : ∀ p ∈ out, Prob01 p.score := by
  unfold applyToParses at h
  split at h
  · simp at h; subst h; simp
  · dsimp only at h
    split at h
    · split at h
      · simp at h
      · next hnz =>
        simp at h; subst h
        rw [sumS_eq] at *
        have hnz : (ps.map Parse.score).sum ≠ 0 := by simpa [Score.isZero] using hnz
        have h0 : ∀ x ∈ ps.map Parse.score, 0 ≤ x := by
          intro x hx; obtain ⟨p, hp, rfl⟩ := List.mem_map.1 hx; exact (hps p hp).1
        have hs : 0 < (ps.map Parse.score).sum := lt_of_le_of_ne (List.sum_nonneg h0) (Ne.symm hnz)
        intro p hp
        obtain ⟨q, hq, rfl⟩ := List.mem_map.1 hp
        show Prob01 (q.score * (1 / _))
        rw [mul_one_div]
        exact ⟨div_nonneg (hps q hq).1 hs.le, (div_le_one hs).2 (List.single_le_sum h0 _ (List.mem_map.2 ⟨q, hq, rfl⟩))⟩
    · simp at h; subst h
      intro p hp
      obtain ⟨q, _, rfl⟩ := List.mem_map.1 ((sortByScore_perm _).mem_iff.1 hp)
      exact prob_le_one dawg hd _ _

theorem analyze_prob (m : Morph Rat) (hu : ∀ u ∈ m.units, u.1.cfg.unitScores)
    (hd : ∀ dawg, m.est = some dawg → ∀ e ∈ dawg, e.2 ≤ 1000000) (n : Nat) (w : Str) (ps : List (Parse Rat))
    (h : (analyze m n).parse w = .ok ps) : ∀ p ∈ ps, Prob01 p.score := by
  induction n generalizing w ps with
  | zero => simp [analyze] at h
  | succ n ih =>
    have h : parseStep m (analyze m n) w = .ok ps := h
    unfold parseStep at h
    rw [bind_ok_iff] at h
    obtain ⟨res, hres, h⟩ := h
    have hr : ∀ p ∈ res, Prob01 p.score := by
      intro p hp
      rcases runParse_mem m _ w _ _ _ _ _ hres p hp with h1 | ⟨u, hu', seen, r, hr, h1⟩
      · simp at h1
      · exact unitParse_prob m _ ih u.1 (hu u hu') w _ seen r hr p h1
    split at h
    · next dawg hest => exact applyToParses_prob dawg (hd dawg hest) _ _ _ hr h
    · simp at h; subst h; exact hr

theorem default_unitScores (m : Morph Rat) (hm : IsRu m ∨ IsUk m) : ∀ u ∈ m.units, u.1.cfg.unitScores := by
  have hd : ∀ n d : Nat, n ≤ d → 0 < d → 0 ≤ (dec n d : Rat) ∧ (dec n d : Rat) ≤ 1 := by
    intro n d h1 h2
    show 0 ≤ (n : Rat) / (d : Rat) ∧ (n : Rat) / (d : Rat) ≤ 1
    refine ⟨by positivity, ?_⟩
    rw [div_le_one (by exact_mod_cast h2)]
    exact_mod_cast h1
  rintro ⟨u, t⟩ hu
  rcases hm with ⟨cls, hm⟩ | ⟨cls, hm⟩
  all_goals
    obtain ⟨_, _, _, _, hgr⟩ := mkMorph_units hm
    obtain ⟨g, hg, hug⟩ := (mem_of_isGroups hgr u).1 ⟨t, hu⟩
    obtain ⟨g', hg', sp, hsp, he⟩ := mem_boundGroups _ _ g hg u hug
    dsimp only
    rw [he]
    clear he
    revert hsp
    revert sp hg' g'
  · simp [ruUnits, UnitSpec.bound, UnitCfg.unitScores, hd]
  · simp [ukUnits, UnitSpec.bound, UnitCfg.unitScores, hd]

/-- **C12.** Every score returned by `parse(w)` of a default analyzer lies between 0 and 1, whatever the dictionary, as
long as the stored P(t|w) values do not exceed 1. -/
theorem c12_between_0_and_1 (m : Morph Rat) (hm : IsRu m ∨ IsUk m)
    (hd : ∀ dawg, m.est = some dawg → ∀ e ∈ dawg, e.2 ≤ 1000000) (w : Str) (ps : List (Parse Rat))
    (h : m.parse w = .ok ps) (p : Parse Rat) (hp : p ∈ ps) : 0 ≤ p.score ∧ p.score ≤ 1 :=
  analyze_prob m (default_unitScores m hm) hd _ w ps h p hp

/-- **C12.** Without P(t|w) data (no estimator, or an empty table) every score is positive. -/
theorem c12_positive (m : Morph Rat) (hm : IsRu m ∨ IsUk m) (hlow : m.env.LowerStable) (hwf : m.dict.WF)
    (hk : ∀ g ∈ [c!"ADJF", c!"sing", c!"datv"], g ∈ m.cls.known) (hest : m.est = none ∨ m.est = some [])
    (w : Str) (hw : m.env.Named w) (hw' : m.env.Named (m.env.lower w)) (ps : List (Parse Rat))
    (h : m.parse w = .ok ps) (p : Parse Rat) (hp : p ∈ ps) : 0 < p.score := by
  obtain ⟨⟨ps', h1, _, h2⟩, _⟩ := c01_total m hm ⟨hlow, hwf, hk, by
    intro dawg hdw w res _ p _ q _ hpos
    rcases hest with he | he
    · rw [he] at hdw; simp at hdw
    · rw [he] at hdw; simp at hdw; subst hdw
      exfalso
      have : (prob [] (m.env.lower w) p.tag : Rat) = 0 := by simp [prob, dictGet, Score.div, Score.ofNat]
      rw [this] at hpos; exact lt_irrefl _ hpos⟩ w hw hw'
  rw [h] at h1; simp at h1; subst h1; exact h2 p hp

/-- Non-vacuity: P(t|w) data below 1, and both cases occur. -/
example : (∀ dawg, Demo.morphP.est = some dawg → ∀ e ∈ dawg, e.2 ≤ 1000000) ∧
    (Demo.morphP.parse (c!"кошка")).toOption.map (List.map Parse.score) = some [7/10] := by
  constructor
  · intro dawg h
    have : [(c!"кошка:NOUN,anim,femn sing,nomn", 700000)] = dawg := by simpa [Demo.morphP] using h
    subst this; decide +kernel
  · decide +kernel

end Verif
