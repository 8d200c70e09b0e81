/-
C73: double precision.  What the exact-arithmetic theorems say survives rounding: the analyses, their order and the errors are the
same, scores stay between 0 and 1 and add up to 1 up to rounding, and `inflect` still picks a best form.
-/
import Verif.Lemmas.CoreEq
import Verif.Props.C24
import Verif.Lemmas.LexTotal
import Verif.Props.C05

set_option linter.unusedSectionVars false

namespace Verif

/-! ### The same constructor call in exact and in double arithmetic -/

/-- `m` and `d` are what `MorphAnalyzer(lang='ru')` (or `'uk'`) makes of the same files, with exact and with double precision
scores. -/
def SameCall (m : Morph Rat) (d : Morph Dbl) : Prop :=
  ∃ env dict cls sub est,
    (mkMorph env dict cls sub ruUnits est = .ok m ∧ mkMorph env dict cls sub ruUnits est = .ok d) ∨
    (mkMorph env dict cls sub ukUnits est = .ok m ∧ mkMorph env dict cls sub ukUnits est = .ok d)

theorem bind_mapS {S T : Type} (f : S → T) (sp : UnitSpec S) (id : Nat) (cls : TagCls) :
    (sp.mapS f).bind id cls = (sp.bind id cls).map fun r => (r.1, r.2.mapS f) := by
  cases sp <;> simp only [UnitSpec.mapS, UnitSpec.bind]
  case firstName l p s =>
    generalize genderCaseTags _ p = a
    cases a with
    | error e => rfl
    | ok ts =>
      rw [ok_bind, ok_bind]
      generalize filterE _ ts = x
      cases x with
      | error e => rfl
      | ok a =>
        rw [ok_bind, ok_bind]
        generalize filterE _ ts = x
        cases x with
        | error e => rfl
        | ok b =>
          rw [ok_bind, ok_bind]
          split <;> rfl
  case patronymic l p s =>
    generalize genderCaseTags _ p = a
    cases a <;> rfl
  case number s =>
    generalize TagCls.mkTag _ (c!"NUMB,intg") = a
    generalize TagCls.mkTag _ (c!"NUMB,real") = b
    cases a <;> cases b <;> rfl
  case punct s => generalize TagCls.mkTag _ (c!"PNCT") = a; cases a <;> rfl
  case latin s => generalize TagCls.mkTag _ (c!"LATN") = a; cases a <;> rfl
  case roman s => generalize TagCls.mkTag _ (c!"ROMN") = a; cases a <;> rfl
  case adverb s => generalize TagCls.mkTag _ (c!"ADVB") = a; cases a <;> rfl
  case unkn => generalize TagCls.mkTag _ (c!"UNKN") = a; cases a <;> rfl
  all_goals rfl

theorem bindUnits_mapS {S T : Type} (f : S → T) (sps : List (UnitSpec S × Bool)) (id : Nat) (cls : TagCls) :
    bindUnits (sps.map fun s => (s.1.mapS f, s.2)) id cls =
      (bindUnits sps id cls).map fun r => (r.1, r.2.map fun u => (u.1.mapS f, u.2)) := by
  induction sps generalizing id cls with
  | nil => rfl
  | cons s sps ih =>
    obtain ⟨sp, t⟩ := s
    simp only [List.map_cons, bindUnits, bind_mapS]
    cases sp.bind id cls with
    | error e => rfl
    | ok r =>
      show (bindUnits _ (id + 1) r.1 >>= _) = Except.map _ (bindUnits sps (id + 1) r.1 >>= _)
      rw [ih]
      cases bindUnits sps (id + 1) r.1 <;> rfl

theorem initUnits_mapS {S T : Type} (f : S → T) (items : List (List (UnitSpec S))) (cls : TagCls) :
    initUnits (items.map fun g => g.map fun s => s.mapS f) cls =
      (initUnits items cls).map fun r => (r.1, r.2.map fun u => (u.1.mapS f, u.2)) := by
  have hf : ∀ g : List (UnitSpec S), flattenItem (g.map fun s => s.mapS f) =
      (flattenItem g).map fun r => r.map fun s => (s.1.mapS f, s.2) := by
    intro g
    unfold flattenItem
    rw [List.getLast?_map]
    cases g.getLast? with
    | none => rfl
    | some l =>
      simp only [Except.map, Option.map_some, ← List.map_dropLast, List.map_map, List.map_append, List.map_cons, List.map_nil]
      rfl
  have hm : mapE flattenItem (items.map fun g => g.map fun s => s.mapS f) =
      (mapE flattenItem items).map fun r => r.map fun l => l.map fun s => (s.1.mapS f, s.2) := by
    induction items with
    | nil => rfl
    | cons g gs ih =>
      simp only [List.map_cons, mapE, hf, ih]
      cases flattenItem g with
      | error e => rfl
      | ok x => cases mapE flattenItem gs <;> rfl
  unfold initUnits
  rw [hm]
  cases mapE flattenItem items with
  | error e => rfl
  | ok l =>
    show bindUnits (l.map _).flatten 0 cls = Except.map _ (bindUnits l.flatten 0 cls)
    rw [← bindUnits_mapS, List.map_flatten]

theorem dec_toDbl (a b : Nat) (ha : a ≤ 2 ^ 53) (hb : b ≤ 2 ^ 53) : (dec a b : Dbl) = toDbl (dec a b : Rat) := by
  show toDbl (fl a / fl b) = toDbl ((a : Rat) / b)
  rw [fl_natCast _ ha, fl_natCast _ hb]

theorem ruUnits_toDbl : (ruUnits (S := Dbl)) = (ruUnits (S := Rat)).map fun g => g.map fun s => s.mapS toDbl := by
  have h : ∀ a b : Nat, a ≤ 100 → b ≤ 100 → (dec a b : Dbl) = toDbl (dec a b : Rat) := fun a b ha hb =>
    dec_toDbl a b (le_trans ha (by norm_num)) (le_trans hb (by norm_num))
  simp [ruUnits, UnitSpec.mapS, h]

theorem ukUnits_toDbl : (ukUnits (S := Dbl)) = (ukUnits (S := Rat)).map fun g => g.map fun s => s.mapS toDbl := by
  have h : ∀ a b : Nat, a ≤ 100 → b ≤ 100 → (dec a b : Dbl) = toDbl (dec a b : Rat) := fun a b ha hb =>
    dec_toDbl a b (le_trans ha (by norm_num)) (le_trans hb (by norm_num))
  simp [ukUnits, UnitSpec.mapS, h]

theorem mkMorph_toDbl {env : Env} {dict : Dict} {cls : TagCls} {sub : Subst} {items : List (List (UnitSpec Rat))}
    {est : Option (List (Str × Nat))} {m : Morph Rat} (h : mkMorph env dict cls sub items est = .ok m) :
    mkMorph env dict cls sub (items.map fun g => g.map fun s => s.mapS toDbl) est = .ok m.toDbl := by
  unfold mkMorph at h ⊢
  rw [initUnits_mapS]
  cases hr : initUnits items cls with
  | error e => rw [hr] at h; simp at h
  | ok r =>
    rw [hr, ok_bind] at h
    simp only [pure_eq_ok, Except.ok.injEq] at h
    subst h
    rfl

theorem SameCall.eq {m : Morph Rat} {d : Morph Dbl} (h : SameCall m d) : d = m.toDbl := by
  obtain ⟨env, dict, cls, sub, est, ⟨h1, h2⟩ | ⟨h1, h2⟩⟩ := h
  · have := mkMorph_toDbl h1
    rw [← ruUnits_toDbl, h2] at this
    simpa using this
  · have := mkMorph_toDbl h1
    rw [← ukUnits_toDbl, h2] at this
    simpa using this

theorem SameCall.default {m : Morph Rat} {d : Morph Dbl} (h : SameCall m d) : IsRu m ∨ IsUk m := by
  obtain ⟨env, dict, cls, sub, est, ⟨h1, _⟩ | ⟨h1, _⟩⟩ := h
  · obtain ⟨rfl, rfl, rfl, rfl, _⟩ := mkMorph_units h1
    exact .inl ⟨cls, h1⟩
  · obtain ⟨rfl, rfl, rfl, rfl, _⟩ := mkMorph_units h1
    exact .inr ⟨cls, h1⟩

theorem SameCall.default' {m : Morph Rat} {d : Morph Dbl} (h : SameCall m d) : IsRu d ∨ IsUk d := by
  obtain ⟨env, dict, cls, sub, est, ⟨_, h1⟩ | ⟨_, h1⟩⟩ := h
  · obtain ⟨rfl, rfl, rfl, rfl, _⟩ := mkMorph_units h1
    exact .inl ⟨cls, h1⟩
  · obtain ⟨rfl, rfl, rfl, rfl, _⟩ := mkMorph_units h1
    exact .inr ⟨cls, h1⟩

theorem default_posScores (m : Morph Rat) (hm : IsRu m ∨ IsUk m) : ∀ u ∈ m.units, u.1.cfg.posScores := by
  have hd : ∀ n d : Nat, 0 < n → 0 < d → (0 : Rat) < (dec n d : Rat) := by
    intro n d h1 h2
    show (0 : Rat) < (n : Rat) / (d : Rat)
    have : (0 : Rat) < n := by exact_mod_cast h1
    have : (0 : Rat) < d := by exact_mod_cast h2
    positivity
  rintro ⟨u, t⟩ hu
  rcases hm with ⟨cls, hm⟩ | ⟨cls, hm⟩
  all_goals
    obtain ⟨_, _, _, _, hgr⟩ := mkMorph_units hm
    obtain ⟨g, hg, hug⟩ := (mem_of_isGroups hgr u).1 ⟨t, hu⟩
    obtain ⟨g', hg', sp, hsp, he⟩ := mem_boundGroups _ _ g hg u hug
    dsimp only
    rw [he]
    clear he
    revert hsp
    revert sp hg' g'
  · simp [ruUnits, UnitSpec.bound, UnitCfg.posScores, hd]
  · simp [ukUnits, UnitSpec.bound, UnitCfg.posScores, hd]

/-! ### C73: the same analyses -/

/-- **C73.** Double precision does not change what `parse` and `tag` answer: same words, tags, normal forms and methods, in the same
order, and the same exceptions.  Conditions: the counts that the prediction data holds for any one word ending add up to less than
2^25 - 1, and stored P(t|w) values are below 2^50. -/
theorem c73_same_analyses (m : Morph Rat) (d : Morph Dbl) (h : SameCall m d) (hc : m.dict.SmallCounts m.sub)
    (hd : ∀ dawg, m.est = some dawg → ∀ e ∈ dawg, e.2 < 2 ^ 50) (w : Str) :
    (d.parse w).map (fun ps => ps.map Parse.core) = (m.parse w).map (fun ps => ps.map Parse.core) ∧ d.tag w = m.tag w ∧
    d.normalForms w = m.normalForms w := by
  have hR : Roundable m := ⟨default_posScores m h.default, hc, hd⟩
  rw [h.eq]
  have hp := parse_sim m hR w
  refine ⟨?_, (tag_sim m hR w).symm, ?_⟩
  · generalize m.parse w = x at hp ⊢
    generalize m.toDbl.parse w = y at hp ⊢
    cases hp with
    | ok hab => show Except.ok _ = Except.ok _; exact congrArg _ (forall₂_map_eq hab _ _ fun _ _ h => h.core).symm
    | err e => rfl
  · unfold Morph.normalForms
    generalize m.parse w = x at hp ⊢
    generalize m.toDbl.parse w = y at hp ⊢
    cases hp with
    | ok hab =>
      show Except.ok _ = Except.ok _
      congr 1
      generalize ([] : List Str) = seen
      induction hab generalizing seen with
      | nil => rfl
      | cons h _ ih =>
        simp only [normalFormsLoop, h.nf]
        split
        · exact ih seen
        · rw [ih]
    | err e => rfl

/-- **C73.** C01 in double precision: `parse` and `tag` answer every word with at least one analysis, and every score is positive. -/
theorem c73_total (m : Morph Rat) (d : Morph Dbl) (h : SameCall m d) (hh : Healthy m) (hc : m.dict.SmallCounts m.sub)
    (hd : ∀ dawg, m.est = some dawg → ∀ e ∈ dawg, e.2 < 2 ^ 50) (w : Str) (hw : m.env.Named w) (hw' : m.env.Named (m.env.lower w)) :
    (∃ ps, d.parse w = .ok ps ∧ ps ≠ [] ∧ ∀ p ∈ ps, 0 < p.score.val) ∧ ∃ ts, d.tag w = .ok ts ∧ ts ≠ [] := by
  have hR : Roundable m := ⟨default_posScores m h.default, hc, hd⟩
  obtain ⟨⟨ps, h1, h2, h3⟩, ts, h4, h5⟩ := c01_total m h.default hh w hw hw'
  have hp := parse_sim m hR w
  rw [h.eq, ← tag_sim m hR w]
  refine ⟨?_, ts, h4, h5⟩
  rw [h1] at hp
  generalize hq : m.toDbl.parse w = y at hp ⊢
  cases hp with
  | ok hab =>
    rename_i qs
    refine ⟨qs, rfl, fun he => h2 ((forall₂_nil_iff hab).2 he), ?_⟩
    intro q hq
    obtain ⟨p, hp, hpq⟩ := forall₂_mem_right hab hq
    have := h3 p hp
    refine lt_of_le_of_ne hpq.score.2.1 (Ne.symm fun he => ?_)
    rw [hpq.score.2.2.2 he] at this
    exact lt_irrefl _ this

/-! ### C73: scores -/

/-- The left-to-right double sum of non-negative doubles is at least each of them, and within half a unit in the last place per
addition of the exact sum. -/
theorem sumS_dbl (xs : List Dbl) (h0 : ∀ x ∈ xs, 0 ≤ x.val) :
    (∀ x ∈ xs, x.val ≤ (sumS xs).val) ∧ 0 ≤ (sumS xs).val ∧
    |(sumS xs).val - (xs.map Dbl.val).sum| ≤ xs.length * ((sumS xs).val / 2 ^ 52) := by
  have key : ∀ (xs : List Dbl) (a : Dbl), 0 ≤ a.val → (∀ x ∈ xs, 0 ≤ x.val) →
      a.val ≤ (xs.foldl Score.add a).val ∧ (∀ x ∈ xs, x.val ≤ (xs.foldl Score.add a).val) ∧
      |(xs.foldl Score.add a).val - (a.val + (xs.map Dbl.val).sum)| ≤ xs.length * ((xs.foldl Score.add a).val / 2 ^ 52) := by
    intro xs
    induction xs with
    | nil => intro a ha _; simp
    | cons x xs ih =>
      intro a ha hx
      have hx0 := hx x (by simp)
      have hs : a.val ≤ (Score.add a x : Dbl).val ∧ x.val ≤ (Score.add a x : Dbl).val := by
        constructor
        · show a.val ≤ fl (a.val + x.val)
          have := fl_mono (show a.val ≤ a.val + x.val by linarith)
          rwa [a.rep] at this
        · show x.val ≤ fl (a.val + x.val)
          have := fl_mono (show x.val ≤ a.val + x.val by linarith)
          rwa [x.rep] at this
      have herr : |(Score.add a x : Dbl).val - (a.val + x.val)| ≤ (Score.add a x : Dbl).val / 2 ^ 52 := by
        show |fl (a.val + x.val) - (a.val + x.val)| ≤ fl (a.val + x.val) / 2 ^ 52
        have h1 := fl_err (a.val + x.val)
        rw [abs_of_nonneg (show 0 ≤ a.val + x.val by linarith)] at h1
        have h2 := fl_lower (show 0 ≤ a.val + x.val by linarith)
        norm_num at h1 h2 ⊢
        linarith
      obtain ⟨i1, i2, i3⟩ := ih (Score.add a x) (le_trans ha hs.1) (fun y hy => hx y (by simp [hy]))
      simp only [List.foldl_cons, List.map_cons, List.sum_cons, List.length_cons]
      refine ⟨le_trans hs.1 i1, ?_, ?_⟩
      · intro y hy
        rcases List.mem_cons.1 hy with rfl | hy
        · exact le_trans hs.2 i1
        · exact i2 y hy
      · rw [abs_le] at herr i3 ⊢
        push_cast
        norm_num at herr i3 ⊢
        constructor <;> linarith
  obtain ⟨k1, k2, k3⟩ := key xs (toDbl 0) (by simp [toDbl, fl_zero]) h0
  have hz : (toDbl 0).val = 0 := fl_zero
  rw [hz, zero_add] at k3
  rw [hz] at k1
  exact ⟨k2, k1, k3⟩

/-- Between 0 and 1. -/
def UnitD (x : Dbl) : Prop := 0 ≤ x.val ∧ x.val ≤ 1

theorem UnitD.mul {a b : Dbl} (ha : UnitD a) (hb : UnitD b) : UnitD (Score.mul a b) :=
  ⟨fl_nonneg (mul_nonneg ha.1 hb.1), fl_le_one (le_trans (mul_le_one₀ ha.2 hb.1 hb.2) (by norm_num))⟩

theorem UnitD.of {x : Rat} (h : 0 ≤ x ∧ x ≤ 1) : UnitD (toDbl x) := ⟨fl_nonneg h.1, fl_le_one (le_trans h.2 (by norm_num))⟩

theorem UnitD.one : UnitD (Score.one : Dbl) := UnitD.of ⟨by norm_num, le_rfl⟩

theorem UnitD.quot {c n : Nat} (h : c ≤ n) (hn : 1 ≤ n) : UnitD (Score.div (Score.ofNat c) (Score.ofNat n)) := by
  show UnitD (toDbl (fl c / fl n))
  have h1 : fl (c : Rat) ≤ fl n := fl_mono (by exact_mod_cast h)
  have h2 : 0 < fl (n : Rat) := fl_pos (by exact_mod_cast hn)
  exact UnitD.of ⟨div_nonneg (fl_nonneg (by positivity)) h2.le, (div_le_one h2).2 h1⟩

/-- Unit parameters between 0 and 1. -/
def UnitCfg.unitD : UnitCfg Dbl → Prop
  | .firstName _ _ _ s | .patronymic _ _ s | .number _ _ s | .punct _ s | .latin _ s | .roman _ s => UnitD s
  | .particle _ s | .adverb _ s | .hyphenated _ s | .knownPrefix _ s _ | .unknownPrefix s | .knownSuffix s _ => UnitD s
  | .dictionary | .unkn _ => True

theorem unitParse_unitD (m : Morph Dbl) (rec : Rec Dbl) (hrec : ∀ x ps, rec.parse x = .ok ps → ∀ p ∈ ps, UnitD p.score)
    (u : BUnit Dbl) (hu : u.cfg.unitD) (word wl : Str) (seen : Seen) (r : List (Parse Dbl) × Seen)
    (hr : unitParse m rec u word wl seen = .ok r) (p : Parse Dbl) (hp : p ∈ r.1) : UnitD p.score := by
  unfold unitParse at hr
  split at hr
  case h_1 =>
    simp only [bind_ok_iff, pure_eq_ok, Except.ok.injEq] at hr
    obtain ⟨ps, hps, rfl⟩ := hr
    obtain ⟨_, _, _, _, _, _, hs, _⟩ := dictParse_mem m _ wl ps hps p hp
    rw [hs]; exact UnitD.one
  case h_2 hcfg | h_3 hcfg =>
    rw [hcfg] at hu
    simp only [Except.ok.injEq] at hr
    subst hr
    simp only [initialsParse] at hp
    split at hp
    · obtain ⟨t, _, rfl⟩ := List.mem_map.1 hp; exact hu
    · simp at hp
  case h_4 hcfg | h_5 hcfg | h_6 hcfg | h_7 hcfg =>
    rw [hcfg] at hu
    simp only [bind_ok_iff, pure_eq_ok, Except.ok.injEq] at hr
    obtain ⟨t, _, rfl⟩ := hr
    unfold shapeParse at hp
    cases t with
    | none => simp at hp
    | some t => simp at hp; subst hp; exact hu
  case h_8 hcfg =>
    rw [hcfg] at hu
    split at hr
    · simp at hr; subst hr; simp at hp
    · simp only [bind_ok_iff, pure_eq_ok, Except.ok.injEq] at hr
      obtain ⟨ps, hps, rfl⟩ := hr
      obtain ⟨q, hq, rfl⟩ := List.mem_map.1 (addParses_mem hp)
      exact (hrec _ _ hps q hq).mul hu
  case h_9 hcfg =>
    rw [hcfg] at hu
    simp only [bind_ok_iff, pure_eq_ok, Except.ok.injEq] at hr
    obtain ⟨b, _, rfl⟩ := hr
    cases b
    · simp at hp
    · simp at hp; subst hp; exact hu
  case h_10 skip mult hcfg =>
    rw [hcfg] at hu
    simp only [bind_ok_iff, pure_eq_ok, Except.ok.injEq] at hr
    obtain ⟨ps, hps, rfl⟩ := hr
    unfold hyphenParse at hps
    split at hps
    · simp only [bind_ok_iff, pure_eq_ok, Except.ok.injEq] at hps
      obtain ⟨lp, hlp, rp, hrp, rfl⟩ := hps
      rcases List.mem_append.1 hp with hp | hp
      · obtain ⟨l, hl, _, _, _, _, rfl⟩ := parseBoth_mem _ _ _ _ _ hp
        exact (hrec _ _ hlp l hl).mul hu
      · obtain ⟨l, hl, _, rfl⟩ := parseFixed_mem _ _ _ _ _ hp
        exact (hrec _ _ hrp l hl).mul hu
    · simp at hps; subst hps; simp at hp
  case h_11 pfs mult k hcfg =>
    rw [hcfg] at hu
    simp only [bind_ok_iff, pure_eq_ok, Except.ok.injEq] at hr
    obtain ⟨ps, hps, rfl⟩ := hr
    obtain ⟨pre, rest, qs, q, hs, hqs, hq, _, rfl⟩ := prefixCands_mem _ _ _ _ _ hps p (addParses_mem hp)
    exact (hrec _ _ hqs q hq).mul hu
  case h_12 mult hcfg =>
    rw [hcfg] at hu
    simp only [bind_ok_iff, pure_eq_ok, Except.ok.injEq] at hr
    obtain ⟨ps, hps, rfl⟩ := hr
    obtain ⟨pre, rest, qs, q, hs, hqs, hq, _, rfl⟩ := prefixCands_mem _ _ _ _ _ hps p (addParses_mem hp)
    obtain ⟨_, _, _, _, _, _, hs, _⟩ := dictParse_mem m _ rest qs hqs q hq
    refine UnitD.mul ?_ hu
    rw [hs]; exact UnitD.one
  case h_13 mult k hcfg =>
    rw [hcfg] at hu
    unfold suffixParse at hr
    split at hr
    · simp at hr; subst hr; simp at hp
    · simp only [bind_ok_iff, pure_eq_ok, Except.ok.injEq] at hr
      obtain ⟨r', hr', ps, hps, rfl⟩ := hr
      have hp := (sortByScore_perm ps).mem_iff.1 hp
      obtain ⟨⟨c, n⟩, hc, hb⟩ := mapE_mem hps hp
      obtain ⟨h1, h2⟩ := sfxPrefixLoop_cnt _ _ _ _ _ _ hr' _ hc
      simp only [sfxBuild, bind_ok_iff, pure_eq_ok, Except.ok.injEq] at hb
      obtain ⟨nf, _, rfl⟩ := hb
      exact UnitD.mul (UnitD.quot h1 h2) hu
  case h_14 =>
    simp only [Except.ok.injEq] at hr
    subst hr
    split at hp
    · simp at hp; subst hp; exact UnitD.one
    · simp at hp

theorem applyToParses_unitD (dawg : List (Str × Nat)) (hd : ∀ e ∈ dawg, e.2 ≤ 1000000) (wl : Str) (ps out : List (Parse Dbl))
    (hps : ∀ p ∈ ps, UnitD p.score) (h : applyToParses dawg wl ps = .ok out) : ∀ p ∈ out, UnitD p.score := by
  unfold applyToParses at h
  split at h
  · simp at h; subst h; simp
  · dsimp only at h
    split at h
    · split at h
      · simp at h
      · next hnz =>
        simp at h; subst h
        obtain ⟨s1, s2, _⟩ := sumS_dbl (ps.map Parse.score) (by
          intro x hx; obtain ⟨p, hp, rfl⟩ := List.mem_map.1 hx; exact (hps p hp).1)
        have hnz : (sumS (ps.map Parse.score)).val ≠ 0 := by simpa [Score.isZero] using hnz
        have hpos : 0 < (sumS (ps.map Parse.score)).val := lt_of_le_of_ne s2 (Ne.symm hnz)
        intro p hp
        obtain ⟨q, hq, rfl⟩ := List.mem_map.1 hp
        have hle := s1 q.score (List.mem_map.2 ⟨q, hq, rfl⟩)
        have h0 := (hps q hq).1
        show UnitD (Score.mul q.score (Score.div Score.one (sumS (ps.map Parse.score))))
        generalize sumS (ps.map Parse.score) = s at hpos hle
        generalize hst : s.val = t at hpos hle
        show 0 ≤ fl (q.score.val * fl (fl 1 / s.val)) ∧ fl (q.score.val * fl (fl 1 / s.val)) ≤ 1
        rw [hst]
        show 0 ≤ fl (q.score.val * fl (fl 1 / t)) ∧ fl (q.score.val * fl (fl 1 / t)) ≤ 1
        rw [fl_one]
        have hinv : 0 ≤ 1 / t := by positivity
        refine ⟨fl_nonneg (mul_nonneg h0 (fl_nonneg hinv)), fl_le_one ?_⟩
        have h1 := mul_le_mul_of_nonneg_left (fl_upper hinv) h0
        have h2 : q.score.val * (1 / t) ≤ 1 := by rw [mul_one_div]; exact (div_le_one hpos).2 hle
        have h3 := mul_le_mul_of_nonneg_right h2 (show (0 : Rat) ≤ 1 + 1 / 2 ^ 53 by norm_num)
        linarith
    · simp at h; subst h
      intro p hp
      obtain ⟨q, _, rfl⟩ := List.mem_map.1 ((sortByScore_perm _).mem_iff.1 hp)
      refine UnitD.quot ?_ (by norm_num)
      cases hg : dictGet (probKey wl q.tag) dawg with
      | none => simp
      | some v => exact hd _ (dictGet_mem _ _ _ hg)

theorem analyze_unitD (m : Morph Dbl) (hu : ∀ u ∈ m.units, u.1.cfg.unitD)
    (hd : ∀ dawg, m.est = some dawg → ∀ e ∈ dawg, e.2 ≤ 1000000) (n : Nat) (w : Str) (ps : List (Parse Dbl))
    (h : (analyze m n).parse w = .ok ps) : ∀ p ∈ ps, UnitD p.score := by
  induction n generalizing w ps with
  | zero => simp [analyze] at h
  | succ n ih =>
    have h : parseStep m (analyze m n) w = .ok ps := h
    unfold parseStep at h
    rw [bind_ok_iff] at h
    obtain ⟨res, hres, h⟩ := h
    have hr : ∀ p ∈ res, UnitD p.score := by
      intro p hp
      rcases runParse_mem m _ w _ _ _ _ _ hres p hp with h1 | ⟨u, hu', seen, r, hr, h1⟩
      · simp at h1
      · exact unitParse_unitD m _ ih u.1 (hu u hu') w _ seen r hr p h1
    split at h
    · next dawg hest => exact applyToParses_unitD dawg (hd dawg hest) _ _ _ hr h
    · simp at h; subst h; exact hr

theorem default_unitD (m : Morph Dbl) (hm : IsRu m ∨ IsUk m) : ∀ u ∈ m.units, u.1.cfg.unitD := by
  have hd : ∀ n d : Nat, n ≤ d → 1 ≤ d → UnitD (dec n d : Dbl) := fun n d h1 h2 => UnitD.quot h1 h2
  rintro ⟨u, t⟩ hu
  rcases hm with ⟨cls, hm⟩ | ⟨cls, hm⟩
  all_goals
    obtain ⟨_, _, _, _, hgr⟩ := mkMorph_units hm
    obtain ⟨g, hg, hug⟩ := (mem_of_isGroups hgr u).1 ⟨t, hu⟩
    obtain ⟨g', hg', sp, hsp, he⟩ := mem_boundGroups _ _ g hg u hug
    dsimp only
    rw [he]
    clear he
    revert hsp
    revert sp hg' g'
  · simp [ruUnits, UnitSpec.bound, UnitCfg.unitD, hd]
  · simp [ukUnits, UnitSpec.bound, UnitCfg.unitD, hd]

/-- **C73.** In double precision, too, every score returned by `parse` of a default analyzer lies between 0 and 1: rounding never
pushes a score above 1.  No condition on the dictionary; the stored P(t|w) values do not exceed 1. -/
theorem c73_between_0_and_1 (m : Morph Dbl) (hm : IsRu m ∨ IsUk m)
    (hd : ∀ dawg, m.est = some dawg → ∀ e ∈ dawg, e.2 ≤ 1000000) (w : Str) (ps : List (Parse Dbl))
    (h : m.parse w = .ok ps) (p : Parse Dbl) (hp : p ∈ ps) : 0 ≤ p.score.val ∧ p.score.val ≤ 1 :=
  analyze_unitD m (default_unitD m hm) hd _ w ps h p hp

/-- Normalising in doubles: the results add up to 1, up to one unit in the last place for each of them and three more. -/
theorem normalise_sum (xs : List Dbl) (h0 : ∀ x ∈ xs, 0 ≤ x.val) (hnz : (sumS xs).val ≠ 0) (hn : xs.length < 2 ^ 40) :
    |((xs.map fun x => (Score.mul x (Score.div Score.one (sumS xs)) : Dbl)).map Dbl.val).sum - 1| ≤ (xs.length + 3) / 2 ^ 52 := by
  obtain ⟨_, s2, s3⟩ := sumS_dbl xs h0
  generalize ht : sumS xs = t at *
  have htp : 0 < t.val := lt_of_le_of_ne s2 (Ne.symm hnz)
  have hinv : 0 ≤ 1 / t.val := by positivity
  -- each result against the exact quotient
  have each : ∀ x : Dbl, 0 ≤ x.val → |(Score.mul x (Score.div Score.one t) : Dbl).val - x.val / t.val| ≤ x.val / t.val * (5 / 4 / 2 ^ 52) := by
    intro x hx
    show |fl (x.val * fl (fl 1 / t.val)) - x.val / t.val| ≤ _
    rw [fl_one]
    have a1 := fl_upper hinv
    have a2 := fl_lower hinv
    have b0 : 0 ≤ x.val * fl (1 / t.val) := mul_nonneg hx (fl_nonneg hinv)
    have b1 := fl_upper b0
    have b2 := fl_lower b0
    have c1 := mul_le_mul_of_nonneg_left a1 hx
    have c2 := mul_le_mul_of_nonneg_left a2 hx
    have e : x.val / t.val = x.val * (1 / t.val) := by rw [mul_one_div]
    have hxe : 0 ≤ x.val * (1 / t.val) := mul_nonneg hx hinv
    rw [e, abs_le]
    norm_num at a1 a2 b1 b2 c1 c2 hxe ⊢
    constructor <;> linarith
  have tot : ∀ l : List Dbl, (∀ x ∈ l, 0 ≤ x.val) →
      |((l.map fun x => (Score.mul x (Score.div Score.one t) : Dbl)).map Dbl.val).sum - (l.map Dbl.val).sum / t.val| ≤
        (l.map Dbl.val).sum / t.val * (5 / 4 / 2 ^ 52) := by
    intro l
    induction l with
    | nil => intro _; simp
    | cons x l ih =>
      intro hl
      have i1 := each x (hl x (by simp))
      have i2 := ih (fun y hy => hl y (by simp [hy]))
      simp only [List.map_cons, List.sum_cons, add_div]
      rw [abs_le] at i1 i2 ⊢
      constructor <;> linarith
  have htot := tot xs h0
  have hq : |(xs.map Dbl.val).sum / t.val - 1| ≤ xs.length / 2 ^ 52 := by
    have : (xs.map Dbl.val).sum / t.val - 1 = -((t.val - (xs.map Dbl.val).sum) / t.val) := by field_simp; ring
    rw [this, abs_neg, abs_div, abs_of_pos htp, div_le_iff₀ htp]
    calc _ ≤ _ := s3
      _ = _ := by ring
  have hlen : (xs.length : Rat) ≤ 2 ^ 40 := by exact_mod_cast hn.le
  generalize (xs.map Dbl.val).sum / t.val = z at hq htot
  generalize ((xs.map fun x => (Score.mul x (Score.div Score.one t) : Dbl)).map Dbl.val).sum = y at htot
  generalize (xs.length : Rat) = n at hq hlen
  rw [abs_le] at hq htot ⊢
  norm_num at hq htot hlen ⊢
  constructor <;> linarith

/-- **C73.** Without P(t|w) data for a word, the double scores add up to 1 up to (number of analyses + 3) units of 2^-52. -/
theorem c73_sum_is_one (d : Morph Dbl) (hd : IsRu d ∨ IsUk d) (hlow : d.env.LowerStable) (dawg : List (Str × Nat))
    (hest : d.est = some dawg) (hmax : ∀ e ∈ dawg, e.2 ≤ 1000000) (w : Str) (ps : List (Parse Dbl)) (hp : d.parse w = .ok ps)
    (hne : ps ≠ []) (hlen : ps.length < 2 ^ 40) (hdata : ∀ p ∈ ps, dictGet (probKey (d.env.lower w) p.tag) dawg = none) :
    |((ps.map fun p => p.score.val)).sum - 1| ≤ (ps.length + 3) / 2 ^ 52 := by
  obtain ⟨res, hres, hsc⟩ := parse_collected d hd hlow w ps hp
  have hnn : ∀ p ∈ res, 0 ≤ p.score.val := by
    intro p hp
    rcases runParse_mem d _ w _ _ _ _ _ hres p hp with h1 | ⟨u, hu', seen, r, hr, h1⟩
    · simp at h1
    · refine (unitParse_unitD d _ ?_ u.1 (default_unitD d hd u hu') w _ seen r hr p h1).1
      intro x qs hqs
      exact analyze_unitD d (default_unitD d hd) (fun dw hdw => by rw [hest] at hdw; simp at hdw; subst hdw; exact hmax) (d.depth x) x qs hqs
  simp only [rescored, hest] at hsc
  have hcore := applyToParses_core _ _ _ _ hsc
  unfold applyToParses at hsc
  split at hsc
  · simp at hsc; subst hsc; exact absurd rfl hne
  · dsimp only at hsc
    have hz : Score.isZero (sumS (res.map fun p => (prob dawg (d.env.lower w) p.tag : Dbl))) = true := by
      have : (res.map fun p => (prob dawg (d.env.lower w) p.tag : Dbl)) = res.map fun _ => toDbl 0 := by
        apply List.map_congr_left
        intro q hq
        obtain ⟨p, hp, he⟩ := List.mem_map.1 (hcore.mem_iff.2 (List.mem_map.2 ⟨q, hq, rfl⟩))
        simp only [Parse.core, Prod.mk.injEq] at he
        have := hdata p hp
        rw [he.2.1] at this
        unfold prob
        rw [this]
        show toDbl (fl ((0 : Nat) : Rat) / _) = _
        simp [fl_zero]
      rw [this]
      have : ∀ (l : List (Parse Dbl)) , (sumS (l.map fun _ => toDbl 0)) = toDbl 0 := by
        intro l
        unfold sumS
        show List.foldl _ (toDbl 0) _ = _
        induction l with
        | nil => rfl
        | cons a l ih =>
          simp only [List.map_cons, List.foldl_cons]
          have : (Score.add (toDbl 0) (toDbl 0) : Dbl) = toDbl 0 := by
            show toDbl (fl 0 + fl 0) = _; simp [fl_zero]
          rw [this]; exact ih
      rw [this]
      simp [Score.isZero, toDbl, fl_zero]
    rw [if_pos hz] at hsc
    split at hsc
    · simp at hsc
    · next hnz =>
      simp at hsc; subst hsc
      have hnz : (sumS (res.map Parse.score)).val ≠ 0 := by simpa [Score.isZero] using hnz
      have hl : res.length < 2 ^ 40 := by simpa using hlen
      have := normalise_sum (res.map Parse.score) (by
        intro x hx; obtain ⟨p, hp, rfl⟩ := List.mem_map.1 hx; exact hnn p hp) hnz (by simpa using hl)
      simpa [List.map_map, Function.comp_def] using this

/-- **C73.** With P(t|w) data for at least one analysis, the list is sorted by non-increasing score and every score is the double
nearest to the stored value divided by a million. -/
theorem c73_with_data (m : Morph Rat) (d : Morph Dbl) (h : SameCall m d) (hlow : m.env.LowerStable) (dawg : List (Str × Nat))
    (hest : d.est = some dawg) (hmax : ∀ e ∈ dawg, e.2 < 2 ^ 50) (w : Str) (ps : List (Parse Dbl)) (hp : d.parse w = .ok ps)
    (hdata : ∃ p ∈ ps, (dictGet (probKey (d.env.lower w) p.tag) dawg).getD 0 ≠ 0) :
    ps.Pairwise (fun a b => b.score.val ≤ a.score.val) ∧
    ∀ p ∈ ps, p.score.val = fl (((dictGet (probKey (d.env.lower w) p.tag) dawg).getD 0 : Nat) / (1000000 : Nat)) := by
  have hd := h.default'
  have hlow' : d.env.LowerStable := by rw [h.eq]; exact hlow
  obtain ⟨res, hres, hsc⟩ := parse_collected d hd hlow' w ps hp
  simp only [rescored, hest] at hsc
  have hcore := applyToParses_core _ _ _ _ hsc
  unfold applyToParses at hsc
  split at hsc
  · simp at hsc; subst hsc; simp at hdata
  · dsimp only at hsc
    split at hsc
    · next hz =>
      exfalso
      obtain ⟨p, hp, hne⟩ := hdata
      obtain ⟨q, hq, he⟩ := List.mem_map.1 (hcore.mem_iff.1 (List.mem_map.2 ⟨p, hp, rfl⟩))
      simp only [Parse.core, Prod.mk.injEq] at he
      rw [← he.2.1] at hne
      have hz : (sumS (res.map fun p => (prob dawg (d.env.lower w) p.tag : Dbl))).val = 0 := by simpa [Score.isZero] using hz
      obtain ⟨s1, _, _⟩ := sumS_dbl (res.map fun p => (prob dawg (d.env.lower w) p.tag : Dbl)) (by
        intro x hx; obtain ⟨p, _, rfl⟩ := List.mem_map.1 hx; exact (prob_sim dawg _ p.tag).2.1)
      have hle := s1 _ (List.mem_map.2 ⟨q, hq, rfl⟩)
      rw [hz] at hle
      obtain ⟨v, _, hv, _, e2⟩ := prob_val dawg (d.env.lower w) q.tag hmax
      rw [e2] at hle
      have : (0 : Rat) < v := by
        have : 0 < v := Nat.pos_of_ne_zero (by rw [hv]; exact hne)
        exact_mod_cast this
      have := fl_pos (x := (v : Rat) / (1000000 : Nat)) (by positivity)
      linarith
    · simp at hsc; subst hsc
      constructor
      · have : Std.Total (fun a b : Parse Dbl => Score.le b.score a.score = true) := ⟨by
          intro a b; simp only [Score.le, decide_eq_true_eq]; exact (le_total _ _)⟩
        have : IsTrans (Parse Dbl) (fun a b : Parse Dbl => Score.le b.score a.score = true) := ⟨by
          intro a b c; simp only [Score.le, decide_eq_true_eq]; exact fun h1 h2 => le_trans h2 h1⟩
        have := List.pairwise_insertionSort (fun a b : Parse Dbl => Score.le b.score a.score = true)
          (res.map fun p => { p with score := (prob dawg (d.env.lower w) p.tag : Dbl) })
        exact this.imp fun h => by simpa [Score.le] using h
      · intro p hp
        obtain ⟨q, _, rfl⟩ := List.mem_map.1 ((sortByScore_perm _).mem_iff.1 hp)
        obtain ⟨v, _, hv, _, e2⟩ := prob_val dawg (d.env.lower w) q.tag hmax
        rw [hv] at e2
        exact e2

/-! ### Lexemes and inflection -/

/-- **C73.** Lexemes and normal forms of corresponding analyses correspond: same forms, same order, same errors. -/
theorem c73_same_normalized (m : Morph Rat) (p : Parse Rat) (q : Parse Dbl) (hpq : p.core = q.core) :
    (m.toDbl.normalized q).map Parse.core = (m.normalized p).map Parse.core := by
  have hf : p.word = q.word ∧ p.tag = q.tag ∧ p.nf = q.nf ∧ p.stack = q.stack := CoreEq.fields hpq
  have h := normalizedOf_sim m m.toDbl rfl rfl p.stack p q hf.1 hf.2.1 hf.2.2.1
  unfold Morph.normalized
  rw [← hf.2.2.2]
  generalize normalizedOf m p.stack p = x at h ⊢
  generalize normalizedOf m.toDbl p.stack q = y at h ⊢
  cases h with
  | ok hab => exact congrArg Except.ok hab.symm
  | err e => rfl

/-- **C73.** Lexemes and normal forms of corresponding analyses correspond: same forms, same order, same errors. -/
theorem c73_same_lexeme (m : Morph Rat) (p : Parse Rat) (q : Parse Dbl) (hpq : p.core = q.core) :
    (m.toDbl.lexeme q).map (fun fs => fs.map Parse.core) = (m.lexeme p).map fun fs => fs.map Parse.core := by
  have hf : p.word = q.word ∧ p.tag = q.tag ∧ p.nf = q.nf ∧ p.stack = q.stack := CoreEq.fields hpq
  have h := lexemeOf_sim m m.toDbl rfl rfl p.stack p q hf.1 hf.2.1 hf.2.2.1
  unfold Morph.lexeme
  rw [← hf.2.2.2]
  generalize lexemeOf m p.stack p = x at h ⊢
  generalize lexemeOf m.toDbl p.stack q = y at h ⊢
  cases h with
  | ok hab => exact congrArg Except.ok (forall₂_map_eq hab _ _ fun _ _ h => h).symm
  | err e => rfl

/-- `a - 0.1 * b` in doubles is close to the exact value. -/
theorem simKey_err (a b : Nat) (ha : a < 2 ^ 40) (hb : b < 2 ^ 40) :
    |(Sim.double.key a b : Dbl).val - ((a : Rat) - (b : Rat) / 10)| ≤ 1 / 1000 := by
  show |fl (fl a - fl (fl (1 / 10) * fl b)) - _| ≤ _
  have hx : (2 : Nat) ^ 40 ≤ 2 ^ 53 := by norm_num
  rw [fl_natCast a (by omega), fl_natCast b (by omega)]
  have e1 := fl_err (1 / 10)
  rw [abs_of_nonneg (by norm_num : (0 : Rat) ≤ 1 / 10)] at e1
  have ha' : (a : Rat) ≤ 2 ^ 40 := by exact_mod_cast ha.le
  have hb' : (b : Rat) ≤ 2 ^ 40 := by exact_mod_cast hb.le
  have ha0 : (0 : Rat) ≤ a := by positivity
  have hb0 : (0 : Rat) ≤ b := by positivity
  have hf0 : 0 ≤ fl (1 / 10) := fl_nonneg (by norm_num)
  generalize fl (1 / 10) = c at *
  generalize (a : Rat) = x at *
  generalize (b : Rat) = y at *
  have e2 := fl_err (c * y)
  rw [abs_of_nonneg (mul_nonneg hf0 hb0)] at e2
  have e3 := fl_err (x - fl (c * y))
  have hcy : |c * y - y / 10| ≤ 1 / 10000 := by
    have : c * y - y / 10 = (c - 1 / 10) * y := by ring
    rw [this, abs_mul, abs_of_nonneg hb0]
    calc |c - 1 / 10| * y ≤ (1 / 10 / 2 ^ 53) * 2 ^ 40 := mul_le_mul e1 hb' hb0 (by norm_num)
      _ ≤ 1 / 10000 := by norm_num
  rw [abs_le] at e2 hcy
  norm_num at ha' hb'
  have hup : |x - fl (c * y)| ≤ 2 ^ 42 := by
    rw [abs_le]
    norm_num at e2 ⊢
    constructor <;> linarith
  have e3' : |fl (x - fl (c * y)) - (x - fl (c * y))| ≤ 1 / 1000 / 2 := by
    refine e3.trans ?_
    norm_num at hup ⊢
    linarith
  rw [abs_le] at e3' ⊢
  norm_num at e2 hcy e3' ⊢
  constructor <;> linarith

theorem Sim.double_ordered : Sim.double.Ordered := by
  refine ⟨?_, ?_, ?_⟩ <;> simp only [Sim.double, decide_eq_true_eq, decide_eq_false_iff_not]
  · intro a; exact lt_irrefl _
  · intro a b c; exact lt_trans
  · intro a b c h1 h2; exact not_lt.2 (le_trans (not_lt.1 h2) (not_lt.1 h1))

/-- **C73.** A form that is strictly more similar in exact arithmetic is strictly more similar in doubles. -/
theorem c73_similarity_order (g : Grams) (s t : Tag) (hg : g.card < 2 ^ 38) (hs : s.grammemes.card < 2 ^ 38) (ht : t.grammemes.card < 2 ^ 38)
    (h : Sim.exact.lt (similarity Sim.exact g s) (similarity Sim.exact g t) = true) :
    Sim.double.lt (similarity Sim.double g s) (similarity Sim.double g t) = true := by
  have size : ∀ x : Tag, x.grammemes.card < 2 ^ 38 → (g ∩ x.grammemes).card < 2 ^ 40 ∧ (symmDiff g x.grammemes).card < 2 ^ 40 := by
    intro x hx
    constructor
    · exact lt_of_le_of_lt (Finset.card_le_card Finset.inter_subset_left) (lt_trans hg (by norm_num))
    · refine lt_of_le_of_lt ((Finset.card_le_card Finset.symmDiff_subset_union).trans (Finset.card_union_le _ _)) ?_
      norm_num at hg hx ⊢; omega
  obtain ⟨a1, b1⟩ := size s hs
  obtain ⟨a2, b2⟩ := size t ht
  unfold similarity at h ⊢
  have k1 := simKey_err _ _ a1 b1
  have k2 := simKey_err _ _ a2 b2
  generalize (g ∩ s.grammemes).card = as at *
  generalize (g ∩ t.grammemes).card = at' at *
  generalize (symmDiff g s.grammemes).card = bs at *
  generalize (symmDiff g t.grammemes).card = bt at *
  have h : (10 * (as : Int) - bs < 10 * (at' : Int) - bt) := by simpa [Sim.exact] using h
  have h' : (10 * (as : Rat) - bs + 1 ≤ 10 * (at' : Rat) - bt) := by exact_mod_cast h
  show decide ((Sim.double.key as bs : Dbl).val < (Sim.double.key at' bt : Dbl).val) = true
  rw [decide_eq_true_eq]
  rw [abs_le] at k1 k2
  norm_num at k1 k2
  linarith

/-- **C73.** `inflect` in doubles returns a form of the lexeme that carries the wanted grammemes and is best among them in exact
arithmetic: no other such form has more similarity.  It is `None` exactly when it is in exact arithmetic. -/
theorem c73_inflect_best (m : Morph Rat) (p : Parse Rat) (q : Parse Dbl) (hpq : p.core = q.core) (req : List Str) (fs : List (Parse Rat))
    (hl : m.lexeme p = .ok fs) (hk : ∀ g ∈ effective fs req, g ∈ m.cls.known)
    (hsz : p.tag.grammemes.card + req.length < 2 ^ 38 ∧ ∀ f ∈ fs, f.tag.grammemes.card < 2 ^ 38) :
    ∃ res g, m.toDbl.inflect Sim.double q req = .ok res ∧ Updated m.cls p.tag (effective fs req) g ∧
      (res = none ↔ ∀ f ∈ fs, ¬ f.carries (effective fs req)) ∧
      ∀ y, res = some y → ∃ f ∈ fs, f.core = y.core ∧ f.carries (effective fs req) ∧
        ∀ f' ∈ fs, f'.carries (effective fs req) →
          Sim.exact.lt (similarity Sim.exact g f.tag) (similarity Sim.exact g f'.tag) = false := by
  have hf : p.word = q.word ∧ p.tag = q.tag ∧ p.nf = q.nf ∧ p.stack = q.stack := CoreEq.fields hpq
  have hsim := lexemeOf_sim m m.toDbl rfl rfl p.stack p q hf.1 hf.2.1 hf.2.2.1
  have hl' : lexemeOf m p.stack p = .ok fs := hl
  rw [hl'] at hsim
  generalize hgs : lexemeOf m.toDbl p.stack q = y at hsim
  cases hsim with
  | ok hab =>
  rename_i gs
  have hgs' : m.toDbl.lexeme q = .ok gs := by unfold Morph.lexeme; rw [← hf.2.2.2]; exact hgs
  have hcar : ∀ (f : Parse Rat) (f' : Parse Dbl) (r : List Str), CoreEq f f' → (f.carries r ↔ f'.carries r) := by
    intro f f' r h
    unfold Parse.carries
    rw [h.fields.2.1]
  have heff : effective gs req = effective fs req := by
    unfold effective
    have : (∃ f ∈ gs, f.carries req) ↔ ∃ f ∈ fs, f.carries req := by
      constructor
      · rintro ⟨f, hf, hc⟩
        obtain ⟨x, hx, hxf⟩ := forall₂_mem_right hab hf
        exact ⟨x, hx, (hcar _ _ _ hxf).2 hc⟩
      · rintro ⟨f, hf, hc⟩
        obtain ⟨x, hx, hxf⟩ := forall₂_mem_left hab hf
        exact ⟨x, hx, (hcar _ _ _ hxf).1 hc⟩
    simp only [this]
  obtain ⟨res, g, h1, h2, h3, _, h5⟩ := c17_inflect m.toDbl Sim.double Sim.double_ordered q req gs hgs' (by rw [heff]; exact hk)
  rw [heff] at h2 h3 h5
  have h2' : Updated m.cls p.tag (effective fs req) g := by rw [hf.2.1]; exact h2
  refine ⟨res, g, h1, h2', ?_, ?_⟩
  · rw [h3]
    constructor
    · intro h f hf hc
      obtain ⟨x, hx, hxf⟩ := forall₂_mem_left hab hf
      exact h x hx ((hcar _ _ _ hxf).1 hc)
    · intro h f hf hc
      obtain ⟨x, hx, hxf⟩ := forall₂_mem_right hab hf
      exact h x hx ((hcar _ _ _ hxf).2 hc)
  · intro y hy
    obtain ⟨y1, y2, before, after, hsplit, b1, b2⟩ := h5 y hy
    obtain ⟨f, hf1, hfy⟩ := forall₂_mem_right hab y1
    refine ⟨f, hf1, hfy, (hcar _ _ _ hfy).2 y2, ?_⟩
    intro f' hf' hc'
    obtain ⟨y', hy', hfy'⟩ := forall₂_mem_left hab hf'
    have hmem : y' ∈ gs.filter fun f => decide (f.carries (effective fs req)) :=
      List.mem_filter.2 ⟨hy', by simpa using (hcar _ _ _ hfy').1 hc'⟩
    have hno : Sim.double.lt (similarity Sim.double g y.tag) (similarity Sim.double g y'.tag) = false := by
      rw [hsplit, List.mem_append, List.mem_cons] at hmem
      rcases hmem with hm | rfl | hm
      · have := b1 y' hm
        simp only [Sim.double, decide_eq_true_eq, decide_eq_false_iff_not] at this ⊢
        exact not_lt.2 this.le
      · exact Sim.double_ordered.irrefl _
      · exact b2 y' hm
    rw [← hfy.fields.2.1, ← hfy'.fields.2.1] at hno
    by_contra hlt
    have hlt : Sim.exact.lt (similarity Sim.exact g f.tag) (similarity Sim.exact g f'.tag) = true := by simpa using hlt
    have hgc : g.card < 2 ^ 38 := by
      have hsub : g ⊆ p.tag.grammemes ∪ (effective fs req).toFinset := by
        intro x hx
        have := ((h2' x).1 hx).1
        simpa [Tag.grammemes] using this
      have he : (effective fs req).length = req.length := by unfold effective; split <;> simp
      have := (Finset.card_le_card hsub).trans (Finset.card_union_le _ _)
      have h7 := List.toFinset_card_le (effective fs req)
      omega
    rw [c73_similarity_order g f.tag f'.tag hgc (hsz.2 f hf1) (hsz.2 f' hf') hlt] at hno
    exact absurd hno (by simp)

/-! ### When the conditions hold -/

/-- Every default analyzer has a double precision counterpart. -/
theorem SameCall.exists (m : Morph Rat) (hm : IsRu m ∨ IsUk m) : SameCall m m.toDbl := by
  rcases hm with ⟨cls, h⟩ | ⟨cls, h⟩
  · exact ⟨_, _, cls, _, _, .inl ⟨h, by rw [ruUnits_toDbl]; exact mkMorph_toDbl h⟩⟩
  · exact ⟨_, _, cls, _, _, .inr ⟨h, by rw [ukUnits_toDbl]; exact mkMorph_toDbl h⟩⟩

theorem sum_lookup_le (t : Dawg (Nat × Nat × Nat)) (ks : List Str) (hk : ks.Nodup) :
    ((ks.flatMap fun k => (t.vals k).map fun r => (k, r)).map fun x => x.2.1).sum ≤ (t.map fun e => e.2.1).sum := by
  induction t with
  | nil => induction ks <;> simp_all [Dawg.vals]
  | cons e t ih =>
    have key : ∀ ks : List Str, ks.Nodup →
        ((ks.flatMap fun k => (Dawg.vals (e :: t) k).map fun r => (k, r)).map fun x => x.2.1).sum ≤
          ((ks.flatMap fun k => (Dawg.vals t k).map fun r => (k, r)).map fun x => x.2.1).sum + (if e.1 ∈ ks then e.2.1 else 0) := by
      intro ks
      induction ks with
      | nil => intro _; simp
      | cons k ks ih =>
        intro hn
        have hn := List.nodup_cons.1 hn
        have := ih hn.2
        simp only [List.flatMap_cons, List.map_append, List.sum_append, List.mem_cons]
        have hv : (((Dawg.vals (e :: t) k).map fun r => (k, r)).map fun x => x.2.1).sum =
            (((Dawg.vals t k).map fun r => (k, r)).map fun x => x.2.1).sum + (if e.1 = k then e.2.1 else 0) := by
          unfold Dawg.vals
          rw [List.filter_cons]
          by_cases he : e.1 = k
          · simp [he, Nat.add_comm]
          · simp [he]
        rw [hv]
        by_cases he : e.1 = k
        · have hnot : e.1 ∉ ks := by rw [he]; exact hn.1
          simp only [he, if_true, true_or] at this ⊢
          rw [if_neg hn.1] at this
          omega
        · simp only [he, if_false, false_or] at this ⊢
          omega
    have h1 := key ks hk
    simp only [List.map_cons, List.sum_cons]
    split at h1 <;> omega

/-- **C73, the condition.** It is enough that the counts of each prediction table add up to less than 2^25 - 1. -/
theorem c73_condition (d : Dict) (sub : Subst) (hs : sub.Proper) (h : ∀ t ∈ d.pred, (t.map fun e => e.2.1).sum < 2 ^ 25 - 1) :
    d.SmallCounts sub := by
  intro t ht e
  refine lt_of_le_of_lt ?_ (h t ht)
  unfold lookup Dawg.similarItems
  rw [List.flatMap_map]
  exact sum_lookup_le t _ ((nodup_variants sub hs e).filter _)

/-! ### What double precision does change -/

/-- Exact ties may be broken by rounding: with 2 common grammemes and 11 different ones against 1 and 1 the double of the first is
0.8999999999999999 and of the second 0.9. -/
theorem c73_ties_can_differ :
    Sim.exact.key 2 11 = Sim.exact.key 1 1 ∧ Sim.double.lt (Sim.double.key 2 11) (Sim.double.key 1 1) = true := by
  refine ⟨by show (10 * (2 : Int) - 11 = 10 * 1 - 1); decide, ?_⟩
  show decide (fl (fl (2 : Nat) - fl (fl (1 / 10) * fl (11 : Nat))) < fl (fl (1 : Nat) - fl (fl (1 / 10) * fl (1 : Nat)))) = true
  rw [fl_natCast 2 (by norm_num), fl_natCast 11 (by norm_num), fl_natCast 1 (by norm_num)]
  have h2 : ((2 : Nat) : Rat) = 2 := rfl
  have h1 : ((1 : Nat) : Rat) = 1 := rfl
  have h11 : ((11 : Nat) : Rat) = 11 := rfl
  rw [h2, h1, h11]
  decide +kernel

/-- A dictionary in which кош is three different nouns. -/
def Demo.dict3 : Dict :=
  { Demo.dict with words := [(c!"кош", (4, 0)), (c!"кош", (5, 0)), (c!"кош", (6, 0))],
                   paradigms := Demo.dict.paradigms ++ [[4, 0, 0], [4, 0, 0], [4, 0, 0]] }

def Demo.morph3 : Morph Rat := { Demo.morph with dict := Demo.dict3, est := some [] }

theorem Demo.morph3_isRu : IsRu Demo.morph3 := by
  refine ⟨Demo.cls, ?_⟩
  unfold mkMorph
  show (initUnits (ruUnits (S := Rat)) Demo.cls >>= fun r =>
    pure (⟨Demo.morph3.env, Demo.morph3.dict, r.1, Demo.morph3.sub, r.2, Demo.morph3.est⟩ : Morph Rat)) = _
  rw [Demo.bound_ok]; rfl

/-- The double scores need not add up to exactly 1: three times the double nearest to a third falls short of 1. -/
theorem c73_sum_not_exact :
    SameCall Demo.morph3 Demo.morph3.toDbl ∧
    (Demo.morph3.toDbl.parse (c!"кош")).toOption.map (fun ps => (ps.map fun p => p.score.val).sum) = some (1 - 1 / 2 ^ 54) :=
  ⟨SameCall.exists _ (.inl Demo.morph3_isRu), by decide +kernel⟩

/-- Non-vacuity: the conditions of C73 hold for the demo analyzer. -/
example : SameCall Demo.morph Demo.morph.toDbl ∧ Demo.morph.dict.SmallCounts Demo.morph.sub ∧ Healthy Demo.morph ∧
    ∀ dawg, Demo.morph.est = some dawg → ∀ e ∈ dawg, e.2 < 2 ^ 50 :=
  ⟨SameCall.exists _ (.inl Demo.morph_isRu), c73_condition _ _ c05_default_targets.2.2.1 (by decide +kernel), Demo.morph_healthy,
    by intro dawg h; simp [Demo.morph] at h⟩

end Verif
