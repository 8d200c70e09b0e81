/-
C99: the results of `parse` come with falling scores, except for compounds and words with known prefixes.
-/
import Verif.Props.C62
import Verif.Props.C74
import Verif.Props.C21
import Verif.Props.C80
import Mathlib.Tactic.Ring

namespace Verif

/-- The list is sorted by non-increasing score, as the user guide says of the results of `parse`. -/
def Falling (ps : List (Parse Rat)) : Prop := ps.Pairwise fun a b => b.score ≤ a.score

/-- Rules whose results come with falling scores. -/
def Rule.Falls (m : Morph Rat) (D : RuleData) (w : Str) : Rule → Prop
  -- an initial that is also a Roman number or a word in Latin letters: no such letter exists on CPython, see `c99_cpython`
  | .wordOrForeign => ¬ (D.initial w ∧ (isRomanNumber m.env w = true ∨ isLatin m.env w = .ok true))
  | .particle => ∀ rest part qs, FirstParticle D.particles (m.env.lower w) rest part → m.parse rest = .ok qs → Falling qs
  | .compound | .prefixed => False
  | .word | .number | .punct | .foreign | .adverb | .guess => True

/-! ### Lists -/

theorem falling_const {l : List (Parse Rat)} (c : Rat) (h : ∀ p ∈ l, p.score = c) : Falling l :=
  List.pairwise_of_forall_mem_list fun a ha b hb => by rw [h a ha, h b hb]

theorem falling_append {l l' : List (Parse Rat)} (c : Rat) (h1 : Falling l) (h2 : Falling l') (hl : ∀ p ∈ l, c ≤ p.score) (hr : ∀ p ∈ l', p.score ≤ c) :
    Falling (l ++ l') :=
  List.pairwise_append.2 ⟨h1, h2, fun a ha b hb => le_trans (hr b hb) (hl a ha)⟩

theorem falling_core_scale {ps res : List (Parse Rat)} (t : Rat) (ht : 0 ≤ t) (h : Falling res) (he : ps.map Parse.score = res.map fun p => p.score / t) :
    Falling ps := by
  have h1 : (ps.map Parse.score).Pairwise fun a b => b ≤ a := by
    rw [he, List.pairwise_map]
    exact h.imp fun hab => div_le_div_of_nonneg_right hab ht
  rwa [List.pairwise_map] at h1

/-! ### The rules -/

def Sorts (m : Morph Rat) (D : RuleData) (w : Str) (rec : Rec Rat) (g : List (BUnit Rat)) (ρ : Rule) : Prop :=
  ∀ r, groupParse m rec w (m.env.lower w) g [] = .ok r → ρ.Falls m D w → Falling r

theorem first_rule_falls {m : Morph Rat} {D : RuleData} {w : Str} {rec : Rec Rat} {gs : List (List (BUnit Rat))} {ρs : List Rule}
    (h : List.Forall₂ (fun g ρ => Implements m D w (fun g => groupParse m rec w (m.env.lower w) g []) g ρ ∧ Sorts m D w rec g ρ) gs ρs)
    (tail : List (List (BUnit Rat))) (res : List (Parse Rat))
    (hr : firstGroup (fun g => groupParse m rec w (m.env.lower w) g []) (gs ++ tail) = .ok res) :
    (∀ before ρ after, ρs = before ++ ρ :: after → (∀ σ ∈ before, ¬ σ.applies m D w) → ρ.applies m D w → ρ.Falls m D w → Falling res) ∧
    ((∀ σ ∈ ρs, ¬ σ.applies m D w) → firstGroup (fun g => groupParse m rec w (m.env.lower w) g []) tail = .ok res) := by
  induction h with
  | nil => exact ⟨fun b ρ a h => absurd h (by simp), fun _ => hr⟩
  | @cons g ρ gs ρs h1 _ ih =>
    rw [List.cons_append, firstGroup, bind_ok_iff] at hr
    obtain ⟨r, hg, hr⟩ := hr
    obtain ⟨k1, k2⟩ := h1.1 r hg
    cases r with
    | nil =>
      have hn : ¬ ρ.applies m D w := fun ha => (k1.2 ha) rfl
      obtain ⟨i1, i2⟩ := ih hr
      refine ⟨?_, fun hall => i2 fun σ hσ => hall σ (List.mem_cons_of_mem _ hσ)⟩
      intro b σ a he hb hσ
      cases b with
      | nil =>
        simp only [List.nil_append, List.cons.injEq] at he
        exact absurd (he.1 ▸ hσ) hn
      | cons x b =>
        simp only [List.cons_append, List.cons.injEq] at he
        exact i1 b σ a he.2 (fun τ hτ => hb τ (List.mem_cons_of_mem _ hτ)) hσ
    | cons p r =>
      simp only [pure_eq_ok, Except.ok.injEq] at hr
      subst hr
      have ha : ρ.applies m D w := k1.1 (by simp)
      refine ⟨?_, fun hall => absurd ha (hall ρ (by simp))⟩
      intro b σ a he hb hσ hf
      cases b with
      | nil =>
        simp only [List.nil_append, List.cons.injEq] at he
        obtain ⟨rfl, -⟩ := he
        exact h1.2 _ hg hf
      | cons x b =>
        simp only [List.cons_append, List.cons.injEq] at he
        exact absurd ha (he.1 ▸ hb x (by simp))

theorem groupParse_cons {S : Type} [Score S] (m : Morph S) (rec : Rec S) (w wl : Str) (u : BUnit S) (g : List (BUnit S)) (seen : Seen) (r : List (Parse S))
    (h : groupParse m rec w wl (u :: g) seen = .ok r) :
    ∃ a b, unitParse m rec u w wl seen = .ok a ∧ groupParse m rec w wl g a.2 = .ok b ∧ r = a.1 ++ b := by
  simp only [groupParse, bind_ok_iff, pure_eq_ok, Except.ok.injEq] at h
  obtain ⟨a, ha, b, hb, rfl⟩ := h
  exact ⟨a, b, ha, hb, rfl⟩

variable (m : Morph Rat) (hd : m.dict.WF) (hs : m.sub.Proper)
include hd hs

omit hd hs in
theorem sorts_single (D : RuleData) (rec : Rec Rat) (w : Str) (u : BUnit Rat) (c : Rat) (hc : ∀ seen r, unitParse m rec u w (m.env.lower w) seen = .ok r → ∀ p ∈ r.1, p.score = c)
    (ρ : Rule) : Sorts m D w rec [u] ρ := by
  intro r hr _
  obtain ⟨a, b, ha, hb, rfl⟩ := groupParse_cons _ _ _ _ _ _ _ _ hr
  simp only [groupParse, Except.ok.injEq] at hb
  subst hb
  rw [List.append_nil]
  exact falling_const c (hc _ _ ha)

theorem sorts_word (D : RuleData) (letters : List Str) (rec : Rec Rat) (w : Str) (n1 n2 n3 : Nat) (p1 p2 : Str → Str → Str) :
    Sorts m D w rec [⟨n1, .dictionary⟩, ⟨n2, (UnitSpec.firstName letters p1 (dec 1 10)).bound⟩,
      ⟨n3, (UnitSpec.patronymic letters p2 (dec 1 10)).bound⟩] .word := by
  intro r hr _
  obtain ⟨a, b, ha, hb, rfl⟩ := groupParse_cons _ _ _ _ _ _ _ _ hr
  have h1 : ∀ p ∈ a.1, p.score = 1 := unitParse_score m hd hs _ _ _ _ _ _ ha
  have h2 : ∀ p ∈ b, p.score = dec 1 10 := by
    intro p hp
    obtain ⟨u, hu, seen, r, hr, hp⟩ := groupParse_mem _ _ _ _ _ _ _ hb p hp
    have key := unitParse_score m hd hs _ _ _ _ _ _ hr p hp
    simp only [List.mem_cons, List.not_mem_nil, or_false] at hu
    rcases hu with rfl | rfl <;> exact key
  refine falling_append 1 (falling_const 1 h1) (falling_const _ h2) (fun p hp => le_of_eq (h1 p hp).symm) fun p hp => ?_
  rw [h2 p hp]
  decide +kernel

theorem sorts_number (D : RuleData) (rec : Rec Rat) (w : Str) (n : Nat) : Sorts m D w rec [⟨n, (UnitSpec.number (dec 9 10)).bound⟩] .number :=
  sorts_single m D rec w _ (dec 9 10) (fun seen r h => unitParse_score m hd hs rec ⟨n, (UnitSpec.number (dec 9 10)).bound⟩ w _ seen r h) _
theorem sorts_punct (D : RuleData) (rec : Rec Rat) (w : Str) (n : Nat) : Sorts m D w rec [⟨n, (UnitSpec.punct (dec 9 10)).bound⟩] .punct :=
  sorts_single m D rec w _ (dec 9 10) (fun seen r h => unitParse_score m hd hs rec ⟨n, (UnitSpec.punct (dec 9 10)).bound⟩ w _ seen r h) _
theorem sorts_adverb (D : RuleData) (rec : Rec Rat) (w : Str) (n : Nat) : Sorts m D w rec [⟨n, (UnitSpec.adverb (dec 7 10)).bound⟩] .adverb :=
  sorts_single m D rec w _ (dec 7 10) (fun seen r h => unitParse_score m hd hs rec ⟨n, (UnitSpec.adverb (dec 7 10)).bound⟩ w _ seen r h) _

theorem sorts_foreign (D : RuleData) (rec : Rec Rat) (w : Str) (n1 n2 : Nat) :
    Sorts m D w rec [⟨n1, (UnitSpec.roman (dec 9 10)).bound⟩, ⟨n2, (UnitSpec.latin (dec 9 10)).bound⟩] .foreign := by
  intro r hr _
  refine falling_const (dec 9 10) fun p hp => ?_
  obtain ⟨u, hu, seen, r, hr, hp⟩ := groupParse_mem _ _ _ _ _ _ _ hr p hp
  have key := unitParse_score m hd hs _ _ _ _ _ _ hr p hp
  simp only [List.mem_cons, List.not_mem_nil, or_false] at hu
  rcases hu with rfl | rfl <;> exact key

theorem sorts_wordOrForeign (D : RuleData) (letters : List Str) (hD : ∀ x, D.initial x ↔ x ∈ letters) (rec : Rec Rat) (w : Str)
    (n1 n2 n3 n4 n5 : Nat) (p1 p2 : Str → Str → Str) :
    Sorts m D w rec [⟨n1, .dictionary⟩, ⟨n2, (UnitSpec.firstName letters p1 (dec 1 10)).bound⟩,
      ⟨n3, (UnitSpec.patronymic letters p2 (dec 1 10)).bound⟩, ⟨n4, (UnitSpec.roman (dec 9 10)).bound⟩, ⟨n5, (UnitSpec.latin (dec 9 10)).bound⟩]
      .wordOrForeign := by
  intro r hr hf
  obtain ⟨a, r2, ha, hr2, rfl⟩ := groupParse_cons _ _ _ _ _ _ _ _ hr
  obtain ⟨b, r3, hb, hr3, rfl⟩ := groupParse_cons _ _ _ _ _ _ _ _ hr2
  obtain ⟨c, r, hc, hr4, rfl⟩ := groupParse_cons _ _ _ _ _ _ _ _ hr3
  have c9 : (dec 9 10 : Rat) ≤ 1 := by decide +kernel
  have c1 : (dec 1 10 : Rat) ≤ 1 := by decide +kernel
  have h1 : ∀ p ∈ a.1, p.score = 1 := unitParse_score m hd hs _ _ _ _ _ _ ha
  have h2 : ∀ p ∈ b.1, p.score = dec 1 10 := unitParse_score m hd hs _ _ _ _ _ _ hb
  have h3 : ∀ p ∈ c.1, p.score = dec 1 10 := unitParse_score m hd hs _ _ _ _ _ _ hc
  have h4 : ∀ p ∈ r, p.score = dec 9 10 := by
    intro p hp
    obtain ⟨u, hu, seen, r, hr, hp⟩ := groupParse_mem _ _ _ _ _ _ _ hr4 p hp
    have key := unitParse_score m hd hs _ _ _ _ _ _ hr p hp
    simp only [List.mem_cons, List.not_mem_nil, or_false] at hu
    rcases hu with rfl | rfl <;> exact key
  have hle : ∀ p ∈ b.1 ++ (c.1 ++ r), p.score ≤ 1 := by
    intro p hp
    rcases List.mem_append.1 hp with hp | hp
    · rw [h2 p hp]; exact c1
    · rcases List.mem_append.1 hp with hp | hp
      · rw [h3 p hp]; exact c1
      · rw [h4 p hp]; exact c9
  refine falling_append 1 (falling_const 1 h1) ?_ (fun p hp => le_of_eq (h1 p hp).symm) hle
  by_cases hi : w ∈ letters
  · have hr0 : r = [] := by
      by_contra hne
      exact hf ⟨(hD w).2 hi, (foreign_units m D rec w n4 n5 _ _ _ r hr4).1.1 hne⟩
    subst hr0
    rw [List.append_nil]
    exact falling_const _ fun p hp => (List.mem_append.1 hp).elim (h2 p) (h3 p)
  · have e : b.1 = [] ∧ c.1 = [] := by
      simp only [unitParse, UnitSpec.bound, Except.ok.injEq] at hb hc
      subst hb hc
      simp [initialsParse, hi]
    rw [e.1, e.2]
    exact falling_const _ h4

omit hd hs in
theorem sorts_particle (D : RuleData) (hyph : ∀ p ∈ D.particles, '-' ∈ p) (w : Str) (n : Nat) :
    Sorts m D w ⟨m.parse, m.tag⟩ [⟨n, .particle D.particles (dec 9 10)⟩] .particle := by
  have h0 : [] ∉ D.particles := fun h => by simpa using hyph _ h
  intro r hr hf
  simp only [groupParse, unitParse, bind_ok_iff, pure_eq_ok, Except.ok.injEq] at hr
  obtain ⟨a, ha, hr⟩ := hr
  simp only [exists_eq_left', List.append_nil] at hr
  subst hr
  cases hs : particleSplit D.particles (m.env.lower w) with
  | none =>
    rw [hs] at ha
    simp only [Except.ok.injEq] at ha
    subst ha
    exact .nil
  | some y =>
    obtain ⟨rest, part⟩ := y
    rw [hs] at ha
    simp only [bind_ok_iff, pure_eq_ok, Except.ok.injEq] at ha
    obtain ⟨qs, hqs, rfl⟩ := ha
    have hq := hf rest part qs ((particleSplit_iff _ _ _ _ h0).1 hs) hqs
    refine List.Pairwise.sublist (addParses_sub _ _) ?_
    rw [List.pairwise_map]
    refine hq.imp fun {a b} hab => ?_
    show b.score * dec 9 10 ≤ a.score * dec 9 10
    exact mul_le_mul_of_nonneg_right hab (by decide +kernel)

theorem falls_guess (rec : Rec Rat) (w : Str) (n1 n2 n3 : Nat) (r : List (Parse Rat))
    (hr : firstGroup (fun g => groupParse m rec w (m.env.lower w) g [])
      [[⟨n1, .unknownPrefix (dec 5 10)⟩, ⟨n2, .knownSuffix (dec 5 10) 4⟩], [⟨n3, .unkn ⟨c!"UNKN"⟩⟩]] = .ok r) : Falling r := by
  rw [firstGroup, bind_ok_iff] at hr
  obtain ⟨a, ha, hr⟩ := hr
  cases a with
  | nil =>
    simp only [firstGroup, (unkn_run m rec w (m.env.lower w) n3 ⟨c!"UNKN"⟩).1, ok_bind, pure_eq_ok, Except.ok.injEq] at hr
    subst hr
    exact falling_const 1 (by simp; rfl)
  | cons p ps =>
    simp only [pure_eq_ok, Except.ok.injEq] at hr
    subst hr
    obtain ⟨a, b, hx, hy, he⟩ := groupParse_cons _ _ _ _ _ _ _ _ ha
    obtain ⟨b', c, hu, hz, rfl⟩ := groupParse_cons _ _ _ _ _ _ _ _ hy
    simp only [groupParse, Except.ok.injEq] at hz
    subst hz
    rw [he, List.append_nil]
    have h1 : ∀ p ∈ a.1, p.score = 1 * dec 5 10 := unitParse_score m hd hs _ _ _ _ _ _ hx
    have h2 : ∀ p ∈ b'.1, p.score ≤ 1 * dec 5 10 ∧ Falling b'.1 := by
      simp only [unitParse, suffixParse] at hu
      split at hu
      · simp only [Except.ok.injEq] at hu
        subst hu
        simp
      · simp only [bind_ok_iff, pure_eq_ok, Except.ok.injEq] at hu
        obtain ⟨r', hr', ps, hps, rfl⟩ := hu
        intro p hp
        refine ⟨?_, sortByScore_sorted ps⟩
        have hp := (sortByScore_perm ps).mem_iff.1 hp
        obtain ⟨⟨c, n⟩, hc, hb⟩ := mapE_mem hps hp
        obtain ⟨g1, g2⟩ := sfxPrefixLoop_cnt _ _ _ _ _ _ hr' _ hc
        simp only [sfxBuild, bind_ok_iff, pure_eq_ok, Except.ok.injEq] at hb
        obtain ⟨nf, _, rfl⟩ := hb
        show ((c.cnt : Nat) : Rat) / ((n : Nat) : Rat) * dec 5 10 ≤ 1 * dec 5 10
        refine mul_le_mul_of_nonneg_right ?_ (by decide +kernel)
        have hn : (0 : Rat) < ((n : Nat) : Rat) := by exact_mod_cast g2
        rw [div_le_one hn]
        exact_mod_cast g1
    refine falling_append _ (falling_const _ h1) ?_ (fun p hp => le_of_eq (h1 p hp).symm) fun p hp => (h2 p hp).1
    cases hb : b'.1 with
    | nil => exact .nil
    | cons q qs => exact hb ▸ (h2 q (by rw [hb]; simp)).2

/-! ### The default analyzers -/

omit hd hs in
theorem collected_falls (hm : IsRu m ∨ IsUk m) (hlow : m.env.LowerStable) (w : Str) (ps : List (Parse Rat)) (h : m.parse w = .ok ps)
    (hf : ∀ res, m.collected w = .ok res → Falling res) (hz : ∀ res, m.collected w = .ok res → ∀ p ∈ res, 0 ≤ p.score) : Falling ps := by
  cases hest : m.est with
  | none => exact hf _ (c11_no_estimator m hm hlow hest w ps h)
  | some dawg =>
    by_cases hdata : ∃ p ∈ ps, (prob dawg (m.env.lower w) p.tag : Rat) ≠ 0
    · exact (c11_with_data m hm hlow dawg hest w ps h hdata).1
    · push Not at hdata
      obtain ⟨-, res, hres, -, he⟩ := c11_without_data m hm hlow dawg hest w ps h hdata
      refine falling_core_scale _ (List.sum_nonneg ?_) (hf res hres) he
      intro x hx
      obtain ⟨p, hp, rfl⟩ := List.mem_map.1 hx
      exact hz res hres p hp

theorem rules_fall (D : RuleData) (rules : List Rule)
    (w : Str) (gs : List (List (BUnit Rat))) (n1 n2 n3 : Nat)
    (hg : IsGroups (gs ++ [[⟨n1, .unknownPrefix (dec 5 10)⟩, ⟨n2, .knownSuffix (dec 5 10) 4⟩], [⟨n3, .unkn ⟨c!"UNKN"⟩⟩]]) m.units)
    (hi : List.Forall₂ (fun g ρ => Implements m D w (fun g => groupParse m ⟨m.parse, m.tag⟩ w (m.env.lower w) g []) g ρ ∧
      Sorts m D w ⟨m.parse, m.tag⟩ g ρ) gs rules) (before : List Rule) (ρ : Rule) (after : List Rule)
    (hsplit : rules ++ [.guess] = before ++ ρ :: after) (hb : ∀ σ ∈ before, ¬ σ.applies m D w) (ha : ρ.applies m D w) (hf : ρ.Falls m D w)
    (res : List (Parse Rat)) (hres : m.collected w = .ok res) : Falling res := by
  unfold Morph.collected at hres
  rw [runParse_eq_firstGroup m _ w _ _ _ hg] at hres
  obtain ⟨h1, h2⟩ := first_rule_falls hi _ res hres
  rcases List.eq_nil_or_concat after with rfl | ⟨as, a, rfl⟩
  · have := List.append_inj' hsplit rfl
    exact falls_guess m hd hs _ w n1 n2 n3 res (h2 fun σ hσ => hb σ (this.1 ▸ hσ))
  · rw [List.concat_eq_append, ← List.cons_append, ← List.append_assoc] at hsplit
    have := List.append_inj' hsplit rfl
    exact h1 before ρ as this.1 hb ha hf

omit hd hs in
theorem collected_nonneg (hm : IsRu m ∨ IsUk m) (hp : ∀ dawg, m.est = some dawg → ∀ e ∈ dawg, e.2 ≤ 1000000) (w : Str) (res : List (Parse Rat))
    (h : m.collected w = .ok res) (p : Parse Rat) (hr : p ∈ res) : 0 ≤ p.score := by
  rcases runParse_mem m _ w _ _ _ _ _ h p hr with h1 | ⟨u, hu', seen, r, hr, h1⟩
  · simp at h1
  · exact (unitParse_prob m _ (fun x ps hx p hp' => c12_between_0_and_1 m hm hp x ps hx p hp') u.1 (default_unitScores m hm u hu') w _ seen r hr p h1).1


variable (hlow : m.env.LowerStable) (hp : ∀ dawg, m.est = some dawg → ∀ e ∈ dawg, e.2 ≤ 1000000)
include hlow hp

/-- **C99**, Russian. If the first rule that applies to the word is not the one for compounds nor the one for known prefixes, the results come
with falling scores (for a word with a particle: if those of the word without it do). -/
theorem c99_ru (hm : IsRu m) (w : Str) (ps : List (Parse Rat)) (h : m.parse w = .ok ps)
    (before : List Rule) (ρ : Rule) (after : List Rule) (hsplit : ruRules = before ++ ρ :: after)
    (hb : ∀ σ ∈ before, ¬ σ.applies m ruData w) (ha : ρ.applies m ruData w) (hf : ρ.Falls m ruData w) : Falling ps := by
  refine collected_falls m (.inl hm) hlow w ps h ?_ (fun res hr => collected_nonneg m (.inl hm) hp w res hr)
  have hne := default_parse_ne m (.inl hm) hlow
  obtain ⟨cls, hm⟩ := hm
  refine rules_fall m hd hs ruData [.word, .number, .punct, .foreign, .particle, .adverb, .compound, .prefixed] w
    [[⟨0, .dictionary⟩, ⟨1, (UnitSpec.firstName ruInitialLetters firstNamePattern (dec 1 10)).bound⟩,
      ⟨2, (UnitSpec.patronymic ruInitialLetters patronymicPattern (dec 1 10)).bound⟩],
     [⟨3, (UnitSpec.number (dec 9 10)).bound⟩], [⟨4, (UnitSpec.punct (dec 9 10)).bound⟩],
     [⟨5, (UnitSpec.roman (dec 9 10)).bound⟩, ⟨6, (UnitSpec.latin (dec 9 10)).bound⟩],
     [⟨7, .particle ruData.particles (dec 9 10)⟩], [⟨8, (UnitSpec.adverb (dec 7 10)).bound⟩],
     [⟨9, .hyphenated ruData.prefixes (dec 75 100)⟩], [⟨10, .knownPrefix ruData.prefixes (dec 75 100) 3⟩]]
    11 12 13 (mkMorph_units hm).2.2.2.2 ?_ before ρ after hsplit hb ha hf
  exact .cons ⟨group_word m ruData _ ruInitial_iff _ w _ _ _ _ _ _ _, sorts_word m hd hs _ _ _ w _ _ _ _ _⟩
    (.cons ⟨group_number m _ _ w _ _, sorts_number m hd hs _ _ w _⟩
    (.cons ⟨group_punct m _ _ w _ _, sorts_punct m hd hs _ _ w _⟩
    (.cons ⟨group_foreign m _ _ w _ _ _ _, sorts_foreign m hd hs _ _ w _ _⟩
    (.cons ⟨group_particle m _ (by decide) hne w _ _, sorts_particle m _ (by decide) w _⟩
    (.cons ⟨group_adverb m _ w _ _, sorts_adverb m hd hs _ _ w _⟩
    (.cons ⟨group_compound m _ w _ _, fun _ _ h => h.elim⟩
    (.cons ⟨group_prefixed m _ w _ _, fun _ _ h => h.elim⟩ .nil)))))))

/-- **C99**, Ukrainian. -/
theorem c99_uk (hm : IsUk m) (w : Str) (ps : List (Parse Rat)) (h : m.parse w = .ok ps)
    (before : List Rule) (ρ : Rule) (after : List Rule) (hsplit : ukRules = before ++ ρ :: after)
    (hb : ∀ σ ∈ before, ¬ σ.applies m ukData w) (ha : ρ.applies m ukData w) (hf : ρ.Falls m ukData w) : Falling ps := by
  refine collected_falls m (.inr hm) hlow w ps h ?_ (fun res hr => collected_nonneg m (.inr hm) hp w res hr)
  have hne := default_parse_ne m (.inr hm) hlow
  obtain ⟨cls, hm⟩ := hm
  refine rules_fall m hd hs ukData [.wordOrForeign, .number, .punct, .particle, .compound, .prefixed] w
    [[⟨0, .dictionary⟩, ⟨1, (UnitSpec.firstName ukInitialLetters firstNamePattern (dec 1 10)).bound⟩,
      ⟨2, (UnitSpec.patronymic ukInitialLetters patronymicPattern (dec 1 10)).bound⟩,
      ⟨3, (UnitSpec.roman (dec 9 10)).bound⟩, ⟨4, (UnitSpec.latin (dec 9 10)).bound⟩],
     [⟨5, (UnitSpec.number (dec 9 10)).bound⟩], [⟨6, (UnitSpec.punct (dec 9 10)).bound⟩],
     [⟨7, .particle ukData.particles (dec 9 10)⟩],
     [⟨8, .hyphenated ukData.prefixes (dec 75 100)⟩], [⟨9, .knownPrefix ukData.prefixes (dec 75 100) 3⟩]]
    10 11 12 (mkMorph_units hm).2.2.2.2 ?_ before ρ after hsplit hb ha hf
  exact .cons ⟨group_wordOrForeign m ukData _ ukInitial_iff _ w _ _ _ _ _ _ _ _ _ _ _, sorts_wordOrForeign m hd hs _ _ ukInitial_iff _ w _ _ _ _ _ _ _⟩
    (.cons ⟨group_number m _ _ w _ _, sorts_number m hd hs _ _ w _⟩
    (.cons ⟨group_punct m _ _ w _ _, sorts_punct m hd hs _ _ w _⟩
    (.cons ⟨group_particle m _ (by decide) hne w _ _, sorts_particle m _ (by decide) w _⟩
    (.cons ⟨group_compound m _ w _ _, fun _ _ h => h.elim⟩
    (.cons ⟨group_prefixed m _ w _ _, fun _ _ h => h.elim⟩ .nil)))))


/-- **C99.** The results for a known word (and for an initial) always come with falling scores. -/
theorem c99_known_ru (hm : IsRu m) (w : Str) (ps : List (Parse Rat)) (h : m.parse w = .ok ps) (hw : m.wordIsKnown w = true ∨ RuInitial w) : Falling ps :=
  c99_ru m hd hs hlow hp hm w ps h [] .word _ rfl (by simp) hw trivial

omit hd hs hp hlow

/-! ### Known words without P(t|w) data -/

theorem collected_ru (hm : IsRu m) (w : Str) (hw : m.wordIsKnown w = true ∨ RuInitial w) (res : List (Parse Rat)) (h : m.collected w = .ok res) :
    ∃ ds is, res = ds ++ is ∧ (∀ p ∈ ds, p.score = 1 ∧ p.dictEntry.isSome = true) ∧ (∀ p ∈ is, p.score = 1 / 10 ∧ p.isInitial = true) ∧
      (¬ RuInitial w → is = []) ∧ (RuInitial w → is.length = 24) := by
  obtain ⟨cls, hm⟩ := hm
  have hgr := (mkMorph_units hm).2.2.2.2
  unfold Morph.collected at h
  rw [runParse_eq_firstGroup m _ w _ _ _ hgr] at h
  have himp := group_word m ruData ruInitialLetters ruInitial_iff ⟨m.parse, m.tag⟩ w 0 1 2 firstNamePattern patronymicPattern (dec 1 10) (dec 1 10)
  have h : firstGroup (fun g => groupParse m ⟨m.parse, m.tag⟩ w (m.env.lower w) g [])
    ([⟨0, .dictionary⟩, ⟨1, (UnitSpec.firstName ruInitialLetters firstNamePattern (dec 1 10)).bound⟩,
      ⟨2, (UnitSpec.patronymic ruInitialLetters patronymicPattern (dec 1 10)).bound⟩] :: (boundGroups (ruUnits (S := Rat)) 0).tail) = .ok res := h
  rw [firstGroup, bind_ok_iff] at h
  obtain ⟨r, hr, h⟩ := h
  have hne := (himp r hr).1.2 hw
  have : r = res := by
    cases r with
    | nil => exact absurd rfl hne
    | cons p r => simpa using h
  subst this
  rw [firstName_bound, patronymic_bound] at hr
  simp only [groupParse, unitParse, bind_ok_iff, pure_eq_ok, Except.ok.injEq, exists_eq_left', List.append_nil] at hr
  obtain ⟨r1, ⟨ds, hds, rfl⟩, rfl⟩ := hr
  obtain ⟨-, k2⟩ := dictParse_known m _ w ds hds
  refine ⟨ds, _, rfl, fun p hp => ⟨?_, k2 p hp⟩, ?_, ?_, ?_⟩
  · obtain ⟨_, _, _, _, _, _, hs, _⟩ := dictParse_mem m _ _ ds hds p hp
    exact hs
  · have c : (dec 1 10 : Rat) = 1 / 10 := by decide +kernel
    intro p hp
    rcases List.mem_append.1 hp with hp | hp
    · refine ⟨?_, (initials_initial _ (.inl ⟨_, _, rfl⟩) _ _ _ _ _ p hp).1⟩
      unfold initialsParse at hp
      split at hp
      · obtain ⟨t, _, rfl⟩ := List.mem_map.1 hp; exact c
      · simp at hp
    · refine ⟨?_, (initials_initial _ (.inr ⟨_, rfl⟩) _ _ _ _ _ p hp).1⟩
      unfold initialsParse at hp
      split at hp
      · obtain ⟨t, _, rfl⟩ := List.mem_map.1 hp; exact c
      · simp at hp
  · intro hi
    have : w ∉ ruInitialLetters := fun h => hi ((ruInitial_iff w).2 h)
    simp [initialsParse, this]
  · intro hi
    have : w ∈ ruInitialLetters := (ruInitial_iff w).1 hi
    simp [initialsParse, this, twelve, sixCases]

theorem sum_const (l : List (Parse Rat)) (c : Rat) (h : ∀ p ∈ l, p.score = c) : (l.map Parse.score).sum = l.length * c := by
  induction l with
  | nil => simp
  | cons a l ih =>
    rw [List.map_cons, List.sum_cons, ih fun p hp => h p (by simp [hp]), h a (by simp), List.length_cons]
    push_cast
    ring

/-- **C99.** "If there is no estimate for a dictionary word, its analyses are equally probable": every score is one over their number. If the word is
also an initial, it has 24 more analyses, each ten times less probable than those from the dictionary. -/
theorem c99_uniform_ru (hm : IsRu m) (hlow : m.env.LowerStable) (dawg : List (Str × Nat)) (hest : m.est = some dawg) (w : Str) (ps : List (Parse Rat))
    (h : m.parse w = .ok ps) (hw : m.wordIsKnown w = true ∨ RuInitial w)
    (hdata : ∀ p ∈ ps, (prob dawg (m.env.lower w) p.tag : Rat) = 0) :
    (¬ RuInitial w → ∀ p ∈ ps, p.dictEntry.isSome = true ∧ p.score = 1 / ps.length) ∧
    (RuInitial w → ∃ ds is, ps = ds ++ is ∧ is.length = 24 ∧
      (∀ p ∈ ds, p.dictEntry.isSome = true ∧ p.score = 1 / (ds.length + 12 / 5)) ∧
      (∀ p ∈ is, p.isInitial = true ∧ p.score = 1 / 10 / (ds.length + 12 / 5))) := by
  obtain ⟨-, res, hres, hcore, hsc⟩ := c11_without_data m (.inl hm) hlow dawg hest w ps h hdata
  obtain ⟨ds, is, rfl, h1, h2, h3, h4⟩ := collected_ru m hm w hw res hres
  have hsum : (((ds ++ is).map Parse.score).sum : Rat) = ds.length + is.length / 10 := by
    rw [List.map_append, List.sum_append, sum_const ds 1 fun p hp => (h1 p hp).1, sum_const is (1 / 10) fun p hp => (h2 p hp).1]
    ring
  rw [hsum] at hsc
  have hlen : ps.length = (ds ++ is).length := by simpa using congrArg List.length hcore
  have key : List.Forall₂ (fun p q : Parse Rat => p.core = q.core ∧ p.score = q.score / (ds.length + is.length / 10)) ps (ds ++ is) := by
    clear hdata h hres h1 h2 hsum
    generalize ((ds.length : Rat) + is.length / 10) = t at hsc ⊢
    generalize ds ++ is = l at *
    induction ps generalizing l with
    | nil => cases l with
      | nil => exact .nil
      | cons => simp at hlen
    | cons p ps ih => cases l with
      | nil => simp at hlen
      | cons q l =>
        simp only [List.map_cons, List.cons.injEq] at hcore hsc
        exact .cons ⟨hcore.1, hsc.1⟩ (ih _ hcore.2 (by simpa using hlen) hsc.2)
  have hst : ∀ p q : Parse Rat, p.core = q.core → p.dictEntry = q.dictEntry ∧ p.isInitial = q.isInitial := by
    intro p q hpq
    have := (core_stack hpq).2.2.2
    simp only [Parse.dictEntry, Parse.isInitial, this, and_self]
  constructor
  · intro hi p hp
    have e := h3 hi
    subst e
    obtain ⟨q, hq, hc, hs⟩ := forall₂_mem_left key hp
    rw [List.append_nil] at hq
    refine ⟨by rw [(hst p q hc).1]; exact (h1 q hq).2, ?_⟩
    rw [hs, (h1 q hq).1, hlen]
    simp
  · intro hi
    have e := h4 hi
    rw [e] at key
    have d : ((ds.length : Rat) + ((24 : Nat) : Rat) / 10) = ds.length + 12 / 5 := by norm_num
    rw [d] at key
    refine ⟨ps.take ds.length, ps.drop ds.length, (List.take_append_drop _ _).symm, by simp [hlen, e], ?_, ?_⟩
    all_goals
      intro p hp
    · have hk := List.forall₂_take ds.length key
      rw [List.take_left' rfl] at hk
      obtain ⟨q, hq, hc, hs⟩ := forall₂_mem_left hk hp
      rw [(hst p q hc).1, hs, (h1 q hq).1]
      refine ⟨(h1 q hq).2, ?_⟩
      simp [hlen]
    · have hk := List.forall₂_drop ds.length key
      rw [List.drop_left' rfl] at hk
      obtain ⟨q, hq, hc, hs⟩ := forall₂_mem_left hk hp
      rw [(hst p q hc).2, hs, (h2 q hq).1]
      refine ⟨(h2 q hq).2, ?_⟩
      simp [hlen]


/-! ### CPython -/

/-- On CPython no Ukrainian initial is a Roman number or a word in Latin letters: the rule for words and foreign words always falls. -/
theorem c99_cpython (m : Morph Rat) (he : m.env = Cpython.cpython) (w : Str) : Rule.wordOrForeign.Falls m ukData w := by
  rintro ⟨hi, hf⟩
  have hi := (ukInitial_iff w).1 hi
  rw [he] at hf
  have : ∀ x ∈ ukInitialLetters, isRomanNumber Cpython.cpython x = false ∧ isLatin Cpython.cpython x = .ok false := by decide +kernel
  obtain ⟨a, b⟩ := this w hi
  rw [a, b] at hf
  simp at hf

/-! ### Words with two known prefixes -/

/-- A dictionary in which кош is two different words and докош is one. -/
def Demo.dict99 : Dict :=
  { Demo.dictU with words := Demo.dictU.words ++ [(c!"докош", (6, 0))],
                    paradigms := Demo.dictU.paradigms ++ [[4, 0, 0]] }

def Demo.morph99 : Morph Rat := { Demo.morph with dict := Demo.dict99, est := some [] }

/-- **C99**, defect: недокош can be недо + кош or не + докош. The longer prefix comes first, although the analysis with the other one has a higher
score. -/
theorem c99_prefixed_not_sorted : IsRu Demo.morph99 ∧ Demo.dict99.WF ∧
    (Demo.morph99.parse (c!"недокош")).toOption.map (List.map Parse.score) = some [1/4, 1/4, 1/2] :=
  ⟨Demo.isRu_of _ _, Dict.check_wf _ (by decide +kernel), by decide +kernel⟩

/-! ### Non-vacuity -/

/-- The hypotheses of `c99_ru` are met: a guess (`c74` shows that the rules before it do not apply to пышка) and a known word. -/
example : Demo.morphP.dict.WF ∧ Demo.morphP.sub.Proper ∧ Demo.morphP.env.LowerStable ∧ IsRu Demo.morphP ∧ Demo.morphP.wordIsKnown (c!"кошка") = true ∧
    (∀ dawg, Demo.morphP.est = some dawg → ∀ e ∈ dawg, e.2 ≤ 1000000) :=
  ⟨Demo.dict_wf, c05_default_targets.2.2.1, demoEnv_lowerStable, Demo.morphP_isRu, by decide +kernel, by
    intro dawg h
    have : [(c!"кошка:NOUN,anim,femn sing,nomn", 700000)] = dawg := by simpa [Demo.morphP] using h
    subst this
    decide⟩

/-- кош has two analyses and no data: each has score 1/2. -/
example : Demo.morph99.wordIsKnown (c!"кош") = true ∧ ¬ RuInitial (c!"кош") ∧
    (Demo.morph99.parse (c!"кош")).toOption.map (List.map Parse.score) = some [1/2, 1/2] :=
  ⟨by decide +kernel, by rintro ⟨c, h, -⟩; simp at h, by decide +kernel⟩

/-- An initial without data: 24 analyses with score 1/24. -/
example : RuInitial (c!"А") ∧ (Demo.morph99.parse (c!"А")).toOption.map (List.map Parse.score) = some (List.replicate 24 (1/24)) :=
  ⟨⟨'А', rfl, .inr (by decide)⟩, by decide +kernel⟩

end Verif
