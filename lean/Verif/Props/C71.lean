/-
C71 — which rule answers.
-/
import Verif.Spec.Rules
import Verif.Demo

set_option linter.unusedSectionVars false

namespace Verif

variable {S : Type} [Score S]

/-! ### The first rule that applies -/

/-- A group of units with the rule it implements. -/
def Implements (m : Morph S) (D : RuleData) (w : Str) (run : List (BUnit S) → Except PyErr (List (Parse S))) (g : List (BUnit S)) (ρ : Rule) : Prop :=
  ∀ r, run g = .ok r → (r ≠ [] ↔ ρ.applies m D w) ∧ (r ≠ [] → ρ.answers m D w r)

theorem first_rule {m : Morph S} {D : RuleData} {w : Str} {run : List (BUnit S) → Except PyErr (List (Parse S))}
    {gs : List (List (BUnit S))} {ρs : List Rule} (h : List.Forall₂ (Implements m D w run) gs ρs) (tail : List (List (BUnit S)))
    (res : List (Parse S)) (hr : firstGroup run (gs ++ tail) = .ok res) :
    (∀ before ρ after, ρs = before ++ ρ :: after → (∀ σ ∈ before, ¬ σ.applies m D w) → ρ.applies m D w → ρ.answers m D w res) ∧
    ((∀ σ ∈ ρs, ¬ σ.applies m D w) → firstGroup run tail = .ok res) := by
  induction h with
  | nil => exact ⟨fun b ρ a h => absurd h (by simp), fun _ => hr⟩
  | @cons g ρ gs ρs h1 _ ih =>
    rw [List.cons_append, firstGroup, bind_ok_iff] at hr
    obtain ⟨r, hg, hr⟩ := hr
    obtain ⟨k1, k2⟩ := h1 r hg
    cases r with
    | nil =>
      have hn : ¬ ρ.applies m D w := fun ha => (k1.2 ha) rfl
      obtain ⟨i1, i2⟩ := ih hr
      refine ⟨?_, fun hall => i2 fun σ hσ => hall σ (List.mem_cons_of_mem _ hσ)⟩
      intro b σ a he hb hσ
      cases b with
      | nil =>
        simp only [List.nil_append, List.cons.injEq] at he
        exact absurd (he.1 ▸ hσ) hn
      | cons x b =>
        simp only [List.cons_append, List.cons.injEq] at he
        exact i1 b σ a he.2 (fun τ hτ => hb τ (List.mem_cons_of_mem _ hτ)) hσ
    | cons p r =>
      simp only [pure_eq_ok, Except.ok.injEq] at hr
      subst hr
      have ha : ρ.applies m D w := k1.1 (by simp)
      refine ⟨?_, fun hall => absurd ha (hall ρ (by simp))⟩
      intro b σ a he hb hσ
      cases b with
      | nil =>
        simp only [List.nil_append, List.cons.injEq] at he
        rw [← he.1]
        exact k2 (by simp)
      | cons x b =>
        simp only [List.cons_append, List.cons.injEq] at he
        exact absurd ha (he.1 ▸ hb x (by simp))

/-! ### Scores do not matter -/

theorem core_stack {p q : Parse S} (h : p.core = q.core) : p.word = q.word ∧ p.tag = q.tag ∧ p.nf = q.nf ∧ p.stack = q.stack := by
  simpa [Parse.core] using h

theorem answers_core (m : Morph S) (D : RuleData) (w : Str) (ps qs : List (Parse S)) (h : (ps.map Parse.core).Perm (qs.map Parse.core)) (ρ : Rule)
    (ha : ρ.answers m D w qs) : ρ.answers m D w ps := by
  have key : ∀ p ∈ ps, ∃ q ∈ qs, q.core = p.core := fun p hp => List.mem_map.1 (h.mem_iff.1 (List.mem_map.2 ⟨p, hp, rfl⟩))
  have key' : ∀ q ∈ qs, ∃ p ∈ ps, p.core = q.core := fun q hq => List.mem_map.1 (h.symm.mem_iff.1 (List.mem_map.2 ⟨q, hq, rfl⟩))
  have only : ∀ t, Only m w t qs → Only m w t ps := by
    rintro t ⟨u, hu⟩
    refine ⟨u, ?_⟩
    rw [hu] at h
    exact List.perm_singleton.1 h
  have made : ∀ p q : Parse S, q.core = p.core → ∀ k, q.madeBy k → p.madeBy k := by
    rintro p q e k ⟨u, hu, hk⟩
    refine ⟨u, ?_, hk⟩
    rw [← hu]; unfold Parse.outer; rw [(core_stack e).2.2.2]
  have entry : ∀ p q : Parse S, q.core = p.core → p.dictEntry = q.dictEntry := by
    intro p q e; unfold Parse.dictEntry; rw [(core_stack e).2.2.2]
  have init : ∀ p q : Parse S, q.core = p.core → p.isInitial = q.isInitial := by
    intro p q e; unfold Parse.isInitial; rw [(core_stack e).2.2.2]
  have foreign : ∀ p q : Parse S, q.core = p.core → q.ForeignTo m w → p.ForeignTo m w := by
    intro p q e hq
    obtain ⟨e1, e2, e3, _⟩ := core_stack e
    unfold Parse.ForeignTo at *
    rwa [← e1, ← e2, ← e3]
  cases ρ with
  | word =>
    intro p hp
    obtain ⟨q, hq, e⟩ := key p hp
    rw [entry p q e, init p q e]; exact ha q hq
  | wordOrForeign =>
    intro p hp
    obtain ⟨q, hq, e⟩ := key p hp
    rw [entry p q e, init p q e]
    rcases ha q hq with h | h | h
    · exact .inl h
    · exact .inr (.inl h)
    · exact .inr (.inr (foreign p q e h))
  | number => exact ⟨fun h => only _ (ha.1 h), fun h => only _ (ha.2 h)⟩
  | punct => exact only _ ha
  | foreign =>
    obtain ⟨h1, h2, h3⟩ := ha
    refine ⟨?_, ?_, ?_⟩
    · intro p hp
      obtain ⟨q, hq, e⟩ := key p hp
      exact foreign p q e (h1 q hq)
    · intro hr
      obtain ⟨q, hq, ht⟩ := h2 hr
      obtain ⟨p, hp, e⟩ := key' q hq
      exact ⟨p, hp, by rw [(core_stack e).2.1]; exact ht⟩
    · intro hr
      obtain ⟨q, hq, ht⟩ := h3 hr
      obtain ⟨p, hp, e⟩ := key' q hq
      exact ⟨p, hp, by rw [(core_stack e).2.1]; exact ht⟩
  | particle =>
    obtain ⟨rest, part, h1, h2, h3, qs', h4, h5⟩ := ha
    refine ⟨rest, part, h1, h2, h3, qs', h4, fun p hp => ?_⟩
    obtain ⟨q, hq, e⟩ := key p hp
    obtain ⟨q', hq', u, hk, hf⟩ := h5 q hq
    refine ⟨q', hq', u, hk, ?_⟩
    obtain ⟨e1, e2, e3, e4⟩ := core_stack e
    unfold Parse.followedBy at *
    rwa [← e1, ← e2, ← e3, ← e4]
  | adverb => exact only _ ha
  | compound =>
    intro p hp
    obtain ⟨q, hq, e⟩ := key p hp
    exact made p q e _ (ha q hq)
  | prefixed =>
    intro p hp
    obtain ⟨q, hq, e⟩ := key p hp
    obtain ⟨pre, h1, rest, h2, qs', h4, q', hq', ht, u, hk, hf⟩ := ha q hq
    refine ⟨pre, h1, rest, h2, qs', h4, q', hq', ht, u, hk, ?_⟩
    obtain ⟨e1, e2, e3, e4⟩ := core_stack e
    unfold Parse.prefixedBy at *
    rwa [← e1, ← e2, ← e3, ← e4]
  | guess =>
    rcases ha with h | h
    · exact .inl (only _ h)
    · right
      intro p hp
      obtain ⟨q, hq, e⟩ := key p hp
      exact (h q hq).imp (And.imp_left (made p q e _)) (And.imp_left (made p q e _))

/-! ### The groups and their rules -/

theorem known_iff (m : Morph S) (w : Str) : m.wordIsKnown w = true ↔ lookup m.dict.words m.sub (m.env.lower w) ≠ [] := by
  simp only [Morph.wordIsKnown, Dict.wordIsKnown, Bool.false_eq_true, if_false, Bool.not_eq_true', List.isEmpty_eq_false_iff]
  constructor
  · intro h
    obtain ⟨v, hv⟩ := List.exists_mem_of_ne_nil _ h
    obtain ⟨h1, r, h2⟩ := (Dawg.mem_similarKeys _ _ _ _).1 hv
    exact List.ne_nil_of_mem ((mem_lookup _ _ _ _ _).2 ⟨h1, h2⟩)
  · intro h
    obtain ⟨⟨v, r⟩, hv⟩ := List.exists_mem_of_ne_nil _ h
    obtain ⟨h1, h2⟩ := (mem_lookup _ _ _ _ _).1 hv
    exact List.ne_nil_of_mem ((Dawg.mem_similarKeys _ _ _ _).2 ⟨h1, r, h2⟩)

theorem dictParse_known (m : Morph S) (u : UObj) (w : Str) (ps : List (Parse S)) (h : dictParse m u (m.env.lower w) = .ok ps) :
    (ps ≠ [] ↔ m.wordIsKnown w = true) ∧ ∀ p ∈ ps, p.dictEntry.isSome = true := by
  rw [known_iff]
  unfold dictParse at h
  have hf := (mapE_ok_iff _ _ _).1 h
  constructor
  · have := hf.length_eq
    rw [← List.length_pos_iff, ← List.length_pos_iff, this]
  · intro p hp
    obtain ⟨e, he, hd⟩ := forall₂_mem_right hf hp
    unfold dictParse1 at hd
    simp only [bind_ok_iff, pure_eq_ok, Except.ok.injEq] at hd
    obtain ⟨_, _, _, _, rfl⟩ := hd
    rfl

theorem initials_initial (u : UObj) (hk : (∃ m f, u.kind = .firstName m f) ∨ ∃ t, u.kind = .patronymic t) (letters : List Str) (tags : List Tag) (score : S)
    (w wl : Str) : ∀ p ∈ initialsParse u letters tags score w wl, p.isInitial = true ∧ w ∈ letters := by
  intro p hp
  unfold initialsParse at hp
  split at hp
  · next hw =>
    obtain ⟨t, _, rfl⟩ := List.mem_map.1 hp
    refine ⟨?_, hw⟩
    rcases hk with ⟨a, b, hk⟩ | ⟨a, hk⟩ <;> simp [Parse.isInitial, Stack.single, hk]
  · simp at hp

theorem initials_ne (u : UObj) (letters : List Str) (tags : List Tag) (ht : tags ≠ []) (score : S) (w wl : Str) :
    initialsParse u letters tags score w wl ≠ [] ↔ w ∈ letters := by
  unfold initialsParse
  split
  · next h => simp [h, ht]
  · next h => simp [h]

theorem patronymic_tags_ne (pattern : Str → Str → Str) : (GENDERS2.flatMap fun g => CASES6.map fun c => Tag.mk (pattern g c)) ≠ [] := by
  simp [GENDERS2, CASES6]

theorem group_word (m : Morph S) (D : RuleData) (letters : List Str) (hD : ∀ x, D.initial x ↔ x ∈ letters) (rec : Rec S) (w : Str) (n1 n2 n3 : Nat)
    (p1 p2 : Str → Str → Str) (s1 s2 : S) :
    Implements m D w (fun g => groupParse m rec w (m.env.lower w) g [])
      [⟨n1, .dictionary⟩, ⟨n2, (UnitSpec.firstName letters p1 s1).bound⟩, ⟨n3, (UnitSpec.patronymic letters p2 s2).bound⟩] .word := by
  intro r hr
  simp only [groupParse, unitParse, UnitSpec.bound, bind_ok_iff, pure_eq_ok, Except.ok.injEq, exists_eq_left', List.append_nil] at hr
  obtain ⟨r1, ⟨ps, hps, rfl⟩, rfl⟩ := hr
  obtain ⟨k1, k2⟩ := dictParse_known m _ w ps hps
  dsimp only at *
  constructor
  · simp only [ne_eq, List.append_eq_nil_iff, not_and_or, Rule.applies]
    rw [show (¬ ps = []) ↔ m.wordIsKnown w = true from k1, hD]
    constructor
    · rintro (h | h | h)
      · exact .inl h
      · obtain ⟨p, hp⟩ := List.exists_mem_of_ne_nil _ h
        exact .inr (initials_initial _ (.inl ⟨_, _, rfl⟩) _ _ _ _ _ p hp).2
      · obtain ⟨p, hp⟩ := List.exists_mem_of_ne_nil _ h
        exact .inr (initials_initial _ (.inr ⟨_, rfl⟩) _ _ _ _ _ p hp).2
    · rintro (h | h)
      · exact .inl h
      · exact .inr (.inr ((initials_ne _ _ _ (patronymic_tags_ne p2) _ _ _).2 h))
  · intro _ p hp
    rcases List.mem_append.1 hp with hp | hp
    · exact .inl ⟨k2 p hp, k1.1 (List.ne_nil_of_mem hp)⟩
    · rcases List.mem_append.1 hp with hp | hp
      · have := initials_initial _ (.inl ⟨_, _, rfl⟩) _ _ _ _ _ p hp
        exact .inr ⟨this.1, (hD w).2 this.2⟩
      · have := initials_initial _ (.inr ⟨_, rfl⟩) _ _ _ _ _ p hp
        exact .inr ⟨this.1, (hD w).2 this.2⟩

/-- The answer of the units for Roman numbers and Latin letters. -/
theorem foreign_units (m : Morph S) (D : RuleData) (rec : Rec S) (w : Str) (n1 n2 : Nat) (s1 s2 : S) (seen : Seen) (r : List (Parse S))
    (hr : groupParse m rec w (m.env.lower w) [⟨n1, (UnitSpec.roman s1).bound⟩, ⟨n2, (UnitSpec.latin s2).bound⟩] seen = .ok r) :
    (r ≠ [] ↔ Rule.foreign.applies m D w) ∧ Rule.foreign.answers m D w r := by
  simp only [groupParse, unitParse, UnitSpec.bound, shapeTag, bind_ok_iff, pure_eq_ok, Except.ok.injEq, exists_eq_left',
    List.append_nil] at hr
  obtain ⟨r1, ⟨a, ⟨t, ⟨b, hb, rfl⟩, rfl⟩, rfl⟩, rfl⟩ := hr
  dsimp only
  cases hrom : isRomanNumber m.env w <;> cases b <;>
    simp [Rule.applies, Rule.answers, shapeParse, hrom, hb, Parse.ForeignTo]

theorem group_foreign (m : Morph S) (D : RuleData) (rec : Rec S) (w : Str) (n1 n2 : Nat) (s1 s2 : S) :
    Implements m D w (fun g => groupParse m rec w (m.env.lower w) g []) [⟨n1, (UnitSpec.roman s1).bound⟩, ⟨n2, (UnitSpec.latin s2).bound⟩] .foreign := by
  intro r hr
  obtain ⟨h1, h2⟩ := foreign_units m D rec w n1 n2 s1 s2 [] r hr
  exact ⟨h1, fun _ => h2⟩

theorem group_wordOrForeign (m : Morph S) (D : RuleData) (letters : List Str) (hD : ∀ x, D.initial x ↔ x ∈ letters) (rec : Rec S) (w : Str)
    (n1 n2 n3 n4 n5 : Nat) (p1 p2 : Str → Str → Str) (s1 s2 s3 s4 : S) :
    Implements m D w (fun g => groupParse m rec w (m.env.lower w) g [])
      [⟨n1, .dictionary⟩, ⟨n2, (UnitSpec.firstName letters p1 s1).bound⟩, ⟨n3, (UnitSpec.patronymic letters p2 s2).bound⟩,
       ⟨n4, (UnitSpec.roman s3).bound⟩, ⟨n5, (UnitSpec.latin s4).bound⟩] .wordOrForeign := by
  intro r hr
  have hsplit : ∃ r1 r2, r = r1 ++ r2 ∧
      groupParse m rec w (m.env.lower w)
        [⟨n1, .dictionary⟩, ⟨n2, (UnitSpec.firstName letters p1 s1).bound⟩, ⟨n3, (UnitSpec.patronymic letters p2 s2).bound⟩] [] = .ok r1 ∧
      groupParse m rec w (m.env.lower w) [⟨n4, (UnitSpec.roman s3).bound⟩, ⟨n5, (UnitSpec.latin s4).bound⟩] [] = .ok r2 := by
    dsimp only at hr
    rw [groupParse, bind_ok_iff] at hr
    obtain ⟨a, ha, hr⟩ := hr
    rw [bind_ok_iff] at hr
    obtain ⟨b, hb, hr⟩ := hr
    rw [groupParse, bind_ok_iff] at hb
    obtain ⟨c, hc, hb⟩ := hb
    rw [bind_ok_iff] at hb
    obtain ⟨d, hd, hb⟩ := hb
    rw [groupParse, bind_ok_iff] at hd
    obtain ⟨e, he, hd⟩ := hd
    rw [bind_ok_iff] at hd
    obtain ⟨f, hf, hd⟩ := hd
    have s0 : a.2 = [] ∧ c.2 = a.2 ∧ e.2 = c.2 := by
      refine ⟨?_, ?_, ?_⟩
      · simp only [unitParse, bind_ok_iff, pure_eq_ok, Except.ok.injEq] at ha
        obtain ⟨_, _, rfl⟩ := ha; rfl
      · simp only [unitParse, UnitSpec.bound, Except.ok.injEq] at hc
        rw [← hc]
      · simp only [unitParse, UnitSpec.bound, Except.ok.injEq] at he
        rw [← he]
    refine ⟨a.1 ++ (c.1 ++ (e.1 ++ [])), f, ?_, ?_, ?_⟩
    · simp only [pure_eq_ok, Except.ok.injEq] at hr hb hd
      rw [← hr, ← hb, ← hd]; simp
    · simp only [groupParse, ha, hc, he, bind_ok_iff, pure_eq_ok, Except.ok.injEq, exists_eq_left', exists_eq_left]
    · rw [← hf, s0.2.2, s0.2.1, s0.1]
  obtain ⟨r1, r2, rfl, h1, h2⟩ := hsplit
  obtain ⟨w1, w2⟩ := group_word m D letters hD rec w n1 n2 n3 p1 p2 s1 s2 r1 h1
  obtain ⟨f1, f2⟩ := foreign_units m D rec w n4 n5 s3 s4 [] r2 h2
  constructor
  · simp only [ne_eq, List.append_eq_nil_iff, not_and_or]
    rw [show (¬ r1 = []) ↔ _ from w1, show (¬ r2 = []) ↔ _ from f1]
    simp only [Rule.applies, or_assoc]
  · intro _ p hp
    rcases List.mem_append.1 hp with hp | hp
    · exact (w2 (List.ne_nil_of_mem hp) p hp).imp id .inl
    · exact .inr (.inr (f2.1 p hp))

theorem group_number (m : Morph S) (D : RuleData) (rec : Rec S) (w : Str) (n : Nat) (s : S) :
    Implements m D w (fun g => groupParse m rec w (m.env.lower w) g []) [⟨n, (UnitSpec.number s).bound⟩] .number := by
  intro r hr
  simp only [groupParse, unitParse, UnitSpec.bound, shapeTag, bind_ok_iff, pure_eq_ok, Except.ok.injEq, exists_eq_left',
    List.append_nil] at hr
  subst hr
  unfold numberShape
  by_cases h1 : m.env.isInt w = true
  · simp [h1, shapeParse, Rule.applies, Rule.answers, Only, Parse.core]
    exact ⟨_, rfl⟩
  · rw [if_neg h1]
    by_cases h2 : SaysFloat m.env w
    · have h2' := h2
      unfold SaysFloat at h2'
      rw [if_pos h2']
      simp [h1, h2, shapeParse, Rule.applies, Rule.answers, Only, Parse.core]
      exact ⟨_, rfl⟩
    · have h2' := h2
      unfold SaysFloat at h2'
      rw [if_neg h2']
      simp [h1, h2, shapeParse, Rule.applies]

theorem group_punct (m : Morph S) (D : RuleData) (rec : Rec S) (w : Str) (n : Nat) (s : S) :
    Implements m D w (fun g => groupParse m rec w (m.env.lower w) g []) [⟨n, (UnitSpec.punct s).bound⟩] .punct := by
  intro r hr
  simp only [groupParse, unitParse, UnitSpec.bound, shapeTag, bind_ok_iff, pure_eq_ok, Except.ok.injEq, exists_eq_left',
    List.append_nil] at hr
  subst hr
  cases h : isPunctuation m.env w
  · simp [h, shapeParse, Rule.applies]
  · simp [h, shapeParse, Rule.applies, Rule.answers, Only, Parse.core]
    exact ⟨_, rfl⟩

theorem addParses_ne (ps : List (Parse S)) : (addParses ps []).1 ≠ [] ↔ ps ≠ [] := by
  cases ps with
  | nil => simp [addParses]
  | cons p ps => simp [addParses]

theorem firstParticle_exists (particles : List Str) (w : Str) (h : ∃ rest, ∃ part ∈ particles, rest ≠ [] ∧ w = rest ++ part) (hh : '-' ∈ w) :
    ∃ rest part, FirstParticle particles w rest part := by
  induction particles with
  | nil => obtain ⟨_, _, h, _⟩ := h; simp at h
  | cons x xs ih =>
    by_cases hx : ∃ r, r ≠ [] ∧ w = r ++ x
    · obtain ⟨r, h1, h2⟩ := hx
      exact ⟨r, x, hh, h1, h2, [], xs, rfl, by simp⟩
    · obtain ⟨rest, part, hp, h1, h2⟩ := h
      rcases List.mem_cons.1 hp with rfl | hp
      · exact absurd ⟨rest, h1, h2⟩ hx
      · obtain ⟨r', p', g1, g2, g3, b, a, g4, g5⟩ := ih ⟨rest, part, hp, h1, h2⟩
        refine ⟨r', p', g1, g2, g3, x :: b, a, by rw [g4]; rfl, ?_⟩
        intro y hy
        rcases List.mem_cons.1 hy with rfl | hy
        · exact hx
        · exact g5 y hy

theorem group_particle (m : Morph S) (D : RuleData) (hyph : ∀ p ∈ D.particles, '-' ∈ p) (hne : ∀ x qs, m.parse x = .ok qs → qs ≠ []) (w : Str) (n : Nat) (s : S) :
    Implements m D w (fun g => groupParse m ⟨m.parse, m.tag⟩ w (m.env.lower w) g []) [⟨n, .particle D.particles s⟩] .particle := by
  have h0 : [] ∉ D.particles := fun h => by simpa using hyph _ h
  intro r hr
  simp only [groupParse, unitParse, bind_ok_iff, pure_eq_ok, Except.ok.injEq] at hr
  obtain ⟨a, ha, hr⟩ := hr
  simp only [exists_eq_left', List.append_nil] at hr
  subst hr
  cases hs : particleSplit D.particles (m.env.lower w) with
  | none =>
    rw [hs] at ha
    simp only [Except.ok.injEq] at ha
    subst ha
    refine ⟨⟨fun h => absurd rfl h, ?_⟩, fun h => absurd rfl h⟩
    rintro ⟨rest, part, h1, h2, h3⟩
    obtain ⟨r', p', hf⟩ := firstParticle_exists D.particles _ ⟨rest, part, h1, h2, h3⟩ (by rw [h3]; simp [hyph part h1])
    rw [(particleSplit_iff _ _ _ _ h0).2 hf] at hs
    simp at hs
  | some y =>
    obtain ⟨rest, part⟩ := y
    rw [hs] at ha
    simp only [bind_ok_iff, pure_eq_ok, Except.ok.injEq] at ha
    obtain ⟨qs, hqs, rfl⟩ := ha
    obtain ⟨_, g2, g3, b, a, g4, _⟩ := (particleSplit_iff _ _ _ _ h0).1 hs
    have hp : part ∈ D.particles := by rw [g4]; simp
    refine ⟨⟨fun _ => ⟨rest, part, hp, g2, g3⟩, fun _ => (addParses_ne _).2 (by simpa using hne _ _ hqs)⟩, fun _ => ?_⟩
    refine ⟨rest, part, hp, g2, g3, qs, hqs, ?_⟩
    intro p hpm
    obtain ⟨q, hq, rfl⟩ := List.mem_map.1 (addParses_mem hpm)
    exact ⟨q, hq, _, rfl, rfl, rfl, rfl, rfl⟩

theorem anyE_ok_false {α : Type} (f : α → Except PyErr Bool) (l : List α) (h : anyE f l = .ok false) : ∀ a ∈ l, f a = .ok false := by
  induction l with
  | nil => simp
  | cons a l ih =>
    rw [anyE, bind_ok_iff] at h
    obtain ⟨b, hb, h⟩ := h
    cases b
    · intro x hx
      rcases List.mem_cons.1 hx with rfl | hx
      · exact hb
      · exact ih (by simpa using h) x hx
    · simp at h

theorem group_adverb (m : Morph S) (D : RuleData) (w : Str) (n : Nat) (s : S) :
    Implements m D w (fun g => groupParse m ⟨m.parse, m.tag⟩ w (m.env.lower w) g []) [⟨n, (UnitSpec.adverb s).bound⟩] .adverb := by
  intro r hr
  simp only [groupParse, unitParse, UnitSpec.bound, bind_ok_iff, pure_eq_ok, Except.ok.injEq, exists_eq_left', List.append_nil] at hr
  obtain ⟨a, ⟨b, hb, rfl⟩, rfl⟩ := hr
  have hcs : ∀ t, m.cls.containsSet t [c!"ADJF", c!"sing", c!"datv"].toFinset = .ok true ↔ (c!"ADJF" ∈ t.tuple ∧ c!"sing" ∈ t.tuple ∧ c!"datv" ∈ t.tuple) := by
    intro t
    rw [(c22_contains_set m.cls t _).1]
    constructor
    · intro h
      exact ⟨h _ (by decide), h _ (by decide), h _ (by decide)⟩
    · rintro ⟨h1, h2, h3⟩ g hg
      simp only [List.mem_toFinset, List.mem_cons, List.not_mem_nil, or_false] at hg
      rcases hg with rfl | rfl | rfl <;> assumption
  have key : b = true ↔ Rule.adverb.applies m D w := by
    unfold adverbShould at hb
    split at hb
    · next hn =>
      simp only [Except.ok.injEq] at hb
      subst hb
      simp only [Bool.false_eq_true, false_iff]
      rintro ⟨rest, h1, h2, _⟩
      rcases hn with hn | hn
      · have := congrArg List.length h1
        simp at this
        omega
      · rw [(startsWith_iff _ _).2 ⟨rest, h1.symm⟩] at hn
        simp at hn
    · next hn =>
      simp only [not_or, Bool.not_eq_false] at hn
      obtain ⟨rest, hrest⟩ := (startsWith_iff _ _).1 hn.2
      simp only [bind_ok_iff] at hb
      obtain ⟨ts, hts, hb⟩ := hb
      have hd : (m.env.lower w).drop 3 = rest := by rw [← hrest]; rfl
      rw [hd] at hts
      constructor
      · rintro rfl
        obtain ⟨t, ht, hc⟩ := anyE_ok_true _ _ hb
        refine ⟨rest, hrest.symm, ?_, ts, hts, t, ht, (hcs t).1 hc⟩
        have := congrArg List.length hrest
        simp at this
        omega
      · rintro ⟨rest', h1, h2, ts', h3, t, ht, hc⟩
        have : rest' = rest := by
          rw [← hrest] at h1
          exact (List.append_cancel_left h1).symm
        subst this
        rw [hts] at h3
        simp only [Except.ok.injEq] at h3
        subst h3
        cases b
        · have := anyE_ok_false _ _ hb t ht
          rw [(hcs t).2 hc] at this
          simp at this
        · rfl
  rw [← key]
  cases b
  · simp
  · simp only [if_true, ne_eq, List.cons_ne_nil, not_false_eq_true, forall_const, true_and]
    exact ⟨_, rfl⟩

theorem group_compound (m : Morph S) (D : RuleData) (w : Str) (n : Nat) (s : S) :
    Implements m D w (fun g => groupParse m ⟨m.parse, m.tag⟩ w (m.env.lower w) g []) [⟨n, .hyphenated D.prefixes s⟩] .compound := by
  intro r hr
  simp only [groupParse, bind_ok_iff, pure_eq_ok, Except.ok.injEq] at hr
  obtain ⟨a, ha, hr⟩ := hr
  simp only [exists_eq_left', List.append_nil] at hr
  subst hr
  have hmem := c52_answers m ⟨m.parse, m.tag⟩ ⟨n, .hyphenated D.prefixes s⟩ D.prefixes s rfl w (m.env.lower w) [] a ha
  constructor
  · constructor
    · intro h
      obtain ⟨p, hp⟩ := List.exists_mem_of_ne_nil _ h
      obtain ⟨x, y, h1, h2, h3, h4, h5, h6, lp, rp, h7, h8, r, hr, h9⟩ := (hmem p).1 hp
      refine ⟨x, y, h1, h2, h3, h4, h5, h6, lp, rp, h7, h8, r, hr, ?_⟩
      rcases h9 with ⟨l, hl, g1, g2, _⟩ | ⟨g, _⟩
      · exact .inr ⟨l, hl, g1, g2⟩
      · exact .inl g
    · rintro ⟨x, y, h1, h2, h3, h4, h5, h6, lp, rp, h7, h8, r, hr, h9⟩
      rcases h9 with h9 | ⟨l, hl, g1, g2⟩
      · exact List.ne_nil_of_mem ((hmem _).2 ⟨x, y, h1, h2, h3, h4, h5, h6, lp, rp, h7, h8, r, hr, .inr ⟨h9, rfl⟩⟩)
      · exact List.ne_nil_of_mem ((hmem _).2 ⟨x, y, h1, h2, h3, h4, h5, h6, lp, rp, h7, h8, r, hr, .inl ⟨l, hl, g1, g2, rfl⟩⟩)
  · intro _ p hp
    exact ⟨_, unitParse_outer _ _ _ _ _ _ _ ha p hp, rfl⟩

theorem group_prefixed (m : Morph S) (D : RuleData) (w : Str) (n : Nat) (s : S) :
    Implements m D w (fun g => groupParse m ⟨m.parse, m.tag⟩ w (m.env.lower w) g []) [⟨n, .knownPrefix D.prefixes s 3⟩] .prefixed := by
  intro r hr
  simp only [groupParse, unitParse, bind_ok_iff, pure_eq_ok, Except.ok.injEq, List.append_nil, exists_eq_left'] at hr
  obtain ⟨a, ⟨cs, hcs, rfl⟩, rfl⟩ := hr
  have hmem := prefixCands_iff _ _ _ _ _ hcs
  constructor
  · rw [addParses_ne]
    constructor
    · intro h
      obtain ⟨p, hp⟩ := List.exists_mem_of_ne_nil _ h
      obtain ⟨⟨pre, rest⟩, hs, qs, h1, q, h2, h3, _⟩ := (hmem p).1 hp
      obtain ⟨g1, g2, g3⟩ := (c42_splits_mem _ _ _ _ _).1 hs
      exact ⟨pre, g1, rest, g2, g3, qs, h1, q, h2, h3⟩
    · rintro ⟨pre, g1, rest, g2, g3, qs, h1, q, h2, h3⟩
      exact List.ne_nil_of_mem ((hmem _).2 ⟨(pre, rest), (c42_splits_mem _ _ _ _ _).2 ⟨g1, g2, g3⟩, qs, h1, q, h2, h3, rfl⟩)
  · intro _ p hp
    obtain ⟨⟨pre, rest⟩, hs, qs, h1, q, h2, h3, rfl⟩ := (hmem p).1 (addParses_mem hp)
    obtain ⟨g1, g2, _⟩ := (c42_splits_mem _ _ _ _ _).1 hs
    exact ⟨pre, g1, rest, g2, qs, h1, q, h2, h3, _, rfl, rfl, rfl, rfl, rfl⟩

/-- The last two groups: predictions, then the unknown word. -/
theorem guess_tail (m : Morph S) (D : RuleData) (rec : Rec S) (w : Str) (n1 n2 n3 : Nat) (s1 s2 : S) (r : List (Parse S))
    (hr : firstGroup (fun g => groupParse m rec w (m.env.lower w) g [])
      [[⟨n1, .unknownPrefix s1⟩, ⟨n2, .knownSuffix s2 4⟩], [⟨n3, .unkn ⟨c!"UNKN"⟩⟩]] = .ok r) : Rule.guess.answers m D w r := by
  rw [firstGroup, bind_ok_iff] at hr
  obtain ⟨a, ha, hr⟩ := hr
  cases a with
  | nil =>
    simp only [firstGroup, (unkn_run m rec w (m.env.lower w) n3 ⟨c!"UNKN"⟩).1, ok_bind, pure_eq_ok, Except.ok.injEq] at hr
    subst hr
    exact .inl ⟨_, rfl⟩
  | cons p ps =>
    simp only [pure_eq_ok, Except.ok.injEq] at hr
    subst hr
    right
    intro q hq
    simp only [groupParse, bind_ok_iff, pure_eq_ok, Except.ok.injEq] at ha
    obtain ⟨x, hx, y, ⟨z, hz, t, rfl, rfl⟩, he⟩ := ha
    rw [← he, List.append_nil] at hq
    rcases List.mem_append.1 hq with hq | hq
    · refine .inl ⟨⟨_, unitParse_outer _ _ _ _ _ _ _ hx q hq, rfl⟩, ?_⟩
      by_contra hlen
      have hs : wordSplits (m.env.lower w) = [] := by
        unfold wordSplits
        rw [show min 5 ((m.env.lower w).length - 3) = 0 by omega]
        rfl
      simp only [unitParse, hs, prefixCands, mapE, bind_ok_iff, pure_eq_ok, Except.ok.injEq] at hx
      obtain ⟨cs, hcs, rfl⟩ := hx
      simp at hcs
      subst hcs
      simp [addParses] at hq
    · refine .inr ⟨⟨_, unitParse_outer _ _ _ _ _ _ _ hz q hq, rfl⟩, ?_⟩
      by_contra hlen
      simp only [unitParse, suffixParse, if_pos (show w.length < 4 by omega), Except.ok.injEq] at hz
      rw [← hz] at hq
      cases hq

/-! ### The default analyzers -/

theorem default_parse_ne (m : Morph S) (hm : IsRu m ∨ IsUk m) (hlow : m.env.LowerStable) (w : Str) (ps : List (Parse S)) (h : m.parse w = .ok ps) : ps ≠ [] := by
  rw [(parse_unfold m hlow (default_properPrefixes m hm) w).1] at h
  obtain ⟨res, hres, hperm⟩ := parseStep_core m _ w ps h
  have key : ∀ (items : List (List (UnitSpec S))) (gs : List (List (BUnit S))) n, IsGroups (boundGroups items 0) m.units →
      boundGroups items 0 = gs ++ [[⟨n, .unkn ⟨c!"UNKN"⟩⟩]] → ps ≠ [] := by
    intro items gs n hg he
    rw [runParse_eq_firstGroup m _ w _ _ _ hg, he] at hres
    have := firstGroup_last _ _ _ _ _ (unkn_run m _ w (m.env.lower w) n _).1 res hres
    intro e
    subst e
    have := hperm.length_eq
    simp at this
    exact ‹res ≠ []› (List.length_eq_zero_iff.1 this.symm)
  rcases hm with ⟨cls, hm⟩ | ⟨cls, hm⟩
  · exact key ruUnits (boundGroups ruUnits 0).dropLast 13 (mkMorph_units hm).2.2.2.2 rfl
  · exact key ukUnits (boundGroups ukUnits 0).dropLast 12 (mkMorph_units hm).2.2.2.2 rfl

theorem cyr_capital (c : Char) (h1 : 'А' ≤ c) (h2 : c ≤ 'Я') : ∃ k < 32, c = Char.ofNat (1040 + k) := by
  have a : 1040 ≤ c.toNat := h1
  have b : c.toNat ≤ 1071 := h2
  exact ⟨c.toNat - 1040, by omega, by rw [show 1040 + (c.toNat - 1040) = c.toNat by omega, Char.ofNat_toNat]⟩

theorem ruInitial_iff (x : Str) : ruData.initial x ↔ x ∈ ruInitialLetters := by
  show RuInitial x ↔ _
  constructor
  · rintro ⟨c, rfl, rfl | ⟨h1, h2, h3⟩⟩
    · decide
    · obtain ⟨k, hk, rfl⟩ := cyr_capital c h1 h2
      have : ∀ k < 32, (Char.ofNat (1040 + k) ≠ 'Ъ' ∧ Char.ofNat (1040 + k) ≠ 'Ы' ∧ Char.ofNat (1040 + k) ≠ 'Ь') → [Char.ofNat (1040 + k)] ∈ ruInitialLetters := by
        decide
      exact this k hk h3
  · intro h
    have : ∀ x ∈ ruInitialLetters, ∃ c ∈ x, x = [c] ∧ (c = 'Ё' ∨ ('А' ≤ c ∧ c ≤ 'Я' ∧ c ≠ 'Ъ' ∧ c ≠ 'Ы' ∧ c ≠ 'Ь')) := by decide
    obtain ⟨c, _, h1, h2⟩ := this x h
    exact ⟨c, h1, h2⟩

theorem ukInitial_iff (x : Str) : ukData.initial x ↔ x ∈ ukInitialLetters := by
  show UkInitial x ↔ _
  constructor
  · rintro ⟨c, rfl, rfl | rfl | rfl | rfl | ⟨h1, h2, h3⟩⟩
    · decide
    · decide
    · decide
    · decide
    · obtain ⟨k, hk, rfl⟩ := cyr_capital c h1 h2
      have : ∀ k < 32, (Char.ofNat (1040 + k) ≠ 'И' ∧ Char.ofNat (1040 + k) ≠ 'Ъ' ∧ Char.ofNat (1040 + k) ≠ 'Ы' ∧ Char.ofNat (1040 + k) ≠ 'Ь' ∧
          Char.ofNat (1040 + k) ≠ 'Э') → [Char.ofNat (1040 + k)] ∈ ukInitialLetters := by
        decide
      exact this k hk h3
  · intro h
    have : ∀ x ∈ ukInitialLetters, ∃ c ∈ x, x = [c] ∧ (c = 'Ґ' ∨ c = 'Є' ∨ c = 'І' ∨ c = 'Ї' ∨
        ('А' ≤ c ∧ c ≤ 'Я' ∧ c ≠ 'И' ∧ c ≠ 'Ъ' ∧ c ≠ 'Ы' ∧ c ≠ 'Ь' ∧ c ≠ 'Э')) := by decide
    obtain ⟨c, _, h1, h2⟩ := this x h
    exact ⟨c, h1, h2⟩

/-- The assembly common to both languages. -/
theorem rules_answer (m : Morph S) (D : RuleData) (rules : List Rule) (rec : Rec S) (w : Str) (gs tail : List (List (BUnit S)))
    (hg : IsGroups (gs ++ tail) m.units) (hi : List.Forall₂ (Implements m D w fun g => groupParse m rec w (m.env.lower w) g []) gs rules)
    (ht : ∀ r, firstGroup (fun g => groupParse m rec w (m.env.lower w) g []) tail = .ok r → Rule.guess.answers m D w r)
    (ps : List (Parse S)) (h : parseStep m rec w = .ok ps) (before : List Rule) (ρ : Rule) (after : List Rule)
    (hsplit : rules ++ [.guess] = before ++ ρ :: after) (hb : ∀ σ ∈ before, ¬ σ.applies m D w) (ha : ρ.applies m D w) : ρ.answers m D w ps := by
  obtain ⟨res, hres, hperm⟩ := parseStep_core m _ w ps h
  rw [runParse_eq_firstGroup m _ w _ _ _ hg] at hres
  obtain ⟨h1, h2⟩ := first_rule hi tail res hres
  refine answers_core m D w ps res hperm ρ ?_
  rcases List.eq_nil_or_concat after with rfl | ⟨as, a, rfl⟩
  · have := List.append_inj' hsplit rfl
    simp only [List.cons.injEq, and_true] at this
    rw [← this.2]
    exact ht res (h2 fun σ hσ => hb σ (this.1 ▸ hσ))
  · rw [List.concat_eq_append, ← List.cons_append, ← List.append_assoc] at hsplit
    have := List.append_inj' hsplit rfl
    exact h1 before ρ as this.1 hb ha

/-- **C71**, Russian: of the nine rules, tried in order, the first one that applies to the word makes the whole answer. -/
theorem c71_ru (m : Morph S) (hm : IsRu m) (hlow : m.env.LowerStable) (w : Str) (ps : List (Parse S)) (h : m.parse w = .ok ps)
    (before : List Rule) (ρ : Rule) (after : List Rule) (hsplit : ruRules = before ++ ρ :: after)
    (hb : ∀ σ ∈ before, ¬ σ.applies m ruData w) (ha : ρ.applies m ruData w) : ps ≠ [] ∧ ρ.answers m ruData w ps := by
  refine ⟨default_parse_ne m (.inl hm) hlow w ps h, ?_⟩
  rw [(parse_unfold m hlow (default_properPrefixes m (.inl hm)) w).1] at h
  have hne := default_parse_ne m (.inl hm) hlow
  obtain ⟨cls, hm⟩ := hm
  refine rules_answer m ruData [.word, .number, .punct, .foreign, .particle, .adverb, .compound, .prefixed] _ w
    [[⟨0, .dictionary⟩, ⟨1, (UnitSpec.firstName ruInitialLetters firstNamePattern (dec 1 10)).bound⟩,
      ⟨2, (UnitSpec.patronymic ruInitialLetters patronymicPattern (dec 1 10)).bound⟩],
     [⟨3, (UnitSpec.number (dec 9 10)).bound⟩], [⟨4, (UnitSpec.punct (dec 9 10)).bound⟩],
     [⟨5, (UnitSpec.roman (dec 9 10)).bound⟩, ⟨6, (UnitSpec.latin (dec 9 10)).bound⟩],
     [⟨7, .particle ruData.particles (dec 9 10)⟩], [⟨8, (UnitSpec.adverb (dec 7 10)).bound⟩],
     [⟨9, .hyphenated ruData.prefixes (dec 75 100)⟩], [⟨10, .knownPrefix ruData.prefixes (dec 75 100) 3⟩]]
    [[⟨11, .unknownPrefix (dec 5 10)⟩, ⟨12, .knownSuffix (dec 5 10) 4⟩], [⟨13, .unkn ⟨c!"UNKN"⟩⟩]] (mkMorph_units hm).2.2.2.2 ?_
    (fun r hr => guess_tail m ruData _ w _ _ _ _ _ r hr) ps h before ρ after hsplit hb ha
  refine .cons (group_word m ruData _ ruInitial_iff _ w _ _ _ _ _ _ _) (.cons (group_number m _ _ w _ _) (.cons (group_punct m _ _ w _ _)
    (.cons (group_foreign m _ _ w _ _ _ _) (.cons (group_particle m _ (by decide) hne w _ _) (.cons (group_adverb m _ w _ _)
    (.cons (group_compound m _ w _ _) (.cons (group_prefixed m _ w _ _) .nil)))))))

/-- **C71**, Ukrainian. -/
theorem c71_uk (m : Morph S) (hm : IsUk m) (hlow : m.env.LowerStable) (w : Str) (ps : List (Parse S)) (h : m.parse w = .ok ps)
    (before : List Rule) (ρ : Rule) (after : List Rule) (hsplit : ukRules = before ++ ρ :: after)
    (hb : ∀ σ ∈ before, ¬ σ.applies m ukData w) (ha : ρ.applies m ukData w) : ps ≠ [] ∧ ρ.answers m ukData w ps := by
  refine ⟨default_parse_ne m (.inr hm) hlow w ps h, ?_⟩
  rw [(parse_unfold m hlow (default_properPrefixes m (.inr hm)) w).1] at h
  have hne := default_parse_ne m (.inr hm) hlow
  obtain ⟨cls, hm⟩ := hm
  refine rules_answer m ukData [.wordOrForeign, .number, .punct, .particle, .compound, .prefixed] _ w
    [[⟨0, .dictionary⟩, ⟨1, (UnitSpec.firstName ukInitialLetters firstNamePattern (dec 1 10)).bound⟩,
      ⟨2, (UnitSpec.patronymic ukInitialLetters patronymicPattern (dec 1 10)).bound⟩,
      ⟨3, (UnitSpec.roman (dec 9 10)).bound⟩, ⟨4, (UnitSpec.latin (dec 9 10)).bound⟩],
     [⟨5, (UnitSpec.number (dec 9 10)).bound⟩], [⟨6, (UnitSpec.punct (dec 9 10)).bound⟩],
     [⟨7, .particle ukData.particles (dec 9 10)⟩],
     [⟨8, .hyphenated ukData.prefixes (dec 75 100)⟩], [⟨9, .knownPrefix ukData.prefixes (dec 75 100) 3⟩]]
    [[⟨10, .unknownPrefix (dec 5 10)⟩, ⟨11, .knownSuffix (dec 5 10) 4⟩], [⟨12, .unkn ⟨c!"UNKN"⟩⟩]] (mkMorph_units hm).2.2.2.2 ?_
    (fun r hr => guess_tail m ukData _ w _ _ _ _ _ r hr) ps h before ρ after hsplit hb ha
  refine .cons (group_wordOrForeign m ukData _ ukInitial_iff _ w _ _ _ _ _ _ _ _ _ _ _) (.cons (group_number m _ _ w _ _) (.cons (group_punct m _ _ w _ _)
    (.cons (group_particle m _ (by decide) hne w _ _)
    (.cons (group_compound m _ w _ _) (.cons (group_prefixed m _ w _ _) .nil)))))

/-! Non-vacuity: the demo analyzer satisfies the hypotheses, and the particle rule, the prefix rule and the last rule are each the first that applies
to a word. -/

theorem ok_of_any {α : Type} (x : Except PyErr α) (f : α → Bool) (h : x.toOption.any f = true) : ∃ a, x = .ok a ∧ f a = true := by
  cases x with
  | error e => simp [Except.toOption] at h
  | ok a => exact ⟨a, rfl, by simpa [Except.toOption] using h⟩

theorem demo_not_word (w : Str) (h1 : Demo.morph.wordIsKnown w = false) (h2 : w ∉ ruInitialLetters) : ¬ Rule.word.applies Demo.morph ruData w := by
  rintro (h | h)
  · rw [h1] at h; simp at h
  · exact h2 ((ruInitial_iff w).1 h)

theorem demo_no_hyphen (w : Str) (h : '-' ∉ Demo.morph.env.lower w) :
    ¬ Rule.particle.applies Demo.morph ruData w ∧ ¬ Rule.adverb.applies Demo.morph ruData w ∧ ¬ Rule.compound.applies Demo.morph ruData w := by
  refine ⟨?_, ?_, ?_⟩
  · rintro ⟨rest, part, hp, _, he⟩
    have : ∀ p ∈ ruData.particles, '-' ∈ p := by decide
    exact h (by rw [he]; simp [this part hp])
  · rintro ⟨rest, he, _⟩
    exact h (by rw [he]; simp)
  · rintro ⟨a, b, he, _⟩
    exact h (by rw [he]; simp)

example : ∃ ps, Demo.morph.parse (c!"ёж-то") = .ok ps ∧ Rule.particle.answers Demo.morph ruData (c!"ёж-то") ps := by
  obtain ⟨ps, hps, -⟩ := ok_of_any (Demo.morph.parse (c!"ёж-то")) (fun _ => true) (by decide +kernel)
  refine ⟨ps, hps, (c71_ru Demo.morph Demo.morph_isRu demoEnv_lowerStable _ ps hps [.word, .number, .punct, .foreign] .particle
    [.adverb, .compound, .prefixed, .guess] rfl ?_ ⟨c!"ёж", c!"-то", by decide, by decide, by decide⟩).2⟩
  intro σ hσ
  simp only [List.mem_cons, List.not_mem_nil, or_false] at hσ
  rcases hσ with rfl | rfl | rfl | rfl
  · exact demo_not_word _ (by decide +kernel) (by decide)
  · unfold Rule.applies SaysFloat; decide +kernel
  · unfold Rule.applies; decide +kernel
  · unfold Rule.applies; decide +kernel

example : ∃ ps, Demo.morph.parse (c!"сверхежи") = .ok ps ∧ Rule.prefixed.answers Demo.morph ruData (c!"сверхежи") ps := by
  obtain ⟨ps, hps, -⟩ := ok_of_any (Demo.morph.parse (c!"сверхежи")) (fun _ => true) (by decide +kernel)
  obtain ⟨n1, n2, n3⟩ := demo_no_hyphen (c!"сверхежи") (by decide +kernel)
  refine ⟨ps, hps, (c71_ru Demo.morph Demo.morph_isRu demoEnv_lowerStable _ ps hps [.word, .number, .punct, .foreign, .particle, .adverb, .compound] .prefixed
    [.guess] rfl ?_ ?_).2⟩
  · intro σ hσ
    simp only [List.mem_cons, List.not_mem_nil, or_false] at hσ
    rcases hσ with rfl | rfl | rfl | rfl | rfl | rfl | rfl
    · exact demo_not_word _ (by decide +kernel) (by decide)
    · unfold Rule.applies SaysFloat; decide +kernel
    · unfold Rule.applies; decide +kernel
    · unfold Rule.applies; decide +kernel
    · exact n1
    · exact n2
    · exact n3
  · refine ⟨c!"сверх", by decide +kernel, c!"ежи", by decide +kernel, by decide, ?_⟩
    obtain ⟨qs, hqs, h⟩ := ok_of_any (Demo.morph.parse (c!"ежи")) (fun qs => qs.any fun q => q.tag.isProductive) (by decide +kernel)
    exact ⟨qs, hqs, by simpa using h⟩

example : ∃ ps, Demo.morph.parse (c!"ыыы") = .ok ps ∧ Rule.guess.answers Demo.morph ruData (c!"ыыы") ps := by
  obtain ⟨ps, hps, -⟩ := ok_of_any (Demo.morph.parse (c!"ыыы")) (fun _ => true) (by decide +kernel)
  obtain ⟨n1, n2, n3⟩ := demo_no_hyphen (c!"ыыы") (by decide +kernel)
  refine ⟨ps, hps, (c71_ru Demo.morph Demo.morph_isRu demoEnv_lowerStable _ ps hps
    [.word, .number, .punct, .foreign, .particle, .adverb, .compound, .prefixed] .guess [] rfl ?_ trivial).2⟩
  intro σ hσ
  simp only [List.mem_cons, List.not_mem_nil, or_false] at hσ
  rcases hσ with rfl | rfl | rfl | rfl | rfl | rfl | rfl | rfl
  · exact demo_not_word _ (by decide +kernel) (by decide)
  · unfold Rule.applies SaysFloat; decide +kernel
  · unfold Rule.applies; decide +kernel
  · unfold Rule.applies; decide +kernel
  · exact n1
  · exact n2
  · exact n3
  · rintro ⟨pre, hp, rest, he, _⟩
    have : ∀ p ∈ ruData.prefixes, startsWith (Demo.morph.env.lower (c!"ыыы")) p = false := by decide +kernel
    have h2 := this pre hp
    rw [(startsWith_iff _ _).2 ⟨rest, he.symm⟩] at h2
    simp at h2

end Verif
