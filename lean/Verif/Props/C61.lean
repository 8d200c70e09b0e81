/-
C61 — what particle removal and the "по-" adverb rule return.
-/
import Verif.Props.C60
import Verif.Props.C22

set_option linter.unusedSectionVars false

namespace Verif

variable {S : Type} [Score S]

/-- A result obtained by removing the particle `part` (method number `u`). -/
def Parse.byParticle (p : Parse S) (u : UObj) (part : Str) : Prop := ∃ rest, p.stack = .push rest (.simple u part) ∧ u.kind = .particle

/-- `p` is `q` with `part` put after the word and the normal form (scores apart). -/
def Parse.followedBy (p q : Parse S) (u : UObj) (part : Str) : Prop :=
  p.word = q.word ++ part ∧ p.tag = q.tag ∧ p.nf = q.nf ++ part ∧ p.stack = .push q.stack (.simple u part)

/-- `part` is the first particle of the list that ends `w` leaving something, namely `rest`; and `w` has a hyphen. -/
def FirstParticle (particles : List Str) (w rest part : Str) : Prop :=
  '-' ∈ w ∧ rest ≠ [] ∧ w = rest ++ part ∧
    ∃ before after, particles = before ++ part :: after ∧ ∀ x ∈ before, ¬ ∃ r, r ≠ [] ∧ w = r ++ x

theorem dropRight_append_length (a b : Str) (hb : b ≠ []) : dropRight (a ++ b) b.length = a := by
  simp [dropRight, hb]

theorem particleSplit_iff (particles : List Str) (w rest part : Str) (hpos : [] ∉ particles) :
    particleSplit particles w = some (rest, part) ↔ FirstParticle particles w rest part := by
  unfold particleSplit FirstParticle
  by_cases hh : '-' ∈ w
  · rw [if_pos hh]
    simp only [hh, true_and]
    have key : ∀ x, x ≠ [] → ∀ y, (if endsWith w x = true then
        let u := dropRight w x.length
        if u = [] then none else some (u, x) else none) = some y ↔ y.2 = x ∧ y.1 ≠ [] ∧ w = y.1 ++ x := by
      intro x hx y
      by_cases he : endsWith w x = true
      · rw [if_pos he]
        obtain ⟨r, hr⟩ := (endsWith_iff w x).1 he
        subst hr
        simp only [dropRight_append_length _ _ hx]
        obtain ⟨y1, y2⟩ := y
        by_cases hr : r = []
        · subst hr
          simp only [if_true, reduceCtorEq, false_iff]
          rintro ⟨rfl, h1, h2⟩
          simp at h2
          exact h1 h2
        · rw [if_neg hr]
          simp only [Option.some.injEq, Prod.mk.injEq]
          constructor
          · rintro ⟨rfl, rfl⟩; exact ⟨rfl, hr, rfl⟩
          · rintro ⟨rfl, h1, h2⟩; exact ⟨List.append_cancel_right h2, rfl⟩
      · rw [if_neg he]
        simp only [reduceCtorEq, false_iff]
        rintro ⟨_, _, h2⟩
        exact he ((endsWith_iff w x).2 ⟨y.1, h2.symm⟩)
    have keyN : ∀ x, x ≠ [] → ((if endsWith w x = true then
        let u := dropRight w x.length
        if u = [] then none else some (u, x) else none) = none ↔ ¬ ∃ r, r ≠ [] ∧ w = r ++ x) := by
      intro x hx
      rw [Option.eq_none_iff_forall_ne_some]
      constructor
      · rintro h ⟨r, h1, h2⟩
        exact h (r, x) ((key x hx (r, x)).2 ⟨rfl, h1, h2⟩)
      · intro h y hy
        obtain ⟨_, h1, h2⟩ := (key x hx y).1 hy
        exact h ⟨_, h1, h2⟩
    clear hh
    induction particles with
    | nil => simp
    | cons x xs ih =>
      have hx : x ≠ [] := fun e => hpos (by simp [e])
      have ih := ih (fun h => hpos (by simp [h]))
      rw [List.findSome?_cons]
      split
      · next y hy =>
        obtain ⟨h0, h1, h2⟩ := (key x hx y).1 hy
        obtain ⟨y1, y2⟩ := y
        simp only at h0 h1 h2
        subst h0
        simp only [Option.some.injEq, Prod.mk.injEq]
        constructor
        · rintro ⟨rfl, rfl⟩
          exact ⟨h1, h2, [], xs, rfl, by simp⟩
        · rintro ⟨h3, h4, before, after, h5, h6⟩
          cases before with
          | nil =>
            simp only [List.nil_append, List.cons.injEq] at h5
            obtain ⟨rfl, rfl⟩ := h5
            rw [h2] at h4
            exact ⟨List.append_cancel_right h4, rfl⟩
          | cons b bs =>
            simp only [List.cons_append, List.cons.injEq] at h5
            exact absurd ⟨y1, h1, by rw [← h5.1]; exact h2⟩ (h6 b (by simp))
      · next hn =>
        have hn := (keyN x hx).1 hn
        refine ih.trans ?_
        constructor
        · rintro ⟨h1, h2, before, after, h3, h4⟩
          exact ⟨h1, h2, x :: before, after, by rw [h3]; rfl, by simpa using ⟨by simpa using hn, by simpa using h4⟩⟩
        · rintro ⟨h1, h2, before, after, h3, h4⟩
          cases before with
          | nil =>
            simp only [List.nil_append, List.cons.injEq] at h3
            exact absurd ⟨rest, h1, by rw [h3.1]; exact h2⟩ hn
          | cons b bs =>
            simp only [List.cons_append, List.cons.injEq] at h3
            exact ⟨h1, h2, bs, after, h3.2, fun x hx => h4 x (by simp [hx])⟩
  · rw [if_neg hh]
    simp [hh]

/-- C61, particles, for any `units` argument: a result obtained by removing a particle is an answer of `parse` for the word without it, with the
particle put back; only the first particle of the list that ends the word is removed. -/
theorem c61_particle_sound (items : List (List (UnitSpec S))) (hi : ProperPrefixes items)
    (hpart : ∀ g ∈ items, ∀ parts mult, .particle parts mult ∈ g → [] ∉ parts) (m : Morph S) (hlow : m.env.LowerStable) (cls : TagCls)
    (hm : mkMorph m.env m.dict cls m.sub items m.est = .ok m) (w : Str) (ps : List (Parse S))
    (h : m.parse w = .ok ps) (p : Parse S) (hp : p ∈ ps) (u : UObj) (part : Str) (hu : p.byParticle u part) :
    ∃ g ∈ items, ∃ particles mult, .particle particles mult ∈ g ∧ ∃ rest, FirstParticle particles (m.env.lower w) rest part ∧
      ∃ qs, m.parse rest = .ok qs ∧ ∃ q ∈ qs, p.followedBy q u part := by
  rw [(parse_unfold m hlow (properPrefixes_units hi hm) w).1] at h
  obtain ⟨g, hg, v, hv, ho, seen, r, hr, q, hq, he⟩ := result_unit hm _ w ps h p hp
  obtain ⟨hvu, hvk⟩ := outer_of_byPrefix hu ho
  obtain ⟨e1, e2, e3, e4⟩ := (core_eq_iff _ _).1 he
  obtain ⟨stk, hst, -⟩ := hu
  obtain ⟨g', hg', sp, hsp, hcfg⟩ := mem_boundGroups items 0 g hg v hv
  unfold unitParse at hr
  cases sp <;> rw [hcfg] at hvk <;> simp only [UnitSpec.bound, UnitCfg.kind, reduceCtorEq] at hvk hcfg
  rename_i particles mult
  refine ⟨g', hg', particles, mult, hsp, ?_⟩
  rw [hcfg] at hr
  dsimp only at hr
  split at hr
  · simp at hr; subst hr; simp at hq
  · next rest part' hsplit =>
    simp only [bind_ok_iff, pure_eq_ok, Except.ok.injEq] at hr
    obtain ⟨qs, hqs, rfl⟩ := hr
    obtain ⟨q', hq', rfl⟩ := List.mem_map.1 ((addParses_sub _ _).subset hq)
    simp only [particleDeco] at e1 e2 e3 e4
    have hpre : part' = part := by rw [hst] at e4; injection e4 with _ e4; injection e4
    subst hpre
    exact ⟨rest, (particleSplit_iff _ _ _ _ (hpart g' hg' _ _ hsp)).1 hsplit, qs, hqs, q', hq', e1.symm, e2.symm, e3.symm, by rw [← e4, hvu]⟩

/-- C61, particles, completeness: when the answer comes from a group with a particle unit and the word ends with a particle, every answer for the
word without the particle is represented. -/
theorem c61_particle_complete (items : List (List (UnitSpec S))) (hi : ProperPrefixes items) (m : Morph S) (hlow : m.env.LowerStable) (cls : TagCls)
    (hm : mkMorph m.env m.dict cls m.sub items m.est = .ok m) (w : Str) (ps : List (Parse S))
    (h : m.parse w = .ok ps) (g : List (BUnit S)) (hg : g ∈ boundGroups items 0) (q : Parse S) (hq : q ∈ ps) (v : BUnit S) (hv : v ∈ g)
    (ho : q.outer = some v.obj) (u : BUnit S) (hu : u ∈ g) (particles : List Str) (hpart : [] ∉ particles) (mult : S)
    (hc : u.cfg = .particle particles mult) (rest part : Str) (hs : FirstParticle particles (m.env.lower w) rest part) :
    ∃ qs, m.parse rest = .ok qs ∧ ∀ q ∈ qs, ∃ p ∈ ps, p.word = q.word ++ part ∧ p.tag.eqv q.tag = true ∧ p.paradigm? = q.paradigm? := by
  rw [(parse_unfold m hlow (properPrefixes_units hi hm) w).1] at h
  obtain ⟨seen, r, hr, hall⟩ := group_addParses items m cls _ hm w ps h g hg q hq v hv ho u hu
  unfold unitParse at hr
  simp only [hc, (particleSplit_iff _ _ _ _ hpart).2 hs, bind_ok_iff, pure_eq_ok, Except.ok.injEq] at hr
  obtain ⟨qs, hqs, rfl⟩ := hr
  refine ⟨qs, hqs, fun q hq => ?_⟩
  obtain ⟨p, hp, h1, h2, h3⟩ := hall _ rfl _ (List.mem_map.2 ⟨q, hq, rfl⟩)
  refine ⟨p, hp, h1, h2, ?_⟩
  rw [h3]
  unfold Parse.paradigm? particleDeco
  cases hst : q.stack with
  | nil => rfl
  | push r m => rfl

theorem anyE_ok_true {α : Type} (f : α → Except PyErr Bool) (l : List α) (h : anyE f l = .ok true) : ∃ a ∈ l, f a = .ok true := by
  induction l with
  | nil => simp [anyE] at h
  | cons a l ih =>
    rw [anyE, bind_ok_iff] at h
    obtain ⟨b, hb, h⟩ := h
    cases b
    · obtain ⟨x, hx, h'⟩ := ih (by simpa using h)
      exact ⟨x, by simp [hx], h'⟩
    · exact ⟨a, by simp, hb⟩

/-- C61, adverbs, for any `units` argument: the adverb rule answers only for "по-" plus at least two letters, when the rest can be a dative
singular full adjective; it answers with the word itself, unchanged, tagged ADVB. -/
theorem c61_adverb_sound (items : List (List (UnitSpec S))) (hi : ProperPrefixes items) (m : Morph S) (hlow : m.env.LowerStable) (cls : TagCls)
    (hm : mkMorph m.env m.dict cls m.sub items m.est = .ok m) (w : Str) (ps : List (Parse S))
    (h : m.parse w = .ok ps) (p : Parse S) (hp : p ∈ ps) (u : UObj) (ho : p.outer = some u) (hu : u.kind = .adverb) :
    p.word = m.env.lower w ∧ p.nf = m.env.lower w ∧ p.tag.str = c!"ADVB" ∧ p.stack = .single (.simple u w) ∧
    ∃ rest, m.env.lower w = c!"по-" ++ rest ∧ 2 ≤ rest.length ∧
      ∃ ts, m.tag rest = .ok ts ∧ ∃ t ∈ ts, c!"ADJF" ∈ t.tuple ∧ c!"sing" ∈ t.tuple ∧ c!"datv" ∈ t.tuple := by
  rw [(parse_unfold m hlow (properPrefixes_units hi hm) w).1] at h
  obtain ⟨g, hg, v, hv, ho', seen, r, hr, q, hq, he⟩ := result_unit hm _ w ps h p hp
  rw [ho] at ho'
  obtain rfl := Option.some.inj ho'
  have hvk : v.cfg.kind = .adverb := hu
  obtain ⟨e1, e2, e3, e4⟩ := (core_eq_iff _ _).1 he
  obtain ⟨g', hg', sp, hsp, hcfg⟩ := mem_boundGroups items 0 g hg v hv
  unfold unitParse at hr
  cases sp <;> rw [hcfg] at hvk <;> simp only [UnitSpec.bound, UnitCfg.kind, reduceCtorEq] at hvk hcfg
  rename_i mult
  rw [hcfg] at hr
  simp only [bind_ok_iff, pure_eq_ok, Except.ok.injEq] at hr
  obtain ⟨b, hb, rfl⟩ := hr
  cases b
  · simp at hq
  simp only [if_true, List.mem_singleton] at hq
  subst hq
  refine ⟨e1.symm, e3.symm, by rw [← e2], e4.symm, ?_⟩
  unfold adverbShould at hb
  split at hb
  · simp at hb
  · next hn =>
    simp only [not_or, Bool.not_eq_false] at hn
    obtain ⟨rest, hrest⟩ := (startsWith_iff _ _).1 hn.2
    simp only [bind_ok_iff] at hb
    obtain ⟨ts, hts, hb⟩ := hb
    obtain ⟨t, ht, hc⟩ := anyE_ok_true _ _ hb
    have hd : (m.env.lower w).drop 3 = rest := by rw [← hrest]; rfl
    rw [hd] at hts
    refine ⟨rest, hrest.symm, ?_, ts, hts, t, ht, ?_⟩
    · have := congrArg List.length hrest
      simp at this
      omega
    · have := (c22_contains_set m.cls t _).1.1 hc
      exact ⟨this _ (by decide), this _ (by decide), this _ (by decide)⟩

/-- C61, adverbs, in the Russian analyzer: the answer of the adverb rule is the only one. -/
theorem c61_adverb_alone (m : Morph S) (hm : IsRu m) (w : Str) (ps : List (Parse S))
    (h : m.parse w = .ok ps) (p : Parse S) (hp : p ∈ ps) (u : UObj) (ho : p.outer = some u) (hu : u.kind = .adverb) : ps = [p] := by
  obtain ⟨cls, hm⟩ := hm
  obtain ⟨g, hg, v, hv, ho', seen, r, hr, q, hq, he⟩ := result_unit hm _ w ps h p hp
  rw [ho] at ho'
  obtain rfl := Option.some.inj ho'
  have hvk : v.cfg.kind = .adverb := hu
  obtain ⟨res, hres, hperm⟩ := answering_group hm _ w ps h g hg p hp v hv ho
  have hg1 : ∃ id mult, g = [⟨id, .adverb ⟨c!"ADVB"⟩ mult⟩] := by
    simp only [ruUnits, boundGroups, List.mapIdx_cons, List.mapIdx_nil, UnitSpec.bound, List.mem_cons, List.not_mem_nil, or_false] at hg
    rcases hg with rfl | rfl | rfl | rfl | rfl | rfl | rfl | rfl | rfl | rfl <;>
      (simp only [List.mem_cons, List.not_mem_nil, or_false] at hv; try (rcases hv with rfl | rfl | rfl)) <;>
      try (rcases hv with rfl | rfl)
    all_goals first
      | exact ⟨_, _, rfl⟩
      | (simp [UnitCfg.kind] at hvk)
  obtain ⟨id, mult, rfl⟩ := hg1
  simp only [groupParse, unitParse, bind_ok_iff, pure_eq_ok, Except.ok.injEq, exists_eq_left', List.append_nil] at hres
  obtain ⟨r, ⟨b, hb, rfl⟩, rfl⟩ := hres
  have hlen := hperm.length_eq
  cases b
  · simp at hlen; subst hlen; simp at hp
  · simp only [if_true, List.length_map, List.length_cons, List.length_nil] at hlen
    obtain ⟨a, rfl⟩ := List.length_eq_one_iff.1 hlen
    obtain rfl := List.mem_singleton.1 hp
    rfl

/-- The hypotheses of the theorems above hold for the default `units`. -/
theorem c61_default_particles : (∀ g ∈ (ruUnits (S := S)), ∀ parts mult, .particle parts mult ∈ g → [] ∉ parts) ∧
    (∀ g ∈ (ukUnits (S := S)), ∀ parts mult, .particle parts mult ∈ g → [] ∉ parts) ∧
    ProperPrefixes (ruUnits (S := S)) ∧ ProperPrefixes (ukUnits (S := S)) := by
  refine ⟨?_, ?_, ru_properPrefixes, uk_properPrefixes⟩
  · intro g hg ps mult h
    simp only [ruUnits, List.mem_cons, List.not_mem_nil, or_false] at hg
    rcases hg with rfl | rfl | rfl | rfl | rfl | rfl | rfl | rfl | rfl | rfl <;> simp at h
    obtain ⟨rfl, _⟩ := h
    decide +kernel
  · intro g hg ps mult h
    simp only [ukUnits, List.mem_cons, List.not_mem_nil, or_false] at hg
    rcases hg with rfl | rfl | rfl | rfl | rfl | rfl | rfl | rfl <;> simp at h
    obtain ⟨rfl, _⟩ := h
    decide +kernel

/-! Non-vacuity. -/
example : (Demo.morph.parse (c!"кошка-то")).toOption.map (·.map fun p => (p.word, p.nf, p.paradigm?, p.stack.len)) =
    some [(c!"кошка-то", c!"кошка-то", some 0, 2)] := by decide +kernel
example : (Demo.morph.parse (c!"по-белому")).toOption.map (·.map fun p => (p.word, p.tag.str, p.stack.len)) =
    some [(c!"по-белому", c!"ADVB", 1)] := by decide +kernel

end Verif
