/-
Facts that hold for an analyzer constructed with any `units` argument.
-/
import Verif.Lemmas.LexTotal
import Verif.Props.C21
import Verif.Spec.Custom

set_option linter.unusedSectionVars false

namespace Verif

variable {S : Type} [Score S]

/-- Where the units of an analyzer come from. -/
theorem bindUnits_from {sps : List (UnitSpec S × Bool)} {id : Nat} {cls : TagCls} {r : TagCls × List (BUnit S × Bool)}
    (h : bindUnits sps id cls = .ok r) : ∀ u ∈ r.2, ∃ sp ∈ sps, ∃ i c r', sp.1.bind i c = .ok r' ∧ r'.2 = u.1 ∧ r'.1.known ⊆ r.1.known := by
  induction sps generalizing id cls r with
  | nil => simp [bindUnits] at h; subst h; simp
  | cons sp sps ih =>
    simp only [bindUnits, bind_ok_iff, pure_eq_ok, Except.ok.injEq] at h
    obtain ⟨r1, h1, r2, h2, rfl⟩ := h
    intro u hu
    rcases List.mem_cons.1 hu with rfl | hu
    · have hk := bindUnits_known h2
      exact ⟨sp, List.mem_cons_self .., id, cls, r1, h1, rfl, hk⟩
    · obtain ⟨sp', h3, i, c, r', h4, h5, h6⟩ := ih h2 u hu
      exact ⟨sp', List.mem_cons_of_mem _ h3, i, c, r', h4, h5, h6⟩

theorem configured_units {m : Morph S} {items : List (List (UnitSpec S))} (h : m.Configured items) :
    ∀ u ∈ m.units, ∃ g ∈ items, ∃ sp ∈ g, ∃ i c r, sp.bind i c = .ok r ∧ r.2 = u.1 ∧ r.1.known ⊆ m.cls.known := by
  obtain ⟨cls, h⟩ := h
  simp only [mkMorph, initUnits, bind_ok_iff, pure_eq_ok, Except.ok.injEq] at h
  obtain ⟨r, ⟨flat, hflat, hr⟩, hmm⟩ := h
  have e1 : m.cls = r.1 := by rw [← hmm]
  have e2 : m.units = r.2 := by rw [← hmm]
  rw [e1, e2]
  intro u hu
  obtain ⟨sp, hsp, i, c, r', h4, h5, h6⟩ := bindUnits_from hr u hu
  obtain ⟨l, hl, hsp⟩ := List.mem_flatten.1 hsp
  obtain ⟨g, hg, hgl⟩ := mapE_mem hflat hl
  have := (flattenItem_ok hgl).2
  subst this
  obtain ⟨j, hj, e⟩ := List.mem_mapIdx.1 hsp
  exact ⟨g, hg, sp.1, by rw [← e]; simp, i, c, r', h4, h5, h6⟩

theorem configured_cfg {m : Morph S} {items : List (List (UnitSpec S))} (h : m.Configured items) (u : BUnit S × Bool) (hu : u ∈ m.units) :
    ∃ g ∈ items, ∃ sp ∈ g, u.1.cfg = sp.bound := by
  obtain ⟨g, hg, sp, hsp, i, c, r, h1, h2, _⟩ := configured_units h u hu
  exact ⟨g, hg, sp, hsp, by rw [← h2, bind_bound h1]⟩

theorem filterE_each {α : Type} {f : α → Except PyErr Bool} {l r : List α} (h : filterE f l = .ok r) : ∀ a ∈ l, ∃ b, f a = .ok b := by
  induction l generalizing r with
  | nil => simp
  | cons a l ih =>
    simp only [filterE, bind_ok_iff, pure_eq_ok, Except.ok.injEq] at h
    obtain ⟨b, hb, r', hr', _⟩ := h
    intro x hx
    rcases List.mem_cons.1 hx with rfl | hx
    · exact ⟨b, hb⟩
    · exact ih hr' x hx

/-- No tag can be both masculine and feminine when the two lists make up the whole list. -/
theorem apart_of_eq (tags : List Tag) (p q : Tag → Bool) (hp : ∀ a b : Tag, a.tuple = b.tuple → p a = p b)
    (hq : ∀ a b : Tag, a.tuple = b.tuple → q a = q b)
    (h : (tags.filter p ++ tags.filter q).map Tag.tuple = tags.map Tag.tuple) : ∀ t ∈ tags, p t = true → q t = false := by
  intro t ht hpt
  by_contra hqt
  have hqt : q t = true := by simpa using hqt
  have key : ∀ (f : Tag → Bool), (∀ a b : Tag, a.tuple = b.tuple → f a = f b) → f t = true →
      ((tags.filter f).map Tag.tuple).count t.tuple = (tags.map Tag.tuple).count t.tuple := by
    intro f hf hft
    clear h ht
    induction tags with
    | nil => rfl
    | cons a l ih =>
      by_cases e : a.tuple = t.tuple
      · have : f a = true := by rw [hf a t e]; exact hft
        simp [this, e, ih]
      · by_cases fa : f a = true
        · simp [fa, e, ih]
        · simp [fa, e, ih]
  have hc := congrArg (List.count t.tuple) h
  rw [List.map_append, List.count_append, key p hp hpt, key q hq hqt] at hc
  have : 0 < (tags.map Tag.tuple).count t.tuple := List.count_pos_iff.2 (List.mem_map_of_mem ht)
  omega

theorem grammemes_of_tuple {a b : Tag} (h : a.tuple = b.tuple) : a.grammemes = b.grammemes := by
  unfold Tag.grammemes; rw [h]

/-- What the constructor's own assertion guarantees for first names, whatever the tag pattern. -/
theorem firstName_facts {letters : List Str} {pattern : Str → Str → Str} {score : S} {id : Nat} {cls : TagCls} {r : TagCls × BUnit S}
    (h : (UnitSpec.firstName letters pattern score).bind id cls = .ok r) : ∃ masc femn, r.2.cfg = .firstName letters masc femn score ∧
      (∀ t ∈ masc, c!"masc" ∈ t.grammemes) ∧ (∀ t ∈ femn, c!"masc" ∉ t.grammemes) ∧
      ∀ t ∈ masc ++ femn, c!"masc" ∈ t.grammemes ∨ c!"masc" ∈ r.1.known := by
  simp only [UnitSpec.bind, bind_ok_iff, pure_eq_ok] at h
  obtain ⟨tags, h1, masc, h2, femn, h3, h⟩ := h
  split at h
  · next he =>
    simp only [Except.ok.injEq] at h
    subst h
    have e1 := filterE_ok h2 (fun a b h => contains_ok h)
    have e2 := filterE_ok h3 (fun a b h => contains_ok h)
    have each := filterE_each h2
    refine ⟨masc, femn, rfl, ?_, ?_, ?_⟩
    · intro t ht
      rw [e1] at ht
      simpa using (List.mem_filter.1 ht).2
    · intro t ht hm
      rw [e2] at ht
      obtain ⟨ht, hf⟩ := List.mem_filter.1 ht
      have he' : (masc ++ femn).map Tag.tuple = tags.map Tag.tuple := by simpa [tagsEq] using he
      rw [e1, e2] at he'
      have := apart_of_eq tags _ _ (fun a b h => by simp [grammemes_of_tuple h]) (fun a b h => by simp [grammemes_of_tuple h]) he' t ht (by simpa using hm)
      rw [this] at hf
      simp at hf
    · intro t ht
      have ht : t ∈ tags := by
        rcases List.mem_append.1 ht with h | h
        · rw [e1] at h; exact (List.mem_filter.1 h).1
        · rw [e2] at h; exact (List.mem_filter.1 h).1
      obtain ⟨b, hb⟩ := each t ht
      unfold TagCls.contains at hb
      split at hb
      · left; assumption
      · right
        simp only [TagCls.isKnown, bind_ok_iff, pure_eq_ok, Except.ok.injEq] at hb
        obtain ⟨k, ⟨_, _, rfl⟩, hb⟩ := hb
        split at hb
        · next hk => simpa using hk
        · simp at hb
  · simp at h

theorem configured_firstName {m : Morph S} {items : List (List (UnitSpec S))} (h : m.Configured items) (u : BUnit S × Bool) (hu : u ∈ m.units)
    (letters : List Str) (masc femn : List Tag) (score : S) (hk : u.1.cfg = .firstName letters masc femn score) :
    (∀ t ∈ masc, c!"masc" ∈ t.grammemes) ∧ (∀ t ∈ femn, c!"masc" ∉ t.grammemes) ∧
    ∀ t ∈ masc ++ femn, c!"masc" ∈ t.grammemes ∨ c!"masc" ∈ m.cls.known := by
  obtain ⟨g, hg, sp, hsp, i, c, r, h1, h2, h3⟩ := configured_units h u hu
  have hb := bind_bound h1
  rw [h2] at hb
  have hb : u.1.cfg = sp.bound := by rw [hb]
  rw [hk] at hb
  cases sp with
  | firstName l p s =>
    obtain ⟨masc', femn', e, a1, a2, a3⟩ := firstName_facts h1
    rw [h2, hk] at e
    simp only [UnitCfg.firstName.injEq] at e
    obtain ⟨_, rfl, rfl, _⟩ := e
    exact ⟨a1, a2, fun t ht => (a3 t ht).imp_right fun h => h3 h⟩
  | _ => simp [UnitSpec.bound] at hb

theorem configured_gendersApart {m : Morph S} {items : List (List (UnitSpec S))} (h : m.Configured items) : m.GendersApart :=
  fun u hu letters masc femn score hk =>
    ⟨(configured_firstName h u hu letters masc femn score hk).1, (configured_firstName h u hu letters masc femn score hk).2.1⟩

theorem configured_gendersKnown {m : Morph S} {items : List (List (UnitSpec S))} (h : m.Configured items) : m.GendersKnown :=
  fun u hu letters masc femn score hk => (configured_firstName h u hu letters masc femn score hk).2.2

theorem configured_upperInitials {m : Morph S} {items : List (List (UnitSpec S))} (h : m.Configured items)
    (hc : ∀ g ∈ items, ∀ sp ∈ g, ∀ l ∈ sp.initials, m.env.lower l ≠ l) : m.UpperInitials := by
  intro u hu l hl
  obtain ⟨g, hg, sp, hsp, e⟩ := configured_cfg h u hu
  refine hc g hg sp hsp l ?_
  rcases hl with ⟨masc, femn, score, letters, hk, hl⟩ | ⟨tags, score, letters, hk, hl⟩
  all_goals
    rw [hk] at e
    cases sp <;> simp [UnitSpec.bound] at e
    obtain ⟨rfl, _⟩ := e
    exact hl

theorem configured_properPrefixes {m : Morph S} {items : List (List (UnitSpec S))} (h : m.Configured items)
    (hp : ∀ g ∈ items, ∀ sp ∈ g, ∀ prefixes mult k, sp = .knownPrefix prefixes mult k → [] ∉ prefixes) :
    ∀ u ∈ m.units, u.1.cfg.properPrefixes := by
  intro u hu
  obtain ⟨g, hg, sp, hsp, e⟩ := configured_cfg h u hu
  rw [e]
  cases sp with
  | knownPrefix ps mult k => exact hp g hg _ hsp ps mult k rfl
  | _ => trivial

end Verif
