/-
Binding the units yields the groups described by `boundGroups`.
-/
import Verif.Lemmas.Groups
import Mathlib.Data.List.Basic

set_option linter.unusedSectionVars false

namespace Verif

variable {S : Type}

theorem mkTag_ok {c : TagCls} {s : Str} {t : Tag} (h : c.mkTag s = .ok t) : t = ⟨s⟩ := by
  simp only [TagCls.mkTag, bind_ok_iff, pure_eq_ok, Except.ok.injEq] at h
  obtain ⟨_, _, rfl⟩ := h; rfl

theorem mapE_eq_map {α β : Type} {f : α → Except PyErr β} {g : α → β} {l : List α} {r : List β}
    (h : mapE f l = .ok r) (hg : ∀ a b, f a = .ok b → b = g a) : r = l.map g := by
  have := (mapE_ok_iff f l r).1 h
  induction this with
  | nil => rfl
  | cons h1 _ ih => rw [List.map_cons, ← hg _ _ h1, ih ((mapE_ok_iff _ _ _).2 ‹_›)]

theorem genderCaseTags_ok {c : TagCls} {p : Str → Str → Str} {ts : List Tag} (h : genderCaseTags c p = .ok ts) :
    ts = GENDERS2.flatMap fun g => CASES6.map fun c => Tag.mk (p g c) := by
  have := mapE_eq_map h (g := Tag.mk) fun a b h => mkTag_ok h
  rw [this, List.map_flatMap]
  simp [List.map_map, Function.comp_def]

theorem contains_ok {c : TagCls} {t : Tag} {g : Str} {b : Bool} (h : c.contains t g = .ok b) :
    b = decide (g ∈ t.grammemes) := by
  unfold TagCls.contains at h
  split at h
  · next hm => simp at h; simp [hm, ← h]
  · next hm =>
    rw [bind_ok_iff] at h
    obtain ⟨k, _, h⟩ := h
    cases k <;> simp at h
    simp [hm, ← h]

theorem filterE_ok {α : Type} {f : α → Except PyErr Bool} {g : α → Bool} {l r : List α}
    (h : filterE f l = .ok r) (hg : ∀ a b, f a = .ok b → b = g a) : r = l.filter g := by
  induction l generalizing r with
  | nil => simp [filterE] at h; simp [h]
  | cons a l ih =>
    simp only [filterE, bind_ok_iff, pure_eq_ok, Except.ok.injEq] at h
    obtain ⟨b, hb, r', hr', rfl⟩ := h
    rw [List.filter_cons, ← hg a b hb, ih hr']

theorem bind_bound {sp : UnitSpec S} {id : Nat} {cls : TagCls} {r : TagCls × BUnit S}
    (h : sp.bind id cls = .ok r) : r.2 = ⟨id, sp.bound⟩ := by
  cases sp <;> simp only [UnitSpec.bind, UnitSpec.bound, bind_ok_iff, pure_eq_ok, Except.ok.injEq] at h ⊢
  case firstName letters p score =>
    obtain ⟨ts, hts, masc, hm, femn, hf, h⟩ := h
    split at h
    · simp only [Except.ok.injEq] at h
      subst h
      have e := genderCaseTags_ok hts
      have e1 := filterE_ok hm (fun a b h => contains_ok h)
      have e2 := filterE_ok hf (fun a b h => contains_ok h)
      rw [e1, e2, e]
    · simp at h
  case patronymic letters p score =>
    obtain ⟨ts, hts, rfl⟩ := h
    rw [genderCaseTags_ok hts]
  case number =>
    obtain ⟨t1, h1, t2, h2, rfl⟩ := h
    rw [mkTag_ok h1, mkTag_ok h2]
  case punct | latin | roman | adverb | unkn =>
    obtain ⟨t1, h1, rfl⟩ := h
    rw [mkTag_ok h1]
  all_goals subst h; rfl

theorem bindUnits_bound {sps : List (UnitSpec S × Bool)} {id : Nat} {cls : TagCls}
    {r : TagCls × List (BUnit S × Bool)} (h : bindUnits sps id cls = .ok r) :
    r.2 = sps.mapIdx fun i sp => (⟨id + i, sp.1.bound⟩, sp.2) := by
  induction sps generalizing id cls r with
  | nil => simp [bindUnits] at h; subst h; rfl
  | cons s sps ih =>
    obtain ⟨sp, t⟩ := s
    simp only [bindUnits, bind_ok_iff, pure_eq_ok, Except.ok.injEq] at h
    obtain ⟨r1, h1, r2, h2, rfl⟩ := h
    rw [List.mapIdx_cons, ih h2, bind_bound h1]
    simp [Nat.add_assoc, Nat.add_comm 1]

theorem flattenItem_ok {g : List (UnitSpec S)} {r : List (UnitSpec S × Bool)} (h : flattenItem g = .ok r) :
    g ≠ [] ∧ r = g.mapIdx fun i sp => (sp, decide (i + 1 = g.length)) := by
  unfold flattenItem at h
  split at h
  · simp at h
  · next last hl =>
    simp at h; subst h
    have hne : g ≠ [] := by rintro rfl; simp at hl
    refine ⟨hne, ?_⟩
    have hg : g = g.dropLast ++ [last] := by
      rw [List.getLast?_eq_some_getLast hne] at hl
      simp at hl; subst hl
      exact (List.dropLast_append_getLast hne).symm
    generalize g.dropLast = l at hg
    subst hg
    rw [List.mapIdx_append]
    congr 1
    · apply List.ext_getElem
      · simp
      · intro i h1 h2
        simp at h1 ⊢; omega
    · simp

theorem isGroups_of_initUnits {items : List (List (UnitSpec S))} {cls : TagCls} {r : TagCls × List (BUnit S × Bool)}
    (h : initUnits items cls = .ok r) : IsGroups (boundGroups items 0) r.2 := by
  simp only [initUnits, bind_ok_iff] at h
  obtain ⟨flat, hflat, h⟩ := h
  have h1 := bindUnits_bound h
  rw [h1]
  clear h h1
  have hf := (mapE_ok_iff _ _ _).1 hflat
  clear hflat
  generalize 0 = n
  unfold IsGroups
  induction hf generalizing n with
  | nil => simp [boundGroups]
  | cons h1 _ ih =>
    obtain ⟨hne, rfl⟩ := flattenItem_ok h1
    rename_i g gs bs hx
    obtain ⟨i1, i2⟩ := ih (n + g.length)
    constructor
    · intro g' hg'
      simp only [boundGroups, List.mem_cons] at hg'
      rcases hg' with rfl | hg'
      · intro e
        have := congrArg List.length e
        simp at this; exact hne this
      · exact i1 g' hg'
    · rw [List.flatten_cons, List.mapIdx_append, boundGroups, List.flatMap_cons]
      congr 1
      · apply List.ext_getElem <;> simp
      · rw [← i2]; simp [Nat.add_comm, Nat.add_left_comm]

theorem mkMorph_units [Score S] {env : Env} {dict : Dict} {cls : TagCls} {sub : Subst}
    {items : List (List (UnitSpec S))} {est : Option (List (Str × Nat))} {m : Morph S}
    (h : mkMorph env dict cls sub items est = .ok m) :
    m.env = env ∧ m.dict = dict ∧ m.sub = sub ∧ m.est = est ∧ IsGroups (boundGroups items 0) m.units := by
  simp only [mkMorph, bind_ok_iff, pure_eq_ok, Except.ok.injEq] at h
  obtain ⟨r, hr, rfl⟩ := h
  exact ⟨rfl, rfl, rfl, rfl, isGroups_of_initUnits hr⟩

theorem mem_of_isGroups {groups : List (List (BUnit S))} {units : List (BUnit S × Bool)} (h : IsGroups groups units)
    (u : BUnit S) : (∃ t, (u, t) ∈ units) ↔ ∃ g ∈ groups, u ∈ g := by
  obtain ⟨_, rfl⟩ := h
  simp only [List.mem_flatMap, List.mem_mapIdx, Prod.mk.injEq]
  constructor
  · rintro ⟨t, g, hg, i, hi, rfl, _⟩
    exact ⟨g, hg, by simp⟩
  · rintro ⟨g, hg, hu⟩
    obtain ⟨i, hi, rfl⟩ := List.mem_iff_getElem.1 hu
    exact ⟨_, g, hg, i, hi, rfl, rfl⟩

end Verif
