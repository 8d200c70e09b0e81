/-
Generic lemmas about `mapE`, look-ups, the unit loop and the probability estimator.
-/
import Verif.Model.Analyzer
import Verif.Spec.Spells

set_option linter.unusedSectionVars false

namespace Verif

/-! ### mapE -/

theorem mapE_ok_iff {α β : Type} (f : α → Except PyErr β) (l : List α) (r : List β) :
    mapE f l = .ok r ↔ List.Forall₂ (fun a b => f a = .ok b) l r := by
  induction l generalizing r with
  | nil =>
    cases r with
    | nil => simp [mapE]
    | cons b r => simp [mapE, List.forall₂_nil_left_iff]
  | cons a l ih =>
    simp only [mapE, bind_ok_iff, List.forall₂_cons_left_iff, pure_eq_ok, Except.ok.injEq]
    constructor
    · rintro ⟨b, hb, bs, hbs, rfl⟩; exact ⟨b, bs, hb, (ih bs).1 hbs, rfl⟩
    · rintro ⟨b, bs, hb, hbs, rfl⟩; exact ⟨b, hb, bs, (ih bs).2 hbs, rfl⟩

theorem forall₂_mem_right {α β : Type} {R : α → β → Prop} {l : List α} {r : List β} (h : List.Forall₂ R l r)
    {b : β} (hb : b ∈ r) : ∃ a ∈ l, R a b := by
  induction h with
  | nil => simp at hb
  | cons h1 _ ih =>
    rcases List.mem_cons.1 hb with rfl | hb
    · exact ⟨_, by simp, h1⟩
    · obtain ⟨a, ha, hr⟩ := ih hb; exact ⟨a, by simp [ha], hr⟩

theorem forall₂_mem_left {α β : Type} {R : α → β → Prop} {l : List α} {r : List β} (h : List.Forall₂ R l r)
    {a : α} (ha : a ∈ l) : ∃ b ∈ r, R a b := by
  induction h with
  | nil => simp at ha
  | cons h1 _ ih =>
    rcases List.mem_cons.1 ha with rfl | ha
    · exact ⟨_, by simp, h1⟩
    · obtain ⟨b, hb, hr⟩ := ih ha; exact ⟨b, by simp [hb], hr⟩

theorem mapE_mem {α β : Type} {f : α → Except PyErr β} {l : List α} {r : List β} (h : mapE f l = .ok r)
    {b : β} (hb : b ∈ r) : ∃ a ∈ l, f a = .ok b := forall₂_mem_right ((mapE_ok_iff f l r).1 h) hb

theorem mapE_mem' {α β : Type} {f : α → Except PyErr β} {l : List α} {r : List β} (h : mapE f l = .ok r)
    {a : α} (ha : a ∈ l) : ∃ b ∈ r, f a = .ok b := forall₂_mem_left ((mapE_ok_iff f l r).1 h) ha

theorem mapE_length {α β : Type} {f : α → Except PyErr β} {l : List α} {r : List β} (h : mapE f l = .ok r) :
    r.length = l.length := ((mapE_ok_iff f l r).1 h).length_eq.symm

/-- A comprehension whose body never raises does not raise. -/
theorem mapE_total {α β : Type} (f : α → Except PyErr β) (l : List α) (h : ∀ a ∈ l, ∃ b, f a = .ok b) :
    ∃ r, mapE f l = .ok r := by
  induction l with
  | nil => exact ⟨[], rfl⟩
  | cons a l ih =>
    obtain ⟨b, hb⟩ := h a (by simp)
    obtain ⟨r, hr⟩ := ih fun a ha => h a (by simp [ha])
    exact ⟨b :: r, by simp [mapE, hb, hr]⟩

theorem mapE_pure {α β : Type} (f : α → β) (l : List α) : mapE (fun a => .ok (f a)) l = .ok (l.map f) := by
  induction l with
  | nil => rfl
  | cons a l ih => simp [mapE, ih]

theorem mapE_congr {α β : Type} (f g : α → Except PyErr β) (l : List α) (h : ∀ a ∈ l, f a = g a) :
    mapE f l = mapE g l := by
  induction l with
  | nil => rfl
  | cons a l ih => simp only [mapE]; rw [h a (by simp), ih fun a ha => h a (by simp [ha])]

/-! ### DAWG look-up -/

theorem Dawg.mem_vals {V : Type} (d : Dawg V) (k : Str) (v : V) : v ∈ d.vals k ↔ (k, v) ∈ d := by
  unfold Dawg.vals
  simp only [List.mem_map, List.mem_filter, decide_eq_true_eq, Prod.exists]
  constructor
  · rintro ⟨a, b, ⟨h, rfl⟩, rfl⟩; exact h
  · intro h; exact ⟨k, v, ⟨h, rfl⟩, rfl⟩

theorem Dawg.has_iff {V : Type} (d : Dawg V) (k : Str) : d.has k = true ↔ ∃ v, (k, v) ∈ d := by
  unfold Dawg.has
  simp only [List.any_eq_true, decide_eq_true_eq, Prod.exists]
  constructor
  · rintro ⟨a, b, h, rfl⟩; exact ⟨b, h⟩
  · rintro ⟨b, h⟩; exact ⟨k, b, h, rfl⟩

theorem Dawg.mem_similarKeys {V : Type} (d : Dawg V) (sub : Subst) (k v : Str) :
    v ∈ d.similarKeys sub k ↔ Spells sub k v ∧ ∃ r, (v, r) ∈ d := by
  unfold Dawg.similarKeys
  rw [List.mem_filter, mem_variants_iff, Dawg.has_iff]

theorem mem_lookup {V : Type} (d : Dawg V) (sub : Subst) (w v : Str) (r : V) :
    (v, r) ∈ lookup d sub w ↔ Spells sub w v ∧ (v, r) ∈ d := by
  unfold lookup Dawg.similarItems
  simp only [List.mem_flatMap, List.mem_map, Prod.mk.injEq]
  constructor
  · rintro ⟨_, ⟨x, hx, rfl⟩, y, hy, rfl, rfl⟩
    exact ⟨((d.mem_similarKeys sub w x).1 hx).1, (d.mem_vals x y).1 hy⟩
  · rintro ⟨h1, h2⟩
    exact ⟨_, ⟨v, (d.mem_similarKeys sub w v).2 ⟨h1, r, h2⟩, rfl⟩, r, (d.mem_vals v r).2 h2, rfl, rfl⟩

/-! ### The unit loop -/

variable {S : Type} [Score S]

/-- Every result comes from some unit of the list. -/
theorem runParse_mem (m : Morph S) (rec : Rec S) (word wl : Str) (us : List (BUnit S × Bool)) (seen : Seen)
    (res out : List (Parse S)) (h : runParse m rec word wl us seen res = .ok out) (p : Parse S) (hp : p ∈ out) :
    p ∈ res ∨ ∃ u ∈ us, ∃ seen' r, unitParse m rec u.1 word wl seen' = .ok r ∧ p ∈ r.1 := by
  induction us generalizing seen res with
  | nil => simp [runParse] at h; subst h; exact .inl hp
  | cons ut us ih =>
    obtain ⟨u, t⟩ := ut
    rw [runParse, bind_ok_iff] at h
    obtain ⟨r, hr, h⟩ := h
    have key : p ∈ res ++ r.1 ∨ (∃ u' ∈ us, ∃ seen' r, unitParse m rec u'.1 word wl seen' = .ok r ∧ p ∈ r.1) := by
      dsimp only at h
      split at h
      · simp at h; subst h; exact .inl hp
      · exact ih _ _ h
    rcases key with h1 | ⟨u', hu', h1⟩
    · rcases List.mem_append.1 h1 with h1 | h1
      · exact .inl h1
      · exact .inr ⟨(u, t), by simp, seen, r, hr, h1⟩
    · exact .inr ⟨u', by simp [hu'], h1⟩

/-- The same for tags. -/
theorem runTag_mem (m : Morph S) (rec : Rec S) (word wl : Str) (us : List (BUnit S × Bool)) (seen : SeenTags)
    (res out : List Tag) (h : runTag m rec word wl us seen res = .ok out) (p : Tag) (hp : p ∈ out) :
    p ∈ res ∨ ∃ u ∈ us, ∃ seen' r, unitTag m rec u.1 word wl seen' = .ok r ∧ p ∈ r.1 := by
  induction us generalizing seen res with
  | nil => simp [runTag] at h; subst h; exact .inl hp
  | cons ut us ih =>
    obtain ⟨u, t⟩ := ut
    rw [runTag, bind_ok_iff] at h
    obtain ⟨r, hr, h⟩ := h
    have key : p ∈ res ++ r.1 ∨ (∃ u' ∈ us, ∃ seen' r, unitTag m rec u'.1 word wl seen' = .ok r ∧ p ∈ r.1) := by
      dsimp only at h
      split at h
      · simp at h; subst h; exact .inl hp
      · exact ih _ _ h
    rcases key with h1 | ⟨u', hu', h1⟩
    · rcases List.mem_append.1 h1 with h1 | h1
      · exact .inl h1
      · exact .inr ⟨(u, t), by simp, seen, r, hr, h1⟩
    · exact .inr ⟨u', by simp [hu'], h1⟩

/-! ### The estimator only re-scores and permutes -/

/-- A parse without its score. -/
def Parse.core (p : Parse S) : Str × Tag × Str × Stack := (p.word, p.tag, p.nf, p.stack)

theorem sortByScore_perm (ps : List (Parse S)) : (sortByScore ps).Perm ps := List.perm_insertionSort _ _

theorem applyToParses_core (dawg : List (Str × Nat)) (wl : Str) (ps out : List (Parse S))
    (h : applyToParses dawg wl ps = .ok out) : (out.map Parse.core).Perm (ps.map Parse.core) := by
  unfold applyToParses at h
  split at h
  · next he => simp at h; subst h; subst he; exact .refl _
  · dsimp only at h
    split at h
    · split at h
      · simp at h
      · simp at h; subst h
        rw [List.map_map]
        exact .refl _
    · simp at h; subst h
      refine ((sortByScore_perm _).map _).trans ?_
      rw [List.map_map]
      exact .refl _

/-- Unfolding of `parse`: the unit loop, then the estimator. -/
theorem parseStep_core (m : Morph S) (rec : Rec S) (w : Str) (out : List (Parse S))
    (h : parseStep m rec w = .ok out) :
    ∃ res, runParse m rec w (m.env.lower w) m.units [] [] = .ok res ∧
      (out.map Parse.core).Perm (res.map Parse.core) := by
  unfold parseStep at h
  rw [bind_ok_iff] at h
  obtain ⟨res, hres, h⟩ := h
  refine ⟨res, hres, ?_⟩
  split at h
  · exact applyToParses_core _ _ _ _ h
  · simp at h; subst h; exact .refl _

theorem parseStep_mem_core (m : Morph S) (rec : Rec S) (w : Str) (out : List (Parse S))
    (h : parseStep m rec w = .ok out) (p : Parse S) (hp : p ∈ out) :
    ∃ u ∈ m.units, ∃ seen r, unitParse m rec u.1 w (m.env.lower w) seen = .ok r ∧
      ∃ q ∈ r.1, q.core = p.core := by
  obtain ⟨res, hres, hperm⟩ := parseStep_core m rec w out h
  have : p.core ∈ res.map Parse.core := hperm.mem_iff.1 (List.mem_map.2 ⟨p, hp, rfl⟩)
  obtain ⟨q, hq, he⟩ := List.mem_map.1 this
  rcases runParse_mem m rec w _ _ _ _ _ hres q hq with h1 | ⟨u, hu, seen, r, hr, h1⟩
  · simp at h1
  · exact ⟨u, hu, seen, r, hr, q, h1, he⟩

theorem applyToTags_perm (dawg : List (Str × Nat)) (wl : Str) (ts : List Tag) :
    (applyToTags S dawg wl ts).Perm ts := List.perm_insertionSort _ _

/-- Unfolding of `tag`. -/
theorem tagStep_perm (m : Morph S) (rec : Rec S) (w : Str) (out : List Tag)
    (h : tagStep m rec w = .ok out) :
    ∃ res, runTag m rec w (m.env.lower w) m.units [] [] = .ok res ∧ out.Perm res := by
  unfold tagStep at h
  rw [bind_ok_iff] at h
  obtain ⟨res, hres, h⟩ := h
  refine ⟨res, hres, ?_⟩
  split at h
  · simp at h; subst h; exact applyToTags_perm _ _ _
  · simp at h; subst h; exact .refl _

/-! ### De-duplication -/

theorem addParses_sub (ps : List (Parse S)) (seen : Seen) : (addParses ps seen).1.Sublist ps := by
  induction ps generalizing seen with
  | nil => simp [addParses]
  | cons p ps ih =>
    rw [addParses]
    split
    · exact (ih seen).trans (List.sublist_cons_self _ _)
    · exact (ih _).cons_cons _

theorem addParses_mem {ps : List (Parse S)} {seen : Seen} {p : Parse S} (h : p ∈ (addParses ps seen).1) : p ∈ ps :=
  (addParses_sub ps seen).subset h

theorem dedupCands_sub (cs : List SfxCand) (seen : Seen) : (dedupCands cs seen).1.Sublist cs := by
  induction cs generalizing seen with
  | nil => simp [dedupCands]
  | cons c cs ih =>
    rw [dedupCands]
    split
    · exact (ih seen).trans (List.sublist_cons_self _ _)
    · exact (ih _).cons_cons _

end Verif
