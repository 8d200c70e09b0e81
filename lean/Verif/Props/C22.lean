/-
C22 — the membership test in a tag never hides a typo.
-/
import Verif.Model.Tag
import Verif.Demo

namespace Verif

/-- C22 for `g in tag`: `True` iff the tag has the grammeme; otherwise `False` if the grammeme is known to the tag class,
`ValueError` if not, and `RuntimeError` if the class was never initialised. -/
theorem c22_contains (c : TagCls) (t : Tag) (g : Str) :
    (c.contains t g = .ok true ↔ g ∈ t.tuple) ∧
    (c.contains t g = .ok false ↔ g ∉ t.tuple ∧ g ∈ c.known) ∧
    (c.contains t g = .error .valueError ↔ g ∉ t.tuple ∧ g ∉ c.known ∧ c.known ≠ ∅) ∧
    (c.contains t g = .error .runtimeError ↔ g ∉ t.tuple ∧ c.known = ∅) ∧
    (∀ e, c.contains t g = .error e → e = .valueError ∨ e = .runtimeError) := by
  have hm : g ∈ t.grammemes ↔ g ∈ t.tuple := by simp [Tag.grammemes]
  unfold TagCls.contains TagCls.isKnown TagCls.assertInit
  by_cases h1 : g ∈ t.grammemes
  · simp [h1, hm.1 h1]
  · have h1' : g ∉ t.tuple := fun h => h1 (hm.2 h)
    by_cases h2 : c.known = ∅
    · simp [h1, h1', h2]
    · by_cases h3 : g ∈ c.known <;> simp [h1, h1', h2, h3]

/-- C22 for `{g1, g2, …} in tag`. -/
theorem c22_contains_set (c : TagCls) (t : Tag) (gs : Grams) :
    (c.containsSet t gs = .ok true ↔ ∀ g ∈ gs, g ∈ t.tuple) ∧
    (c.containsSet t gs = .ok false ↔ (∃ g ∈ gs, g ∉ t.tuple) ∧ ∀ g ∈ gs, g ∈ c.known) ∧
    (c.containsSet t gs = .error .valueError ↔
      (∃ g ∈ gs, g ∉ t.tuple) ∧ (∃ g ∈ gs, g ∉ c.known) ∧ c.known ≠ ∅) ∧
    (c.containsSet t gs = .error .runtimeError ↔ (∃ g ∈ gs, g ∉ t.tuple) ∧ c.known = ∅) ∧
    (∀ e, c.containsSet t gs = .error e → e = .valueError ∨ e = .runtimeError) := by
  have hm : gs ⊆ t.grammemes ↔ ∀ g ∈ gs, g ∈ t.tuple := by
    simp only [Finset.subset_iff, Tag.grammemes, List.mem_toFinset]
  have hk : gs ⊆ c.known ↔ ∀ g ∈ gs, g ∈ c.known := by simp only [Finset.subset_iff]
  have n1 : (∃ g ∈ gs, g ∉ t.tuple) ↔ ¬ gs ⊆ t.grammemes := by rw [hm]; simp
  have n2 : (∃ g ∈ gs, g ∉ c.known) ↔ ¬ gs ⊆ c.known := by rw [hk]; simp
  rw [n1, n2, ← hm, ← hk]
  unfold TagCls.containsSet TagCls.assertKnown TagCls.assertInit
  by_cases h1 : gs ⊆ t.grammemes
  · simp [h1]
  · by_cases h2 : gs ⊆ c.known
    · have : c.known ≠ ∅ := by
        intro h
        rw [h, Finset.subset_empty] at h2
        exact h1 (by rw [h2]; exact Finset.empty_subset _)
      simp [h1, h2, this]
    · have hne : gs ≠ ∅ := by rintro rfl; exact h1 (Finset.empty_subset _)
      by_cases h3 : c.known = ∅ <;> simp [h1, h2, h3, hne]

/-- `g in tag` and `{g} in tag` behave alike, exceptions included. -/
theorem c22_alike (c : TagCls) (t : Tag) (g : Str) : c.contains t g = c.containsSet t {g} := by
  unfold TagCls.contains TagCls.containsSet TagCls.isKnown TagCls.assertKnown TagCls.assertInit
  simp only [Finset.singleton_subset_iff]
  by_cases h1 : g ∈ t.grammemes
  · simp [h1]
  · by_cases h3 : g ∈ c.known
    · simp [h1, h3, Finset.ne_empty_of_mem h3]
    · by_cases h2 : c.known = ∅ <;> simp [h1, h2, h3]

/-! Non-vacuity (tests). -/
example : Demo.cls.contains ⟨c!"NOUN,anim sing"⟩ (c!"anim") = .ok true := by decide +kernel
example : Demo.cls.contains ⟨c!"NOUN,anim sing"⟩ (c!"plur") = .ok false := by decide +kernel
example : Demo.cls.contains ⟨c!"NOUN,anim sing"⟩ (c!"pllur") = .error .valueError := by decide +kernel
example : TagCls.initial.contains ⟨c!"NOUN,anim sing"⟩ (c!"plur") = .error .runtimeError := by decide +kernel

end Verif
