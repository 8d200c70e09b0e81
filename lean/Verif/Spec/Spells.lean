/-
Specification vocabulary: one-way spelling variants.
-/
import Verif.Model.Dict

namespace Verif

/-- `Spells sub a b`: the stored string `b` may be written as `a`.  They have the same length and at every position
the stored character is the written one, or one of the characters the written one may stand for. -/
def Spells (sub : Subst) (a b : Str) : Prop := List.Forall₂ (fun c d => d = c ∨ d ∈ sub c) a b

/-- Positionwise reading of `Spells`. -/
theorem spells_iff_get (sub : Subst) (a b : Str) :
    Spells sub a b ↔ a.length = b.length ∧
      ∀ (i : Nat) (c d : Char), a[i]? = some c → b[i]? = some d → d = c ∨ d ∈ sub c := by
  unfold Spells
  induction a generalizing b with
  | nil =>
    cases b with
    | nil => simp
    | cons d b => simp [List.forall₂_nil_left_iff]
  | cons c a ih =>
    cases b with
    | nil => simp [List.forall₂_nil_right_iff]
    | cons d b =>
      rw [List.forall₂_cons, ih]
      constructor
      · rintro ⟨h1, h2, h3⟩
        refine ⟨by simp [h2], ?_⟩
        intro i c' d' hc hd
        cases i with
        | zero => simp at hc hd; subst hc; subst hd; exact h1
        | succ i => simp at hc hd; exact h3 i c' d' hc hd
      · rintro ⟨h2, h3⟩
        refine ⟨h3 0 c d (by simp) (by simp), by simpa using h2, ?_⟩
        intro i c' d' hc hd
        exact h3 (i + 1) c' d' (by simpa using hc) (by simpa using hd)

theorem Spells.refl (sub : Subst) (a : Str) : Spells sub a a := by
  unfold Spells
  induction a with
  | nil => exact .nil
  | cons c a ih => exact .cons (.inl rfl) ih

theorem Spells.append {sub : Subst} {a b a' b' : Str} (h : Spells sub a b) (h' : Spells sub a' b') :
    Spells sub (a ++ a') (b ++ b') := by
  unfold Spells at *
  induction h with
  | nil => exact h'
  | cons h1 _ ih => exact .cons h1 ih

theorem Spells.length_eq {sub : Subst} {a b : Str} (h : Spells sub a b) : a.length = b.length :=
  List.Forall₂.length_eq h

/-- If substitution targets are not themselves substitutable, spelling is transitive. -/
theorem Spells.trans {sub : Subst} (hs : ∀ c d, d ∈ sub c → sub d = []) {a b c : Str}
    (h : Spells sub a b) (h' : Spells sub b c) : Spells sub a c := by
  unfold Spells at *
  induction h generalizing c with
  | nil => exact h'
  | cons h1 _ ih =>
    cases h' with
    | cons h2 h3 =>
      refine .cons ?_ (ih h3)
      rcases h2 with rfl | h2
      · exact h1
      · rcases h1 with rfl | h1
        · exact .inr h2
        · rw [hs _ _ h1] at h2; simp at h2

/-- The enumeration of the DAWG library lists exactly the spellings. -/
theorem mem_variants_iff (sub : Subst) (w v : Str) : v ∈ variants sub w ↔ Spells sub w v := by
  unfold Spells
  induction w generalizing v with
  | nil => simp [variants, List.forall₂_nil_left_iff]
  | cons c cs ih =>
    have hne : variants sub cs ≠ [] := by
      intro h
      have := (ih cs).2 (Spells.refl sub cs)
      simp [h] at this
    rw [variants]
    cases hv : variants sub cs with
    | nil => exact absurd hv hne
    | cons x xs =>
      rw [hv] at ih
      simp only [List.mem_cons, List.mem_append, List.mem_flatMap, List.mem_map, List.forall₂_cons_left_iff]
      constructor
      · rintro ((rfl | ⟨d, hd, y, hy, rfl⟩) | ⟨y, hy, rfl⟩)
        · exact ⟨c, x, .inl rfl, (ih x).1 (by simp), rfl⟩
        · exact ⟨d, y, .inr hd, (ih y).1 (by simpa using hy), rfl⟩
        · exact ⟨c, y, .inl rfl, (ih y).1 (by simp [hy]), rfl⟩
      · rintro ⟨d, y, hd, hy, rfl⟩
        have hy := (ih y).2 hy
        rcases hd with rfl | hd
        · rcases List.mem_cons.1 hy with rfl | hy
          · exact .inl (.inl rfl)
          · exact .inr ⟨y, hy, rfl⟩
        · exact .inl (.inr ⟨d, hd, y, by simpa using hy, rfl⟩)

/-- A reasonable substitution table: no character is a substitute of itself, none is listed twice. -/
def Subst.Proper (sub : Subst) : Prop := ∀ c, (sub c).Nodup ∧ c ∉ sub c

theorem nodup_variants (sub : Subst) (hs : sub.Proper) (w : Str) : (variants sub w).Nodup := by
  induction w with
  | nil => simp [variants]
  | cons c cs ih =>
    rw [variants]
    cases hv : variants sub cs with
    | nil => simp
    | cons x xs =>
      rw [hv] at ih
      obtain ⟨h1, h2⟩ := hs c
      have hx := List.nodup_cons.1 ih
      have inj : ∀ d : Char, Function.Injective (fun y : Str => d :: y) := fun d a b h => by simpa using h
      refine List.nodup_append.2 ⟨List.nodup_cons.2 ⟨?_, ?_⟩, hx.2.map (inj c), ?_⟩
      · simp only [List.mem_flatMap, List.mem_map, not_exists, not_and]
        intro d hd y _ e
        simp at e; exact h2 (e.1 ▸ hd)
      · refine List.nodup_flatMap.2 ⟨fun d _ => ih.map (inj d), ?_⟩
        refine h1.imp ?_
        intro d d' hdd
        simp only [Function.onFun, List.disjoint_left, List.mem_map, not_exists, not_and]
        rintro _ ⟨y, _, rfl⟩ z _ e
        simp at e; exact hdd e.1.symm
      · intro y hy z hz e
        subst e
        simp only [List.mem_map] at hz
        obtain ⟨z, hz, rfl⟩ := hz
        rcases List.mem_cons.1 hy with e | hy
        · simp at e; exact hx.1 (e ▸ hz)
        · simp only [List.mem_flatMap, List.mem_map] at hy
          obtain ⟨d, hd, y, _, e⟩ := hy
          simp at e; exact h2 (e.1 ▸ hd)

/-- The first spelling tried is the word as written. -/
theorem variants_head (sub : Subst) (w : Str) : (variants sub w).head? = some w := by
  induction w with
  | nil => simp [variants]
  | cons c cs ih =>
    rw [variants]
    cases hv : variants sub cs with
    | nil => simp [hv] at ih
    | cons x xs => rw [hv] at ih; simp at ih; simp [ih]

end Verif
