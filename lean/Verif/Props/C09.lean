/-
C09 — `normal_forms()` lists each normal form once, in parse order.
-/
import Verif.Model.Analyzer
import Verif.Demo

namespace Verif

variable {S : Type} [Score S]

theorem mem_normalFormsLoop (ps : List (Parse S)) (seen : List Str) (x : Str) :
    x ∈ normalFormsLoop ps seen ↔ x ∉ seen ∧ ∃ p ∈ ps, p.nf = x := by
  induction ps generalizing seen with
  | nil => simp [normalFormsLoop]
  | cons p ps ih =>
    unfold normalFormsLoop
    split
    · next h => rw [ih]; constructor
                · rintro ⟨h1, q, h2, h3⟩; exact ⟨h1, q, by simp [h2], h3⟩
                · rintro ⟨h1, q, h2, h3⟩
                  rcases List.mem_cons.1 h2 with rfl | h2
                  · exact absurd (h3 ▸ h) h1
                  · exact ⟨h1, q, h2, h3⟩
    · next h =>
      rw [List.mem_cons, ih]
      constructor
      · rintro (rfl | ⟨h1, q, h2, h3⟩)
        · exact ⟨h, p, by simp, rfl⟩
        · exact ⟨fun hx => h1 (by simp [hx]), q, by simp [h2], h3⟩
      · rintro ⟨h1, q, h2, h3⟩
        by_cases e : x = p.nf
        · exact .inl e
        · refine .inr ⟨by simp [h1, e], ?_⟩
          rcases List.mem_cons.1 h2 with rfl | h2
          · exact absurd h3.symm e
          · exact ⟨q, h2, h3⟩

theorem nodup_normalFormsLoop (ps : List (Parse S)) (seen : List Str) : (normalFormsLoop ps seen).Nodup := by
  induction ps generalizing seen with
  | nil => simp [normalFormsLoop]
  | cons p ps ih =>
    unfold normalFormsLoop
    split
    · exact ih seen
    · exact List.nodup_cons.2 ⟨fun h => by simpa using ((mem_normalFormsLoop ps _ _).1 h).1, ih _⟩

theorem sublist_normalFormsLoop (ps : List (Parse S)) (seen : List Str) :
    (normalFormsLoop ps seen).Sublist (ps.map Parse.nf) := by
  induction ps generalizing seen with
  | nil => simp [normalFormsLoop]
  | cons p ps ih =>
    unfold normalFormsLoop
    split
    · exact (ih seen).trans (List.sublist_cons_self _ _)
    · exact (ih _).cons_cons _

theorem idxOf_normalFormsLoop (ps : List (Parse S)) (seen : List Str) :
    (normalFormsLoop ps seen).Pairwise
      (fun x y => (ps.map Parse.nf).idxOf x < (ps.map Parse.nf).idxOf y) := by
  induction ps generalizing seen with
  | nil => simp [normalFormsLoop]
  | cons p ps ih =>
    unfold normalFormsLoop
    split
    · next h =>
      refine (ih seen).imp_of_mem ?_
      intro x y hx hy hxy
      have nx : p.nf ≠ x := fun e => ((mem_normalFormsLoop ps _ _).1 hx).1 (e ▸ h)
      have ny : p.nf ≠ y := fun e => ((mem_normalFormsLoop ps _ _).1 hy).1 (e ▸ h)
      simp only [List.map_cons, List.idxOf_cons, beq_eq_false_iff_ne.2 nx, beq_eq_false_iff_ne.2 ny, cond_false]
      omega
    · next h =>
      refine List.pairwise_cons.2 ⟨?_, ?_⟩
      · intro y hy
        have ny : p.nf ≠ y := fun e => ((mem_normalFormsLoop ps _ _).1 hy).1 (by simp [e])
        simp [List.idxOf_cons, beq_eq_false_iff_ne.2 ny]
      · refine (ih _).imp_of_mem ?_
        intro x y hx hy hxy
        have nx : p.nf ≠ x := fun e => ((mem_normalFormsLoop ps _ _).1 hx).1 (by simp [e])
        have ny : p.nf ≠ y := fun e => ((mem_normalFormsLoop ps _ _).1 hy).1 (by simp [e])
        simp only [List.map_cons, List.idxOf_cons, beq_eq_false_iff_ne.2 nx, beq_eq_false_iff_ne.2 ny, cond_false]
        omega

/-- C09.  `normal_forms(w)` fails exactly when `parse(w)` fails; otherwise it contains exactly the normal forms of
the results of `parse(w)`, each once, ordered by the position of their first occurrence in `parse(w)`. -/
theorem c09_normal_forms (m : Morph S) (w : Str) :
    (∀ e, m.normalForms w = .error e ↔ m.parse w = .error e) ∧
    ∀ ps, m.parse w = .ok ps → ∃ nfs, m.normalForms w = .ok nfs ∧
      (∀ x, x ∈ nfs ↔ ∃ p ∈ ps, p.nf = x) ∧
      nfs.Nodup ∧
      nfs.Sublist (ps.map Parse.nf) ∧
      nfs.Pairwise (fun x y => (ps.map Parse.nf).idxOf x < (ps.map Parse.nf).idxOf y) := by
  constructor
  · intro e
    unfold Morph.normalForms
    cases m.parse w <;> simp
  · intro ps h
    refine ⟨normalFormsLoop ps [], by simp [Morph.normalForms, h], ?_, nodup_normalFormsLoop ps [],
      sublist_normalFormsLoop ps [], idxOf_normalFormsLoop ps []⟩
    intro x; simp [mem_normalFormsLoop]

/-- Non-vacuity (a test): a predicted word of the demo analyzer. -/
example : Demo.morph.normalForms (c!"мошка") = .ok [c!"мошка"] := by decide +kernel

end Verif
