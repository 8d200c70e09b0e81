/-
Lists of different elements, in the order of first occurrences (C106).
-/
import Verif.Spec.Firsts
import Verif.Props.C74
import Verif.Props.C95
import Verif.Props.C105

set_option linter.unusedSectionVars false

namespace Verif

variable {S : Type} [Score S]

section
variable {α : Type} [DecidableEq α]

theorem mem_firsts (x : α) (l : List α) : x ∈ firsts l ↔ x ∈ l := by
  induction l with
  | nil => rfl
  | cons y l ih =>
    simp only [firsts, List.mem_cons, List.mem_filter, ih, decide_eq_true_eq]
    by_cases h : x = y <;> simp [h]

theorem firsts_nodup (l : List α) : (firsts l).Nodup := by
  induction l with
  | nil => simp [firsts]
  | cons y l ih =>
    rw [firsts, List.nodup_cons]
    exact ⟨by simp, ih.filter _⟩

theorem firsts_filter (q : α → Bool) (l : List α) : firsts (l.filter q) = (firsts l).filter q := by
  induction l with
  | nil => rfl
  | cons y l ih =>
    rw [List.filter_cons]
    split
    · next h =>
      rw [firsts, firsts, List.filter_cons, if_pos h, ih, List.filter_filter, List.filter_filter]
      congr 2
      funext a
      exact Bool.and_comm _ _
    · next h =>
      rw [firsts, List.filter_cons, if_neg h, ih, List.filter_filter]
      apply List.filter_congr
      intro a _
      by_cases e : a = y
      · subst e; simp [h]
      · simp [e]

theorem firsts_append (a b : List α) : firsts (a ++ b) = firsts a ++ (firsts b).filter fun x => decide (x ∉ a) := by
  induction a with
  | nil => simp [firsts]
  | cons y a ih =>
    rw [List.cons_append, firsts, firsts, ih, List.filter_append, List.cons_append, List.filter_filter]
    congr 2
    apply List.filter_congr
    intro x _
    by_cases e : x = y <;> simp [e]

theorem firsts_of_nodup (l : List α) (h : l.Nodup) : firsts l = l := by
  induction l with
  | nil => rfl
  | cons y l ih =>
    rw [List.nodup_cons] at h
    rw [firsts, ih h.2, List.filter_eq_self.2]
    intro a ha
    simp only [ne_eq, decide_eq_true_eq]
    rintro rfl
    exact h.1 ha

theorem firsts_head? (l : List α) : (firsts l).head? = l.head? := by cases l <;> rfl

end

/-- The same tags in the same order of first occurrences, apart from those in `D`. -/
def Same (D : List Str → Bool) (A B : List (List Str)) : Prop := firsts (A.filter fun x => !D x) = firsts (B.filter fun x => !D x)

theorem Same.refl (D : List Str → Bool) (A : List (List Str)) : Same D A A := rfl
theorem Same.trans {D : List Str → Bool} {A B C : List (List Str)} (h1 : Same D A B) (h2 : Same D B C) : Same D A C := Eq.trans h1 h2
theorem Same.symm {D : List Str → Bool} {A B : List (List Str)} (h1 : Same D A B) : Same D B A := Eq.symm h1

theorem Same.mem {D : List Str → Bool} {A B : List (List Str)} (h : Same D A B) {x : List Str} (hx : D x = false) : x ∈ A ↔ x ∈ B := by
  have h1 : x ∈ firsts (A.filter fun x => !D x) ↔ x ∈ firsts (B.filter fun x => !D x) := by rw [h]
  simpa [mem_firsts, List.mem_filter, hx] using h1

theorem Same.filter {D : List Str → Bool} {A B : List (List Str)} (h : Same D A B) (q : List Str → Bool) : Same D (A.filter q) (B.filter q) := by
  unfold Same at *
  rw [List.filter_filter, List.filter_filter]
  have e : ∀ l : List (List Str), l.filter (fun a => (!D a) && q a) = (l.filter fun x => !D x).filter q := by
    intro l; rw [List.filter_filter]; apply List.filter_congr; intro a _; exact Bool.and_comm _ _
  rw [e, e, firsts_filter, h, ← firsts_filter]

theorem Same.mono {D E : List Str → Bool} {A B : List (List Str)} (h : Same D A B) (hDE : ∀ x, D x = true → E x = true) : Same E A B := by
  unfold Same at *
  have e : ∀ l : List (List Str), l.filter (fun a => !E a) = (l.filter fun x => !D x).filter fun a => !E a := by
    intro l; rw [List.filter_filter]; apply List.filter_congr; intro a _
    have := hDE a
    cases h1 : D a <;> cases h2 : E a <;> simp_all
  rw [e A, e B, firsts_filter, h, ← firsts_filter]

theorem firsts_append_filter {α : Type} [DecidableEq α] (D E : α → Bool) (L M : List α) (hE : ∀ x, E x = true ↔ D x = true ∨ x ∈ L) :
    firsts ((L ++ M).filter fun x => !D x) = firsts (L.filter fun x => !D x) ++ firsts (M.filter fun x => !E x) := by
  rw [List.filter_append, firsts_append, ← firsts_filter, List.filter_filter]
  congr 2
  apply List.filter_congr
  intro x _
  have := hE x
  cases hx : D x <;> cases hy : E x <;> simp_all

theorem Same.append {D : List Str → Bool} {A B A' B' : List (List Str)} (h : Same D A B) (h' : Same (fun x => D x || decide (x ∈ A)) A' B') :
    Same D (A ++ A') (B ++ B') := by
  unfold Same at *
  rw [firsts_append_filter D (fun x => D x || decide (x ∈ A)) A A' (by simp), firsts_append_filter D (fun x => D x || decide (x ∈ A)) B B' ?_, h, h']
  intro x
  cases hx : D x with
  | true => simp
  | false => simp [Same.mem h hx]

/-- Elements of `D` do not count. -/
theorem Same.of_all {D : List Str → Bool} {A B : List (List Str)} (hA : ∀ x ∈ A, D x = true) (hB : ∀ x ∈ B, D x = true) : Same D A B := by
  unfold Same
  rw [List.filter_eq_nil_iff.2 fun x hx => by simp [hA x hx], List.filter_eq_nil_iff.2 fun x hx => by simp [hB x hx]]

theorem Same.cons {D : List Str → Bool} {A B : List (List Str)} (x : List Str) (h : Same (fun y => D y || decide (y = x)) A B) : Same D (x :: A) (x :: B) := by
  have := Same.append (D := D) (Same.refl D [x]) (A' := A) (B' := B) (h.mono (by intro y; simp))
  exact this

theorem Same.cons_left {D : List Str → Bool} {A B : List (List Str)} {x : List Str} (hx : D x = true) (h : Same D A B) : Same D A (x :: B) := by
  unfold Same at *
  rw [List.filter_cons, if_neg (by simp [hx])]
  exact h

/-! ### De-duplication does not change the order of first occurrences -/

def tupsP (ps : List (Parse S)) : List (List Str) := ps.map fun p => p.tag.tuple
def tupsT (ts : List Tag) : List (List Str) := ts.map Tag.tuple

theorem addParses_same (D : List Str → Bool) (X : List (Parse S)) (seen : Seen) (h : SeenIn (fun τ => D τ = true) seen) :
    Same D (tupsP (addParses X seen).1) (tupsP X) := by
  induction X generalizing seen D with
  | nil => rfl
  | cons p X ih =>
    rw [addParses]
    split
    · next hm => exact (ih D seen h).cons_left (h _ _ _ hm)
    · dsimp only
      refine Same.cons p.tag.tuple (ih _ _ ?_)
      intro w τ k hk
      rcases List.mem_cons.1 hk with hk | hk
      · simp only [Parse.key, SeenKey.reduced.injEq] at hk; simp [hk.2.1]
      · have := h w τ k hk; simp [this]

theorem addTags_same (D : List Str → Bool) (X : List Tag) (seen : SeenTags) (h : SeenTIn (fun τ => D τ = true) seen) :
    Same D (tupsT (addTags X seen).1) (tupsT X) := by
  induction X generalizing seen D with
  | nil => rfl
  | cons p X ih =>
    rw [addTags]
    split
    · next hm => exact (ih D seen h).cons_left (h _ hm)
    · dsimp only
      refine Same.cons p.tuple (ih _ _ ?_)
      intro τ hk
      rcases List.mem_cons.1 hk with hk | hk
      · simp [hk]
      · have := h τ hk; simp [this]

theorem addParses_covered (X : List (Parse S)) (seen : Seen) (a : List (Parse S)) (q : Parse S) (b : List (Parse S)) (he : X = a ++ q :: b) :
    q ∈ (addParses X seen).1 ∨ q.key ∈ seen ∨ ∃ x ∈ a, x.key = q.key := by
  induction X generalizing seen a with
  | nil => simp at he
  | cons p X ih =>
    cases a with
    | nil =>
      simp only [List.nil_append, List.cons.injEq] at he
      rw [← he.1, addParses]
      split
      · next h => exact .inr (.inl h)
      · exact .inl (by simp)
    | cons y a =>
      simp only [List.cons_append, List.cons.injEq] at he
      rw [addParses]
      split
      · rcases ih seen a he.2 with h | h | ⟨x, hx, h⟩
        · exact .inl h
        · exact .inr (.inl h)
        · exact .inr (.inr ⟨x, by simp [hx], h⟩)
      · rcases ih (p.key :: seen) a he.2 with h | h | ⟨x, hx, h⟩
        · exact .inl (by simp [h])
        · rcases List.mem_cons.1 h with h | h
          · exact .inr (.inr ⟨y, by simp, by rw [← he.1, h]⟩)
          · exact .inr (.inl h)
        · exact .inr (.inr ⟨x, by simp [hx], h⟩)

end Verif
