/-
C40 — `word_splits` enumerates exactly the allowed splits.
-/
import Verif.Model.Units

namespace Verif

/-- C40, membership: `(a, b)` is produced iff it splits the word, the prefix has between 1 and `m` characters and
the remainder at least `r`. -/
theorem c40_word_splits_mem (w a b : Str) (r m : Nat) :
    (a, b) ∈ wordSplits w r m ↔ a ++ b = w ∧ 1 ≤ a.length ∧ a.length ≤ m ∧ r ≤ b.length := by
  unfold wordSplits
  simp only [List.mem_map, List.mem_range, Prod.mk.injEq]
  constructor
  · rintro ⟨i, hi, rfl, rfl⟩
    refine ⟨List.take_append_drop _ _, ?_⟩
    simp only [List.length_take, List.length_drop]
    omega
  · rintro ⟨rfl, h1, h2, h3⟩
    refine ⟨a.length - 1, ?_, ?_, ?_⟩
    · simp only [List.length_append]; omega
    · rw [Nat.sub_add_cancel h1]; simp
    · rw [Nat.sub_add_cancel h1]; simp

/-- C40, order and uniqueness: splits come by strictly increasing prefix length. -/
theorem c40_word_splits_sorted (w : Str) (r m : Nat) :
    (wordSplits w r m).Pairwise (fun x y => x.1.length < y.1.length) ∧ (wordSplits w r m).Nodup := by
  have h : (wordSplits w r m).Pairwise (fun x y => x.1.length < y.1.length) := by
    unfold wordSplits
    rw [List.pairwise_map]
    refine (List.pairwise_lt_range (n := min m (w.length - r))).imp_of_mem ?_
    intro i j hi hj hij
    simp only [List.mem_range] at hi hj
    simp only [List.length_take]; omega
  exact ⟨h, h.imp fun h e => by rw [e] at h; exact Nat.lt_irrefl _ h⟩

/-- Non-vacuity (a test): the default parameters on a six-letter word. -/
example : wordSplits (c!"бутявк") = [(c!"б", c!"утявк"), (c!"бу", c!"тявк"), (c!"бут", c!"явк")] := by decide

end Verif
