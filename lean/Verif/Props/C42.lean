/-
C42 — prefix matching.
-/
import Verif.Model.Config
import Verif.Lemmas.Run

namespace Verif

/-- `prefixes(w)` returns exactly the registered prefixes `w` starts with, in the registered order and multiplicity. -/
theorem c42_prefixes (ps : List Str) (w : Str) :
    (∀ p, p ∈ matchPrefixes ps w ↔ p ∈ ps ∧ ∃ r, w = p ++ r) ∧ (matchPrefixes ps w).Sublist ps ∧
    (∀ p, (∃ r, w = p ++ r) → (matchPrefixes ps w).count p = ps.count p) := by
  have key : matchPrefixes ps w = ps.filter fun p => startsWith w p := by
    unfold matchPrefixes
    split
    · rfl
    · next h =>
      symm
      rw [List.filter_eq_nil_iff]
      intro p hp hs
      exact h (List.any_eq_true.2 ⟨p, hp, hs⟩)
  have hs : ∀ p, startsWith w p = true ↔ ∃ r, w = p ++ r := by
    intro p
    rw [startsWith_iff]
    exact ⟨fun ⟨r, h⟩ => ⟨r, h.symm⟩, fun ⟨r, h⟩ => ⟨r, h.symm⟩⟩
  rw [key]
  refine ⟨fun p => ?_, List.filter_sublist, fun p hp => ?_⟩
  · rw [List.mem_filter, hs]
  · exact List.count_filter (by rw [hs]; exact hp)

/-- `is_prefixed(w)` iff some registered prefix starts `w`. -/
theorem c42_is_prefixed (ps : List Str) (w : Str) : isPrefixed ps w = true ↔ ∃ p ∈ ps, ∃ r, w = p ++ r := by
  simp only [isPrefixed, List.any_eq_true, startsWith_iff]
  exact ⟨fun ⟨p, hp, r, h⟩ => ⟨p, hp, r, h.symm⟩, fun ⟨p, hp, r, h⟩ => ⟨p, hp, r, h.symm⟩⟩

/-- `KnownPrefixAnalyzer.possible_splits(w)` contains exactly the splits at a registered prefix whose remainder has at
least `min_remainder_length` characters. -/
theorem c42_splits_mem (ps : List Str) (k : Nat) (w a b : Str) :
    (a, b) ∈ possibleSplits ps k w ↔ a ∈ ps ∧ w = a ++ b ∧ k ≤ b.length := by
  unfold possibleSplits
  simp only [List.mem_filter, List.mem_map, (List.perm_insertionSort _ _).mem_iff, (c42_prefixes ps w).1,
    Prod.mk.injEq, decide_eq_true_eq]
  constructor
  · rintro ⟨⟨p, ⟨hp, r, rfl⟩, rfl, rfl⟩, h⟩
    exact ⟨hp, by simp, h⟩
  · rintro ⟨ha, rfl, h⟩
    exact ⟨⟨a, ⟨ha, b, rfl⟩, rfl, by simp⟩, h⟩

/-- They are tried longest prefix first. -/
theorem c42_splits_longest_first (ps : List Str) (k : Nat) (w : Str) :
    (possibleSplits ps k w).Pairwise fun s t => t.1.length ≤ s.1.length := by
  unfold possibleSplits
  refine List.Pairwise.filter _ (List.pairwise_map.2 ?_)
  exact List.pairwise_insertionSort (fun a b : Str => b.length ≤ a.length) _

/-- With distinct prefixes the lengths are strictly decreasing, so no split is tried twice. -/
theorem c42_splits_strict (ps : List Str) (hn : ps.Nodup) (k : Nat) (w : Str) :
    (possibleSplits ps k w).Pairwise fun s t => t.1.length < s.1.length := by
  have h1 := c42_splits_longest_first ps k w
  have hnd : ((possibleSplits ps k w).map Prod.fst).Nodup := by
    unfold possibleSplits
    have h2 : ((matchPrefixes ps w).insertionSort fun a b => b.length ≤ a.length).Nodup :=
      (List.perm_insertionSort _ _).nodup_iff.2 (hn.sublist (c42_prefixes ps w).2.1)
    refine List.Nodup.sublist (List.Sublist.map _ List.filter_sublist) ?_
    rw [List.map_map]
    exact (List.map_id _).symm ▸ h2
  have h3 := List.pairwise_map.1 hnd
  refine (h1.and h3).imp_of_mem ?_
  rintro ⟨a, b⟩ ⟨c, d⟩ hs ht ⟨hle, hne⟩
  obtain ⟨_, rfl, _⟩ := (c42_splits_mem ps k _ a b).1 hs
  obtain ⟨_, he, _⟩ := (c42_splits_mem ps k _ c d).1 ht
  rcases Nat.lt_or_eq_of_le hle with h | h
  · exact h
  · exact absurd (List.append_inj_left he h.symm) hne

/-- Hence the two implementations of `PrefixMatcher` (dawg.py:69-89: the DAWG one and the pure Python one) are
interchangeable here: any two duplicate-free listings of the same set of prefixes give the same splits in the same order. -/
theorem c42_splits_order_irrelevant (ps qs : List Str) (hp : ps.Nodup) (hq : qs.Nodup) (h : ∀ p, p ∈ ps ↔ p ∈ qs)
    (k : Nat) (w : Str) : possibleSplits ps k w = possibleSplits qs k w := by
  have h1 := c42_splits_strict ps hp k w
  have h2 := c42_splits_strict qs hq k w
  have n1 : (possibleSplits ps k w).Nodup := h1.imp fun {a b} hlt e => by subst e; omega
  have n2 : (possibleSplits qs k w).Nodup := h2.imp fun {a b} hlt e => by subst e; omega
  have hperm : (possibleSplits ps k w).Perm (possibleSplits qs k w) := by
    rw [List.perm_ext_iff_of_nodup n1 n2]
    rintro ⟨a, b⟩
    rw [c42_splits_mem, c42_splits_mem, h]
  refine hperm.eq_of_pairwise ?_ h1 h2
  intro a b _ _ hab hba
  omega

/-- The configured Russian and Ukrainian lists have no duplicates. -/
theorem c42_default_nodup : ruKnownPrefixes.Nodup ∧ ukKnownPrefixes.Nodup := by
  constructor <;> decide +kernel

/-! Non-vacuity (tests). -/
example : possibleSplits ruKnownPrefixes 3 (c!"небезопасный") =
    [(c!"небез", c!"опасный"), (c!"не", c!"безопасный")] := by decide +kernel
example : possibleSplits ruKnownPrefixes 3 (c!"неон") = [] := by decide +kernel

end Verif
