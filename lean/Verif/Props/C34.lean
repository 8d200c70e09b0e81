/-
C34 — longest_common_substring.  C35 — largest_elements.
-/
import Verif.Model.Utils
import Mathlib.Data.Finset.Card
import Mathlib.Data.Finset.Dedup

namespace Verif

/-! ### C34 -/

/-- `t` is a contiguous part of every string of `data`. -/
def CommonSubstring (t : Str) (data : List Str) : Prop := ∀ x ∈ data, t <:+: x

theorem foldl_inv {α β : Type} (f : β → α → β) (P : β → Prop) (l : List α) (b : β) (h0 : P b) (hs : ∀ b a, a ∈ l → P b → P (f b a)) :
    P (l.foldl f b) := by
  induction l generalizing b with
  | nil => exact h0
  | cons a l ih => exact ih _ (hs b a (by simp) h0) fun b a ha => hs b a (by simp [ha])

/-- A value reached by the fold at one of its elements, if it is never lost later. -/
theorem foldl_hit {α β : Type} (f : β → α → β) (Q : β → Prop) (l : List α) (b : β) (a : α) (ha : a ∈ l)
    (hit : ∀ b, Q (f b a)) (keep : ∀ b c, Q b → Q (f b c)) : Q (l.foldl f b) := by
  induction l generalizing b with
  | nil => simp at ha
  | cons c l ih =>
    rcases List.mem_cons.1 ha with rfl | ha
    · exact foldl_inv f Q l _ (hit b) fun b c _ => keep b c
    · exact ih _ ha

theorem sliceAt_infix (s : Str) (i j : Nat) : sliceAt s i j <:+: s :=
  (List.take_prefix _ _).isInfix.trans (List.drop_suffix _ _).isInfix

theorem lcsStep_len (data : List Str) (first : Str) (i : Nat) (substr : Str) (j : Nat) :
    substr.length ≤ (lcsStep data first i substr j).length ∨ first.length < i + j := by
  unfold lcsStep
  split
  · next h =>
    by_cases hb : first.length < i + j
    · exact .inr hb
    · left
      simp only [sliceAt, List.length_take, List.length_drop]
      omega
  · exact .inl (le_refl _)

/-- **C34.** The result is a common substring, and no common substring is longer (non-empty list of strings). -/
theorem c34_longest (data : List Str) (hne : data ≠ []) :
    CommonSubstring (longestCommonSubstring data) data ∧
    ∀ t, CommonSubstring t data → t.length ≤ (longestCommonSubstring data).length := by
  match data, hne with
  | [x], _ =>
    refine ⟨by intro y hy; simp at hy; subst hy; exact List.infix_rfl, fun t ht => (ht x (by simp)).length_le⟩
  | first :: b :: rest, _ =>
    have hmem : first ∈ first :: b :: rest := by simp
    show CommonSubstring (if first.length = 0 then [] else lcsLoop (first :: b :: rest) first) _ ∧ ∀ t, CommonSubstring t _ →
      t.length ≤ (if first.length = 0 then [] else lcsLoop (first :: b :: rest) first).length
    generalize first :: b :: rest = data at hmem
    split
    · next h0 =>
      refine ⟨fun x _ => List.nil_infix, fun t ht => ?_⟩
      have := (ht first hmem).length_le
      simp only [List.length_nil]; omega
    · refine ⟨?_, ?_⟩
      · unfold lcsLoop
        refine foldl_inv _ (fun s => CommonSubstring s data) _ _ (fun x _ => List.nil_infix) ?_
        intro s i _ hs
        refine foldl_inv _ (fun s => CommonSubstring s data) _ _ hs ?_
        intro s j _ hs
        unfold lcsStep
        split
        · next h => exact h.2
        · exact hs
      · intro t ht
        obtain ⟨u, v, huv⟩ := ht first hmem
        -- occurrences are found at position |u| with length |t|
        have hsl : sliceAt first u.length t.length = t := by
          rw [← huv]; simp [sliceAt]
        have hlen : u.length + t.length ≤ first.length := by
          rw [← huv]; simp
        by_cases ht0 : t = []
        · simp [ht0]
        have htpos : 0 < t.length := List.length_pos_iff.2 ht0
        unfold lcsLoop
        have keepInner : ∀ i < first.length, ∀ (s : Str), t.length ≤ s.length →
            t.length ≤ ((List.range (first.length - i + 1)).foldl (lcsStep data first i) s).length := by
          intro i hi s hs
          refine foldl_inv _ (fun s : Str => t.length ≤ s.length) _ _ hs ?_
          intro s j hj hs
          rcases lcsStep_len data first i s j with h | h
          · omega
          · simp at hj; omega
        -- outer loop: split the range at |u|
        have : ∀ (l : List Nat), (∀ i ∈ l, i < first.length) → u.length ∈ l → ∀ s : Str, t.length ≤
            (l.foldl (fun substr i => (List.range (first.length - i + 1)).foldl (lcsStep data first i) substr) s).length := by
          intro l
          induction l with
          | nil => intro _ h; simp at h
          | cons i l ih =>
            intro hl hu s
            rw [List.foldl_cons]
            by_cases hui : u.length ∈ l
            · exact ih (fun i hi => hl i (by simp [hi])) hui _
            · have hiu : i = u.length := by
                rcases List.mem_cons.1 hu with h | h
                · exact h.symm
                · exact absurd h hui
              refine foldl_inv _ (fun s : Str => t.length ≤ s.length) _ _ ?_ fun s i hi hs => keepInner i (hl i (by simp [hi])) s hs
              subst hiu
              -- inner loop: split at j = |t|
              have inner : ∀ (l : List Nat), (∀ j ∈ l, u.length + j ≤ first.length) → t.length ∈ l → ∀ s : Str,
                  t.length ≤ (l.foldl (lcsStep data first u.length) s).length := by
                intro l
                induction l with
                | nil => intro _ h; simp at h
                | cons j l ih =>
                  intro hl hj s
                  rw [List.foldl_cons]
                  by_cases hjl : t.length ∈ l
                  · exact ih (fun j hj => hl j (by simp [hj])) hjl _
                  · have hjt : j = t.length := by
                      rcases List.mem_cons.1 hj with h | h
                      · exact h.symm
                      · exact absurd h hjl
                    subst hjt
                    refine foldl_inv _ (fun s : Str => t.length ≤ s.length) _ _ ?_ ?_
                    · unfold lcsStep
                      rw [hsl]
                      split
                      · exact le_refl _
                      · next h =>
                        by_contra hc
                        exact h ⟨by omega, ht⟩
                    · intro s j hj hs
                      rcases lcsStep_len data first u.length s j with h | h
                      · omega
                      · have := hl j (by simp [hj]); omega
              exact inner _ (fun j hj => by simp at hj; omega) (by simp; omega) s
        exact this _ (fun i hi => by simpa using hi) (by simp; omega) []

/-- For the empty list the result is `''`. -/
theorem c34_empty : longestCommonSubstring [] = [] := rfl

example : longestCommonSubstring [c!"apricot", c!"rice", c!"cricket"] = c!"ric" := by decide +kernel

/-- `s` is the first of the longest among the common substrings that start before position `n` of `first`. -/
structure FirstBest (data : List Str) (first : Str) (n : Nat) (s : Str) : Prop where
  best : ∀ k j, k < n → k + j ≤ first.length → CommonSubstring (sliceAt first k j) data → j ≤ s.length
  early : s = [] ∨ ∃ k, k ≤ n ∧ k + s.length ≤ first.length ∧ s = sliceAt first k s.length ∧
    ∀ k' j, k' < k → k' + j ≤ first.length → CommonSubstring (sliceAt first k' j) data → j < s.length

theorem firstBest_inner (data : List Str) (first : Str) (i : Nat) (m : Nat) (hm : i + m ≤ first.length + 1) (s : Str) (h : FirstBest data first i s) :
    FirstBest data first i ((List.range m).foldl (lcsStep data first i) s) ∧
    ∀ j < m, CommonSubstring (sliceAt first i j) data → j ≤ ((List.range m).foldl (lcsStep data first i) s).length := by
  induction m with
  | zero => exact ⟨h, by simp⟩
  | succ m ih =>
    obtain ⟨h1, h2⟩ := ih (by omega)
    rw [List.range_succ, List.foldl_append, List.foldl_cons, List.foldl_nil]
    generalize (List.range m).foldl (lcsStep data first i) s = t at h1 h2
    have hl : (sliceAt first i m).length = m := by simp only [sliceAt, List.length_take, List.length_drop]; omega
    unfold lcsStep
    split
    · next hc =>
      refine ⟨⟨fun k j hk hj hcs => ?_, .inr ⟨i, le_refl _, by omega, by rw [hl], fun k' j hk' hj hcs => ?_⟩⟩, fun j hj _ => by rw [hl]; omega⟩
      · have := h1.best k j hk hj hcs; omega
      · have := h1.best k' j hk' hj hcs; omega
    · next hc =>
      refine ⟨h1, fun j hj hcs => ?_⟩
      rcases Nat.lt_succ_iff_lt_or_eq.1 hj with hj | rfl
      · exact h2 j hj hcs
      · by_contra hlt
        exact hc ⟨by omega, hcs⟩

theorem firstBest_loop (data : List Str) (first : Str) (n : Nat) (hn : n ≤ first.length) :
    FirstBest data first n ((List.range n).foldl
      (fun substr i => (List.range (first.length - i + 1)).foldl (lcsStep data first i) substr) []) := by
  induction n with
  | zero => exact ⟨by simp, .inl rfl⟩
  | succ n ih =>
    rw [List.range_succ, List.foldl_append, List.foldl_cons, List.foldl_nil]
    obtain ⟨h1, h2⟩ := firstBest_inner data first n (first.length - n + 1) (by omega) _ (ih (by omega))
    refine ⟨fun k j hk hj hcs => ?_, ?_⟩
    · rcases Nat.lt_succ_iff_lt_or_eq.1 hk with hk | rfl
      · exact h1.best k j hk hj hcs
      · exact h2 j (by omega) hcs
    · rcases h1.early with h | ⟨k, hk, h⟩
      · exact .inl h
      · exact .inr ⟨k, by omega, h⟩

/-- **C34.** Among the longest common substrings the result is the one that occurs first in the first string: wherever another one
occurs there, the result occurs at the same place or before. -/
theorem c34_first (first : Str) (rest : List Str) (t : Str) (ht : CommonSubstring t (first :: rest))
    (hlen : t.length = (longestCommonSubstring (first :: rest)).length) (u v : Str) (huv : first = u ++ t ++ v) :
    ∃ u' v', first = u' ++ longestCommonSubstring (first :: rest) ++ v' ∧ u'.length ≤ u.length := by
  cases rest with
  | nil => exact ⟨[], [], by simp [longestCommonSubstring], by simp⟩
  | cons b rest =>
    have hd : longestCommonSubstring (first :: b :: rest) = if first.length = 0 then [] else lcsLoop (first :: b :: rest) first := rfl
    rw [hd] at hlen ⊢
    generalize first :: b :: rest = data at *
    split at hlen
    · next h0 => rw [if_pos h0]; exact ⟨[], first, by simp, by simp⟩
    · next h0 =>
      rw [if_neg h0]
      have hb := firstBest_loop data first first.length (le_refl _)
      change FirstBest data first first.length (lcsLoop data first) at hb
      generalize lcsLoop data first = r at *
      rcases hb.early with rfl | ⟨k, _, hk, hr, hmin⟩
      · exact ⟨[], first, by simp, by simp⟩
      · refine ⟨first.take k, first.drop (k + r.length), ?_, ?_⟩
        · conv_rhs => rw [hr]
          have hr' : (sliceAt first k r.length).length = r.length := by rw [← hr]
          unfold sliceAt at *
          rw [hr', List.append_assoc]
          conv_lhs => rw [← List.take_append_drop k first, ← List.take_append_drop r.length (first.drop k), List.drop_drop]
        · by_contra hlt
          have hlt : u.length < k := by simp at hlt; omega
          have hs : sliceAt first u.length t.length = t := by rw [huv]; simp [sliceAt]
          have := hmin u.length t.length hlt (by rw [huv]; simp) (by rw [hs]; exact ht)
          omega

/-- Two common substrings of length 1; the one that occurs first in the first string is returned. -/
example : longestCommonSubstring [c!"xay", c!"ybx"] = c!"x" ∧ longestCommonSubstring [c!"ybx", c!"xay"] = c!"y" := by decide +kernel

/-! ### C35 -/

theorem take_iff_count {K : Type} [LinearOrder K] (l : List K) (hs : l.Pairwise (fun a b => b < a)) (n : Nat) (x : K) (hx : x ∈ l) :
    x ∈ l.take n ↔ (l.filter fun y => decide (x < y)).length < n := by
  induction l generalizing n with
  | nil => simp at hx
  | cons a l ih =>
    rw [List.pairwise_cons] at hs
    rcases List.mem_cons.1 hx with rfl | hx
    · have : (x :: l).filter (fun y => decide (x < y)) = [] := by
        rw [List.filter_eq_nil_iff]
        intro y hy
        rcases List.mem_cons.1 hy with rfl | hy
        · simp
        · simpa using le_of_lt (hs.1 y hy)
      rw [this]
      cases n <;> simp
    · have hxa := hs.1 x hx
      rw [List.filter_cons_of_pos (by simpa using hxa), List.length_cons]
      cases n with
      | zero => simp
      | succ n =>
        rw [List.take_succ_cons, List.mem_cons, ih hs.2 n hx]
        constructor
        · rintro (rfl | h)
          · exact absurd hxa (lt_irrefl _)
          · omega
        · intro h; right; omega

/-- **C35.** `largest_elements(xs, key, n)` is the sublist of `xs`, in order, of the elements whose key has fewer than `n` distinct
keys above it. -/
theorem c35_spec {α K : Type} [LinearOrder K] (xs : List α) (key : α → K) (n : Nat) :
    largestElements xs key n =
      xs.filter fun el => decide (((xs.map key).toFinset.filter fun k => key el < k).card < n) := by
  unfold largestElements
  apply List.filter_congr
  intro el hel
  rw [Bool.eq_iff_iff, decide_eq_true_eq, decide_eq_true_eq]
  unfold nlargest
  set l := (xs.map key).dedup.insertionSort (fun a b => b ≤ a) with hl
  have hperm : l.Perm (xs.map key).dedup := List.perm_insertionSort _ _
  have hnd : l.Nodup := hperm.nodup_iff.2 (List.nodup_dedup _)
  have hs : l.Pairwise fun a b => b < a := by
    have h1 : l.Pairwise fun a b => b ≤ a := List.pairwise_insertionSort _ _
    refine (h1.and hnd).imp ?_
    rintro a b ⟨h1, h2⟩
    exact lt_of_le_of_ne h1 (Ne.symm h2)
  have hx : key el ∈ l := by
    rw [hperm.mem_iff, List.mem_dedup]
    exact List.mem_map.2 ⟨el, hel, rfl⟩
  rw [take_iff_count l hs n (key el) hx]
  have : (l.filter fun y => decide (key el < y)).length = ((xs.map key).toFinset.filter fun k => key el < k).card := by
    rw [← List.toFinset_card_of_nodup (hnd.filter _)]
    congr 1
    ext k
    simp [hperm.mem_iff]
  rw [this]

/-- With `n = 1`: exactly the elements with the largest key. -/
theorem c35_top {α K : Type} [LinearOrder K] (xs : List α) (key : α → K) (el : α) :
    el ∈ largestElements xs key 1 ↔ el ∈ xs ∧ ∀ y ∈ xs, key y ≤ key el := by
  rw [c35_spec, List.mem_filter, decide_eq_true_eq, Nat.lt_one_iff, Finset.card_eq_zero, Finset.filter_eq_empty_iff]
  simp only [List.mem_toFinset, List.mem_map, forall_exists_index, and_imp, forall_apply_eq_imp_iff₂, not_lt]

/-- It keeps at most one element per position: a sublist. -/
theorem c35_sublist {α K : Type} [LinearOrder K] (xs : List α) (key : α → K) (n : Nat) : (largestElements xs key n).Sublist xs :=
  List.filter_sublist

example : largestElements [(-4 : Int), 3, 5, 7, 4, -7] Int.natAbs 2 = [5, 7, -7] := by decide +kernel

end Verif
