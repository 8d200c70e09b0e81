/-
Facts about Python dictionaries as association lists.
-/
import Verif.Model.Compile

namespace Verif
variable {α β : Type} [DecidableEq α]

theorem dictGet_dictSet (k k' : α) (v : β) (d : List (α × β)) :
    dictGet k' (dictSet k v d) = if k' = k then some v else dictGet k' d := by
  induction d with
  | nil => by_cases h : k = k' <;> simp [dictSet, dictGet, h, eq_comm (a := k')]
  | cons e d ih =>
    obtain ⟨a, b⟩ := e
    unfold dictSet
    by_cases ha : a = k
    · subst ha
      by_cases h : k' = a
      · subst h; simp [dictGet]
      · have : ¬ a = k' := fun e => h e.symm
        simp [dictGet, h, this]
    · rw [if_neg ha]
      by_cases h : a = k'
      · subst h; simp [dictGet, ha]
      · simp only [dictGet, if_neg h, ih]

theorem dictGet_dictSet_self (k : α) (v : β) (d : List (α × β)) : dictGet k (dictSet k v d) = some v := by
  simp [dictGet_dictSet]

theorem dictGet_dictSet_ne {k k' : α} (h : k' ≠ k) (v : β) (d : List (α × β)) : dictGet k' (dictSet k v d) = dictGet k' d := by
  simp [dictGet_dictSet, h]

theorem dictGet_none_iff (k : α) (d : List (α × β)) : dictGet k d = none ↔ k ∉ d.map Prod.fst := by
  induction d with
  | nil => simp [dictGet]
  | cons e d ih =>
    obtain ⟨a, b⟩ := e
    unfold dictGet
    by_cases h : a = k
    · simp [h]
    · rw [if_neg h, ih]; simp [eq_comm (a := k), h]

theorem dictGet_isSome_iff (k : α) (d : List (α × β)) : (∃ v, dictGet k d = some v) ↔ k ∈ d.map Prod.fst := by
  have := dictGet_none_iff k d
  cases h : dictGet k d with
  | none => simp [h] at this; simp [this]
  | some v => simp [h] at this; simp [this]

theorem dictGet_mem' (k : α) (d : List (α × β)) (v : β) (h : dictGet k d = some v) : (k, v) ∈ d := by
  induction d with
  | nil => simp [dictGet] at h
  | cons e d ih =>
    obtain ⟨a, b⟩ := e
    unfold dictGet at h
    split at h
    · next ha => simp at h; simp [ha, h]
    · simp [ih h]

theorem dictGet_of_mem (k : α) (d : List (α × β)) (v : β) (hn : (d.map Prod.fst).Nodup) (h : (k, v) ∈ d) : dictGet k d = some v := by
  induction d with
  | nil => simp at h
  | cons e d ih =>
    obtain ⟨a, b⟩ := e
    simp only [List.map_cons, List.nodup_cons] at hn
    unfold dictGet
    rcases List.mem_cons.1 h with h | h
    · simp only [Prod.mk.injEq] at h; simp [h.1, h.2]
    · split
      · next ha => exact absurd (List.mem_map_of_mem (f := Prod.fst) h) (by simpa [← ha] using hn.1)
      · exact ih hn.2 h

/-- Overwriting an existing key keeps the keys in place. -/
theorem keys_dictSet_mem (k : α) (v : β) (d : List (α × β)) (h : k ∈ d.map Prod.fst) :
    (dictSet k v d).map Prod.fst = d.map Prod.fst := by
  induction d with
  | nil => simp at h
  | cons e d ih =>
    obtain ⟨a, b⟩ := e
    unfold dictSet
    split
    · simp
    · next ha =>
      have : k ∈ d.map Prod.fst := by simpa [eq_comm (a := k), ha] using h
      simp [ih this]

theorem keys_dictSet_not_mem (k : α) (v : β) (d : List (α × β)) (h : k ∉ d.map Prod.fst) : dictSet k v d = d ++ [(k, v)] := by
  induction d with
  | nil => simp [dictSet]
  | cons e d ih =>
    obtain ⟨a, b⟩ := e
    simp only [List.map_cons, List.mem_cons, not_or] at h
    unfold dictSet
    rw [if_neg (fun e => h.1 e.symm), ih h.2]; simp

theorem keys_dictSet_nodup (k : α) (v : β) (d : List (α × β)) (hn : (d.map Prod.fst).Nodup) : ((dictSet k v d).map Prod.fst).Nodup := by
  by_cases h : k ∈ d.map Prod.fst
  · rwa [keys_dictSet_mem k v d h]
  · rw [keys_dictSet_not_mem k v d h]
    simp only [List.map_append, List.map_cons, List.map_nil, List.nodup_append, List.nodup_cons, List.not_mem_nil, not_false_eq_true,
      List.nodup_nil, and_true]
    exact ⟨hn, trivial, by intro a ha b hb; simp at hb; subst hb; exact fun e => h (e ▸ ha)⟩

theorem dictAt_ok_iff (k : α) (d : List (α × β)) (v : β) : dictAt k d = .ok v ↔ dictGet k d = some v := by
  unfold dictAt; cases dictGet k d <;> simp

/-- A table built by `dict((x, i) for i, x in enumerate(l))` gives positions of `l`, and has every element of `l`. -/
theorem enumDict_spec (l : List Str) (x : Str) :
    (∀ i, dictGet x (enumDict l) = some i → l[i]? = some x) ∧ (x ∈ l → ∃ i, dictGet x (enumDict l) = some i) := by
  suffices H : ∀ (l : List Str) (n : Nat) (d : List (Str × Nat)),
      (∀ i, dictGet x ((l.zipIdx n).foldl (fun d xi => dictSet xi.1 xi.2 d) d) = some i →
        dictGet x d = some i ∨ (n ≤ i ∧ l[i - n]? = some x)) ∧
      ((x ∈ l ∨ ∃ i, dictGet x d = some i) → ∃ i, dictGet x ((l.zipIdx n).foldl (fun d xi => dictSet xi.1 xi.2 d) d) = some i) by
    obtain ⟨h1, h2⟩ := H l 0 []
    refine ⟨fun i hi => ?_, fun hx => h2 (.inl hx)⟩
    rcases h1 i hi with h | h
    · simp [dictGet] at h
    · simpa using h.2
  intro l
  induction l with
  | nil => intro n d; simp
  | cons a l ih =>
    intro n d
    rw [List.zipIdx_cons, List.foldl_cons]
    obtain ⟨h1, h2⟩ := ih (n + 1) (dictSet a n d)
    refine ⟨fun i hi => ?_, fun hx => ?_⟩
    · rcases h1 i hi with h | h
      · rw [dictGet_dictSet] at h
        split at h
        · next hxa =>
          right
          simp only [Option.some.injEq] at h
          subst h; simp [hxa]
        · exact .inl h
      · right
        refine ⟨by omega, ?_⟩
        have : i - n = (i - (n + 1)) + 1 := by omega
        rw [this]; simpa using h.2
    · apply h2
      rcases hx with hx | ⟨i, hi⟩
      · rcases List.mem_cons.1 hx with rfl | hx
        · exact .inr ⟨n, dictGet_dictSet_self _ _ _⟩
        · exact .inl hx
      · right
        rw [dictGet_dictSet]
        split
        · exact ⟨n, rfl⟩
        · exact ⟨i, hi⟩

end Verif
