/-
Lemmas about the estimation of P(t|w).
-/
import Verif.Model.Prob
import Verif.Lemmas.Run
import Verif.Lemmas.PyDict

namespace Verif

/-! ### Counting -/

theorem keys_dictSet_iff {α β : Type} [DecidableEq α] (k : α) (v : β) (d : List (α × β)) (x : α) :
    x ∈ (dictSet k v d).map Prod.fst ↔ x = k ∨ x ∈ d.map Prod.fst := by
  rw [← dictGet_isSome_iff, ← dictGet_isSome_iff]
  simp only [dictGet_dictSet]
  by_cases h : x = k <;> simp [h]

theorem FreqDist.n_dictSet (fd : FreqDist) (g : Grams) : FreqDist.n (dictSet g ((dictGet g fd).getD 0 + 1) fd) = fd.n + 1 := by
  induction fd with
  | nil => rfl
  | cons e fd ih =>
    obtain ⟨k, v⟩ := e
    unfold FreqDist.n at *
    by_cases h : k = g
    · simp [dictSet, dictGet, h]; omega
    · simp only [dictSet, dictGet, h, if_false, List.map_cons, List.sum_cons, ih]; omega

/-- What the frequency table says about the observations. -/
structure CondFreqOk (cfd : List (Str × FreqDist)) (obs : List (Str × Grams)) : Prop where
  keysNodup : (cfd.map Prod.fst).Nodup
  keys : ∀ w, w ∈ cfd.map Prod.fst ↔ ∃ g, (w, g) ∈ obs
  nodup : ∀ w fd, dictGet w cfd = some fd → (fd.map Prod.fst).Nodup
  samples : ∀ w fd, dictGet w cfd = some fd → ∀ g, g ∈ fd.map Prod.fst ↔ (w, g) ∈ obs
  count : ∀ w fd, dictGet w cfd = some fd → ∀ g, (dictGet g fd).getD 0 = obs.count (w, g)
  total : ∀ w fd, dictGet w cfd = some fd → fd.n = obs.countP fun e => decide (e.1 = w)

theorem condFreq_ok (obs : List (Str × Grams)) : CondFreqOk (condFreq obs) obs := by
  suffices H : ∀ (obs' obs : List (Str × Grams)) cfd, CondFreqOk cfd obs → CondFreqOk (obs'.foldl (fun cfd e =>
      let fd := (dictGet e.1 cfd).getD []
      dictSet e.1 (dictSet e.2 ((dictGet e.2 fd).getD 0 + 1) fd) cfd) cfd) (obs ++ obs') from by
    have := H obs [] [] ⟨by simp, by simp, by simp [dictGet], by simp [dictGet], by simp [dictGet], by simp [dictGet]⟩
    simpa [condFreq] using this
  intro obs'
  induction obs' with
  | nil => intro obs cfd h; simpa using h
  | cons e obs' ih =>
    intro obs cfd h
    obtain ⟨w, g⟩ := e
    have hstep : CondFreqOk (dictSet w (dictSet g ((dictGet g ((dictGet w cfd).getD [])).getD 0 + 1) ((dictGet w cfd).getD [])) cfd)
        (obs ++ [(w, g)]) := by
      have hnone : dictGet w cfd = none → ∀ g, (w, g) ∉ obs := by
        intro hn g hg
        exact (dictGet_none_iff w cfd).1 hn ((h.keys w).2 ⟨g, hg⟩)
      refine ⟨keys_dictSet_nodup _ _ _ h.keysNodup, ?_, ?_, ?_, ?_, ?_⟩
      · intro w'
        rw [keys_dictSet_iff, h.keys]
        simp only [List.mem_append, List.mem_singleton, Prod.mk.injEq]
        constructor
        · rintro (rfl | ⟨g', hg'⟩)
          · exact ⟨g, .inr ⟨rfl, rfl⟩⟩
          · exact ⟨g', .inl hg'⟩
        · rintro ⟨g', hg' | ⟨rfl, rfl⟩⟩
          · exact .inr ⟨g', hg'⟩
          · exact .inl rfl
      · intro w' fd hfd
        rw [dictGet_dictSet] at hfd
        split at hfd
        · obtain rfl := Option.some.inj hfd
          apply keys_dictSet_nodup
          cases hg : dictGet w cfd with
          | none => simp
          | some fd0 => exact h.nodup w fd0 hg
        · exact h.nodup w' fd hfd
      · intro w' fd hfd g'
        rw [dictGet_dictSet] at hfd
        split at hfd
        · next hw =>
          subst hw
          obtain rfl := Option.some.inj hfd
          rw [keys_dictSet_iff]
          simp only [List.mem_append, List.mem_singleton, Prod.mk.injEq, true_and]
          cases hg : dictGet w' cfd with
          | none => simp [hnone hg]
          | some fd0 => simp only [Option.getD_some, h.samples w' fd0 hg]; exact or_comm
        · next hw =>
          rw [h.samples w' fd hfd]
          simp [hw]
      · intro w' fd hfd g'
        rw [dictGet_dictSet] at hfd
        rw [List.count_append]
        split at hfd
        · next hw =>
          subst hw
          obtain rfl := Option.some.inj hfd
          have hc : ∀ x, (dictGet x ((dictGet w' cfd).getD [])).getD 0 = obs.count (w', x) := by
            intro x
            cases hg : dictGet w' cfd with
            | none => simp [dictGet, List.count_eq_zero.2 (hnone hg x)]
            | some fd0 => exact h.count w' fd0 hg x
          rw [dictGet_dictSet]
          by_cases hx : g' = g
          · subst hx; simp [hc]
          · rw [if_neg hx, hc]
            have : ((w', g) == (w', g')) = false := by simp [Ne.symm hx]
            simp [List.count_cons, this]
        · next hw =>
          rw [h.count w' fd hfd g']
          have : ((w, g) == (w', g')) = false := by simp [Ne.symm hw]
          simp [List.count_cons, this]
      · intro w' fd hfd
        rw [dictGet_dictSet] at hfd
        rw [List.countP_append]
        split at hfd
        · next hw =>
          subst hw
          obtain rfl := Option.some.inj hfd
          rw [FreqDist.n_dictSet]
          cases hg : dictGet w' cfd with
          | none =>
            have : obs.countP (fun e => decide (e.1 = w')) = 0 := by
              rw [List.countP_eq_zero]
              intro e he hw
              exact hnone hg e.2 (by simp only [decide_eq_true_eq] at hw; rw [← hw]; exact he)
            simp [this, FreqDist.n]
          | some fd0 => simp [h.total w' fd0 hg]
        · next hw =>
          rw [h.total w' fd hfd]
          have : (w = w') = False := eq_false (Ne.symm hw)
          simp [List.countP_cons, this]
    have := ih (obs ++ [(w, g)]) _ hstep
    simpa using this

theorem condFreq_bins {obs : List (Str × Grams)} {w : Str} {fd : FreqDist} (h : dictGet w (condFreq obs) = some fd) (gs : Finset Grams)
    (hgs : ∀ g, g ∈ gs ↔ (w, g) ∈ obs) : fd.length = gs.card := by
  have hok := condFreq_ok obs
  have h1 := hok.nodup w fd h
  have h2 : (fd.map Prod.fst).toFinset = gs := by
    ext g; rw [List.mem_toFinset, hok.samples w fd h, hgs]
  rw [← h2, List.toFinset_card_of_nodup h1, List.length_map]

/-! ### Tags as dictionary keys -/

theorem Tag.eqv_grammemes {a b : Tag} (h : a.eqv b = true) : a.grammemes = b.grammemes := by
  unfold Tag.eqv at h
  unfold Tag.grammemes
  rw [eq_of_beq h]

/-- The first tag of each kind. -/
def firstTags (ts : List Tag) : List Tag := ts.foldl (fun l t => if l.any (·.eqv t) then l else l ++ [t]) []

theorem tagSet_map {V : Type} (f : Tag → V) (hf : ∀ a b, a.eqv b = true → f a = f b) (t : Tag) (l : List Tag) :
    tagSet t (f t) (l.map fun t => (t, f t)) = (if l.any (·.eqv t) then l else l ++ [t]).map fun t => (t, f t) := by
  induction l with
  | nil => rfl
  | cons a l ih =>
    simp only [List.map_cons, tagSet, List.any_cons]
    by_cases h : a.eqv t = true
    · simp [h, hf a t h]
    · simp only [h, if_false, Bool.false_or, Bool.not_eq_true _ ▸ h]
      rw [ih]
      simp only [Bool.not_eq_true] at h
      simp only [h, Bool.false_or, Bool.false_eq_true, if_false]
      split <;> simp

theorem tagFold_eq {V : Type} (f : Tag → V) (hf : ∀ a b, a.eqv b = true → f a = f b) (ts : List Tag) :
    ts.foldl (fun d t => tagSet t (f t) d) [] = (firstTags ts).map fun t => (t, f t) := by
  suffices H : ∀ (ts l : List Tag), ts.foldl (fun d t => tagSet t (f t) d) (l.map fun t => (t, f t)) =
      (ts.foldl (fun l t => if l.any (·.eqv t) then l else l ++ [t]) l).map fun t => (t, f t) from H ts []
  intro ts
  induction ts with
  | nil => intro l; rfl
  | cons t ts ih => intro l; rw [List.foldl_cons, List.foldl_cons, tagSet_map f hf, ih]

/-- `t` is the first tag of its kind in the list. -/
def FirstTag (ts : List Tag) (t : Tag) : Prop := ∃ pre post, ts = pre ++ t :: post ∧ ∀ t' ∈ pre, t'.eqv t = false

theorem firstTags_snoc (ts : List Tag) (t : Tag) : firstTags (ts ++ [t]) = if (firstTags ts).any (·.eqv t) then firstTags ts else firstTags ts ++ [t] := by
  unfold firstTags; rw [List.foldl_append]; rfl

theorem Tag.eqv_refl (a : Tag) : a.eqv a = true := by simp [Tag.eqv]
theorem Tag.eqv_iff (a b : Tag) : a.eqv b = true ↔ a.tuple = b.tuple := by simp [Tag.eqv]

theorem firstTags_spec (ts : List Tag) :
    (∀ t, t ∈ firstTags ts ↔ FirstTag ts t) ∧ (firstTags ts).Pairwise (fun a b => a.eqv b = false) ∧ ∀ t ∈ ts, ∃ t' ∈ firstTags ts, t'.eqv t = true := by
  induction ts using List.reverseRecOn with
  | nil => exact ⟨by simp [firstTags, FirstTag], List.Pairwise.nil, by simp⟩
  | append_singleton ts a ih =>
    obtain ⟨h1, h2, h3⟩ := ih
    have key : ∀ t, FirstTag (ts ++ [a]) t ↔ FirstTag ts t ∨ (t = a ∧ ∀ t' ∈ ts, t'.eqv a = false) := by
      intro t
      constructor
      · rintro ⟨pre, post, he, hp⟩
        rcases List.eq_nil_or_concat post with rfl | ⟨post', b, rfl⟩
        · have h : ts ++ [a] = pre ++ [t] := he
          obtain ⟨rfl, h⟩ := List.append_inj' h rfl
          right; exact ⟨by simpa using h.symm, by rw [show a = t from by simpa using h]; exact hp⟩
        · left
          have h : ts ++ [a] = (pre ++ t :: post') ++ [b] := by rw [he]; simp
          obtain ⟨rfl, _⟩ := List.append_inj' h rfl
          exact ⟨pre, post', rfl, hp⟩
      · rintro (⟨pre, post, rfl, hp⟩ | ⟨rfl, hp⟩)
        · exact ⟨pre, post ++ [a], by simp, hp⟩
        · exact ⟨ts, [], rfl, hp⟩
    rw [firstTags_snoc]
    split
    · next hany =>
      obtain ⟨b, hb, hba⟩ := List.any_eq_true.1 hany
      refine ⟨fun t => ?_, h2, ?_⟩
      · rw [h1, key]
        constructor
        · exact .inl
        · rintro (h | ⟨_, h⟩)
          · exact h
          · obtain ⟨pre, post, he, _⟩ := (h1 b).1 hb
            have := h b (by rw [he]; simp)
            rw [hba] at this; simp at this
      · intro t ht
        rcases List.mem_append.1 ht with ht | ht
        · exact h3 t ht
        · rw [List.mem_singleton.1 ht]; exact ⟨b, hb, hba⟩
    · next hany =>
      have hno : ∀ t' ∈ ts, t'.eqv a = false := by
        intro t' ht'
        obtain ⟨b, hb, hbt⟩ := h3 t' ht'
        cases hx : t'.eqv a with
        | false => rfl
        | true =>
          exact absurd (List.any_eq_true.2 ⟨b, hb, by rw [Tag.eqv_iff] at *; rw [hbt, hx]⟩) hany
      refine ⟨fun t => ?_, ?_, ?_⟩
      · rw [key, List.mem_append, h1, List.mem_singleton]
        constructor
        · rintro (h | h)
          · exact .inl h
          · exact .inr ⟨h, hno⟩
        · rintro (h | ⟨h, _⟩)
          · exact .inl h
          · exact .inr h
      · rw [List.pairwise_append]
        refine ⟨h2, List.pairwise_singleton _ _, ?_⟩
        intro x hx y hy
        rw [List.mem_singleton.1 hy]
        cases hxa : x.eqv a with
        | false => rfl
        | true => exact absurd (List.any_eq_true.2 ⟨x, hx, hxa⟩) hany
      · intro t ht
        rcases List.mem_append.1 ht with ht | ht
        · obtain ⟨t', h, h'⟩ := h3 t ht; exact ⟨t', by simp [h], h'⟩
        · rw [List.mem_singleton.1 ht]; exact ⟨a, by simp, Tag.eqv_refl a⟩

end Verif
