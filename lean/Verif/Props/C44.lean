/-
C44: caches never change the output.  C54: the memoising decorator.
-/
import Verif.Model.Cli
import Verif.Lemmas.PyDict
import Verif.Lemmas.Run
import Verif.Demo

set_option linter.unusedSectionVars false

namespace Verif

/-! ### C54 -/

section
variable {α β : Type} [DecidableEq α]

/-- Specification: what a call must return: the value put into the cache beforehand, else the value of the function. -/
def memoValue (f : α → Except PyErr β) (c0 : List (α × β)) (a : α) : Except PyErr β :=
  match dictGet a c0 with
  | some v => .ok v
  | none => f a

theorem memoRun_spec (f : α → Except PyErr β) (c0 : List (α × β)) (as : List α) : ∀ c : List (α × β),
    (∀ a, memoValue f c a = memoValue f c0 a) → (∀ a v, dictGet a c0 = some v → dictGet a c = some v) →
    (memoRun f as c).1 = as.map (memoValue f c0) ∧
    (∀ a, dictGet a (memoRun f as c).2.1 = (dictGet a c).or (if a ∈ as then (f a).toOption else none)) ∧
    (∀ a ∈ (memoRun f as c).2.2, a ∈ as ∧ dictGet a c = none) ∧
    (∀ a v, f a = .ok v → (memoRun f as c).2.2.count a = if a ∈ as ∧ dictGet a c = none then 1 else 0) := by
  induction as with
  | nil => intro c h1 h2; simp [memoRun]
  | cons a as ih =>
    intro c h1 h2
    have ha := h1 a
    cases hg : dictGet a c with
    | some v =>
      have hcall : memoCall f a c = ⟨.ok v, c, []⟩ := by unfold memoCall; rw [hg]
      obtain ⟨i1, i2, i3, i4⟩ := ih c h1 h2
      simp only [memoRun, hcall, List.nil_append, List.map_cons]
      refine ⟨?_, ?_, ?_, ?_⟩
      · rw [i1, ← ha]; simp [memoValue, hg]
      · intro b
        rw [i2 b]
        by_cases hb : b = a
        · subst hb; rw [hg]; rfl
        · simp [hb]
      · intro b hb
        exact ⟨by simp [(i3 b hb).1], (i3 b hb).2⟩
      · intro b w hw
        rw [i4 b w hw]
        by_cases hb : b = a
        · subst hb; simp [hg]
        · simp [hb]
    | none =>
      have h0 : dictGet a c0 = none := by
        cases h : dictGet a c0 with
        | none => rfl
        | some v => rw [h2 a v h] at hg; cases hg
      cases hf : f a with
      | error e =>
        have hcall : memoCall f a c = ⟨.error e, c, [a]⟩ := by unfold memoCall; rw [hg]; simp only [hf]
        obtain ⟨i1, i2, i3, i4⟩ := ih c h1 h2
        simp only [memoRun, hcall, List.cons_append, List.nil_append, List.map_cons]
        refine ⟨?_, ?_, ?_, ?_⟩
        · rw [i1]; simp [memoValue, h0, hf]
        · intro b
          rw [i2 b]
          by_cases hb : b = a
          · subst hb; rw [hg, hf]; simp [Except.toOption]
          · simp [hb]
        · intro b hb
          rcases List.mem_cons.1 hb with rfl | hb
          · exact ⟨by simp, hg⟩
          · exact ⟨by simp [(i3 b hb).1], (i3 b hb).2⟩
        · intro b w hw
          have hb : b ≠ a := by rintro rfl; rw [hf] at hw; cases hw
          rw [List.count_cons_of_ne (fun h => hb h.symm), i4 b w hw]
          simp [hb]
      | ok v =>
        have hcall : memoCall f a c = ⟨.ok v, dictSet a v c, [a]⟩ := by unfold memoCall; rw [hg]; simp only [hf]
        obtain ⟨i1, i2, i3, i4⟩ := ih (dictSet a v c) (by
          intro b
          by_cases hb : b = a
          · subst hb; simp [memoValue, dictGet_dictSet_self, h0, hf]
          · rw [← h1 b]; simp [memoValue, dictGet_dictSet_ne hb]) (by
          intro b w hw
          by_cases hb : b = a
          · subst hb; rw [h0] at hw; cases hw
          · rw [dictGet_dictSet_ne hb]; exact h2 b w hw)
        simp only [memoRun, hcall, List.cons_append, List.nil_append, List.map_cons]
        refine ⟨?_, ?_, ?_, ?_⟩
        · rw [i1]; simp [memoValue, h0, hf]
        · intro b
          rw [i2 b]
          by_cases hb : b = a
          · subst hb; rw [dictGet_dictSet_self, hg, hf]; simp [Except.toOption]
          · rw [dictGet_dictSet_ne hb]; simp [hb]
        · intro b hb
          rcases List.mem_cons.1 hb with rfl | hb
          · exact ⟨by simp, hg⟩
          · obtain ⟨j1, j2⟩ := i3 b hb
            have : b ≠ a := by rintro rfl; rw [dictGet_dictSet_self] at j2; cases j2
            rw [dictGet_dictSet_ne this] at j2
            exact ⟨by simp [j1], j2⟩
        · intro b w hw
          by_cases hb : b = a
          · subst hb
            rw [List.count_cons_self, i4 b w hw, dictGet_dictSet_self]
            simp [hg]
          · rw [List.count_cons_of_ne (fun h => hb h.symm), i4 b w hw, dictGet_dictSet_ne hb]
            simp [hb]

/-- **C54.** For every initial cache and every history of calls, each call returns the value that was in the cache beforehand, or the value
(or the exception) of the function. -/
theorem c54_values (f : α → Except PyErr β) (c0 : List (α × β)) (as : List α) :
    (memoRun f as c0).1 = as.map fun a => match dictGet a c0 with
      | some v => .ok v
      | none => f a := (memoRun_spec f c0 as c0 (fun _ => rfl) fun _ _ h => h).1

/-- **C54.** The function is never called for an argument that was cached beforehand or that it has not been asked for, and it is called
exactly once for every other argument for which it returns (a call that raises is repeated). -/
theorem c54_calls (f : α → Except PyErr β) (c0 : List (α × β)) (as : List α) :
    (∀ a ∈ (memoRun f as c0).2.2, a ∈ as ∧ dictGet a c0 = none) ∧
    ∀ a v, f a = .ok v → (memoRun f as c0).2.2.count a = if a ∈ as ∧ dictGet a c0 = none then 1 else 0 :=
  (memoRun_spec f c0 as c0 (fun _ => rfl) fun _ _ h => h).2.2

/-- **C54.** The cache ends with its old entries and one for every argument the function was asked for and has a value for. -/
theorem c54_cache (f : α → Except PyErr β) (c0 : List (α × β)) (as : List α) (a : α) :
    dictGet a (memoRun f as c0).2.1 = (dictGet a c0).or (if a ∈ as then (f a).toOption else none) :=
  (memoRun_spec f c0 as c0 (fun _ => rfl) fun _ _ h => h).2.1 a

/-- **C44.** Starting from an empty cache the decorated function is indistinguishable from the function, for every history of calls. -/
theorem c44_memo (f : α → Except PyErr β) (as : List α) : (memoRun f as []).1 = as.map f := c54_values f [] as

/-- The doctest of cache.py, and a function that raises. -/
example : memoRun (fun x : Nat => if x = 0 then Except.error .zeroDivisionError else .ok (x * 2)) [2, 3, 0, 3, 0, 2] [(2, 6)] =
    ([.ok 6, .ok 6, .error .zeroDivisionError, .ok 6, .error .zeroDivisionError, .ok 6], [(2, 6), (3, 6)], [3, 0, 0]) := by
  decide +kernel

/-! ### LRU caches -/

theorem lruCall_sound (n : Nat) (f : α → Except PyErr β) (a : α) (c : List (α × β)) (hc : ∀ e ∈ c, f e.1 = .ok e.2) :
    (lruCall n f a c).1 = f a ∧ ∀ e ∈ (lruCall n f a c).2, f e.1 = .ok e.2 := by
  unfold lruCall
  cases hg : dictGet a c with
  | some v =>
    have := hc _ (dictGet_mem' a c v hg)
    refine ⟨this.symm, ?_⟩
    intro e he
    rcases List.mem_cons.1 he with rfl | he
    · exact this
    · exact hc e (List.mem_of_mem_filter he)
  | none =>
    simp only
    cases hf : f a with
    | error e => exact ⟨rfl, hc⟩
    | ok v =>
      refine ⟨rfl, ?_⟩
      intro e he
      rcases List.mem_cons.1 (List.mem_of_mem_take he) with rfl | he
      · exact hf
      · exact hc e he

theorem lruCall_bound (n : Nat) (f : α → Except PyErr β) (a : α) (c : List (α × β)) (hn : (c.map Prod.fst).Nodup) (hc : c.length ≤ n) :
    ((lruCall n f a c).2.map Prod.fst).Nodup ∧ (lruCall n f a c).2.length ≤ n := by
  unfold lruCall
  cases hg : dictGet a c with
  | some v =>
    simp only
    have hlt : (c.filter fun e => e.1 ≠ a).length < c.length := by
      rw [List.length_filter_lt_length_iff_exists]
      exact ⟨_, dictGet_mem' a c v hg, by simp⟩
    refine ⟨?_, by simp only [List.length_cons]; omega⟩
    rw [List.map_cons, List.nodup_cons]
    refine ⟨?_, hn.sublist ((List.filter_sublist).map _)⟩
    intro hm
    obtain ⟨e, he, hea⟩ := List.mem_map.1 hm
    have := (List.mem_filter.1 he).2
    simp [hea] at this
  | none =>
    simp only
    cases hf : f a with
    | error e => exact ⟨hn, hc⟩
    | ok v =>
      refine ⟨?_, by simp only [List.length_take]; omega⟩
      refine List.Nodup.sublist ((List.take_sublist _ _).map _) ?_
      rw [List.map_cons, List.nodup_cons]
      exact ⟨(dictGet_none_iff a c).1 hg, hn⟩

end

/-! ### C44: the command -/

/-- Any way of caching whose calls return the function's value, starting from a good state, is transparent. -/
theorem writeLoop_transparent {σ : Type} (call : Str → σ → Except PyErr Str × σ) (f : Str → Except PyErr Str) (good : σ → Prop)
    (h : ∀ t s, good s → (call t s).1 = f t ∧ good (call t s).2) (ts : List Str) : ∀ s, good s →
    writeLoop call ts s = writeLoop (fun t (_ : Unit) => (f t, ())) ts () := by
  induction ts with
  | nil => intro s _; rfl
  | cons t ts ih =>
    intro s hs
    obtain ⟨h1, h2⟩ := h t s hs
    unfold writeLoop
    cases hc : call t s with
    | mk o s' =>
      rw [hc] at h1 h2
      simp only at h1 h2
      subst h1
      cases hf : f t with
      | error e => rfl
      | ok chunk => simp only [ih s' h2]

theorem cachedCall_sound (c : CacheArg) (f : Str → Except PyErr Str) (t : Str) (s : List (Str × Str)) (hs : ∀ e ∈ s, f e.1 = .ok e.2) :
    (cachedCall c f t s).1 = f t ∧ ∀ e ∈ (cachedCall c f t s).2, f e.1 = .ok e.2 := by
  cases c with
  | unlim =>
    unfold cachedCall memoCall
    simp only
    cases hg : dictGet t s with
    | some v => exact ⟨(hs _ (dictGet_mem' t s v hg)).symm, hs⟩
    | none =>
      simp only
      cases hf : f t with
      | error e => exact ⟨rfl, hs⟩
      | ok v =>
        refine ⟨rfl, ?_⟩
        intro e he
        simp only at he
        rw [keys_dictSet_not_mem t v s ((dictGet_none_iff t s).1 hg)] at he
        rcases List.mem_append.1 he with he | he
        · exact hs e he
        · rw [List.mem_singleton] at he; subst he; exact hf
  | size n =>
    unfold cachedCall
    by_cases hn : n = 0
    · simp only [hn, if_true]; exact ⟨trivial, hs⟩
    · simp only [hn, if_false]; exact lruCall_sound _ f t s hs

variable {S : Type} [Score S]

/-- **C44.** What the `parse` command writes, and how it ends, does not depend on `--cache`: for every analyzer, every options, every input
and every two cache settings. -/
theorem c44_cli (isWord : Char → Bool) (fmt : S → Str) (m : Morph S) (o : CliOpts S) (tokenize : Bool) (c c' : CacheArg) (lines : List Str) :
    cliParse isWord fmt m o tokenize c lines = cliParse isWord fmt m o tokenize c' lines := by
  unfold cliParse
  rw [writeLoop_transparent _ (formatToken fmt m o) _ (fun t s hs => cachedCall_sound c _ t s hs) _ [] (by simp),
    writeLoop_transparent _ (formatToken fmt m o) _ (fun t s hs => cachedCall_sound c' _ t s hs) _ [] (by simp)]

/-- The calls of an LRU cache, one after the other. -/
def lruRun {α β : Type} [DecidableEq α] (n : Nat) (f : α → Except PyErr β) : List α → List (α × β) → List (Except PyErr β) × List (α × β)
  | [], c => ([], c)
  | a :: as, c =>
    let r := lruCall n f a c
    let rest := lruRun n f as r.2
    (r.1 :: rest.1, rest.2)

/-- **C44.** An LRU cache of any size is transparent for every history of calls and never holds more than `n` entries. -/
theorem c44_lru {α β : Type} [DecidableEq α] (n : Nat) (f : α → Except PyErr β) (as : List α) :
    (lruRun n f as []).1 = as.map f ∧ (lruRun n f as []).2.length ≤ n := by
  have : ∀ (as : List α) (c : List (α × β)), (∀ e ∈ c, f e.1 = .ok e.2) → (c.map Prod.fst).Nodup → c.length ≤ n →
      (lruRun n f as c).1 = as.map f ∧ (lruRun n f as c).2.length ≤ n := by
    intro as
    induction as with
    | nil => intro c _ _ h; exact ⟨rfl, h⟩
    | cons a as ih =>
      intro c h1 h2 h3
      obtain ⟨j1, j2⟩ := lruCall_sound n f a c h1
      obtain ⟨j3, j4⟩ := lruCall_bound n f a c h2 h3
      obtain ⟨k1, k2⟩ := ih _ j2 j3 j4
      exact ⟨by simp [lruRun, j1, k1], k2⟩
  exact this as [] (by simp) (by simp) (by simp)

/-- An LRU cache of size 1 that has to forget. -/
example : lruRun 1 (fun x : Nat => Except.ok (x * 2)) [1, 2, 1, 1] [] = ([.ok 2, .ok 4, .ok 2, .ok 2], [(1, 2)]) := by decide +kernel

end Verif
