/-
Interleavings of threads that work under one lock are equivalent to running them one after another.
-/
import Verif.Model.Conc
import Verif.Lemmas.Conc
import Mathlib.Logic.Hydra

namespace Verif

variable {σ α : Type}

/-- A call on its own. -/
def callRun : Except PyErr (Prog σ α) → σ → Except PyErr α × σ
  | .error e, s => (.error e, s)
  | .ok p, s => p.run s

/-- Calls made one after another: from the first state, with this log (thread, call, result), to the last state. -/
inductive Sequential : σ → List (Nat × Except PyErr (Prog σ α) × Except PyErr α) → σ → Prop
  | nil (s : σ) : Sequential s [] s
  | snoc {s s' : σ} {log} (i : Nat) (call : Except PyErr (Prog σ α)) (h : Sequential s log s') :
    Sequential s (log ++ [(i, call, (callRun call s').1)]) (callRun call s').2

/-- A program that never writes. -/
inductive ReadOnly : Prog σ α → Prop
  | done (r) : ReadOnly (.done r)
  | act (u n) (hu : ∀ s, u s = s) (hn : ∀ s, ReadOnly (n s)) : ReadOnly (.act u n)

/-- What has become of a thread, given the log of finished calls, the state they left and the present state. -/
inductive Fate (log : List (Nat × Except PyErr (Prog σ α) × Except PyErr α)) (owner : Option Nat) (s0 st : σ) (i : Nat) :
    Option (Th σ α) → Option (Th σ α) → Prop
  | none : Fate log owner s0 st i none none
  | waiting (call) (h : i ∉ log.map Prod.fst) : Fate log owner s0 st i (some (.start call)) (some (.start call))
  | running (p0 p) (h : i ∉ log.map Prod.fst) (ho : owner = some i) (hr : p0.run s0 = p.run st) :
    Fate log owner s0 st i (some (.start (.ok p0))) (some (.inside p))
  | finished (call r) (h : (i, call, r) ∈ log) : Fate log owner s0 st i (some (.start call)) (some (.fin r))
  | free (p p') (h : ReadOnly p') : Fate log owner s0 st i (some (.free p)) (some (.free p'))
  | freeFin (p r) : Fate log owner s0 st i (some (.free p)) (some (.fin r))

/-- The invariant. -/
structure SerInv (ths0 : List (Th σ α)) (st0 : σ) (c : Cfg σ α) (log : List (Nat × Except PyErr (Prog σ α) × Except PyErr α)) (s0 : σ) : Prop where
  seq : Sequential st0 log s0
  nodup : (log.map Prod.fst).Nodup
  sub : ∀ e ∈ log, ths0[e.1]? = some (.start e.2.1) ∧ c.ths[e.1]? = some (.fin e.2.2)
  unlocked : c.owner = none → c.st = s0
  locked : ∀ j, c.owner = some j → ∃ p, c.ths[j]? = some (.inside p)
  fate : ∀ i, Fate log c.owner s0 c.st i ths0[i]? c.ths[i]?

/-- The threads as they start: calls, and users that only read. -/
def Starting (ths : List (Th σ α)) : Prop := ∀ t ∈ ths, (∃ call, t = .start call) ∨ ∃ p, t = .free p ∧ ReadOnly p

theorem SerInv.start {ths0 : List (Th σ α)} (h : Starting ths0) (st0 : σ) : SerInv ths0 st0 ⟨st0, none, ths0⟩ [] st0 where
  seq := .nil _
  nodup := List.nodup_nil
  sub := by simp
  unlocked := fun _ => rfl
  locked := by simp
  fate := by
    intro i
    dsimp only
    cases hi : ths0[i]? with
    | none => exact .none
    | some t =>
      rcases h t (List.mem_of_getElem? hi) with ⟨call, rfl⟩ | ⟨p, rfl, hp⟩
      · exact .waiting call (by simp)
      · exact .free p p hp

theorem Fate.transfer {log log' : List (Nat × Except PyErr (Prog σ α) × Except PyErr α)} {o o' : Option Nat} {s0 s0' st st' : σ} {k : Nat}
    {a b : Option (Th σ α)} (h : Fate log o s0 st k a b) (h1 : ∀ e ∈ log, e ∈ log') (h2 : k ∉ log.map Prod.fst → k ∉ log'.map Prod.fst)
    (h3 : ∀ (p0 p : Prog σ α), b = some (.inside p) → o = some k → p0.run s0 = p.run st → o' = some k ∧ p0.run s0' = p.run st') :
    Fate log' o' s0' st' k a b := by
  cases h with
  | none => exact .none
  | waiting call h => exact .waiting call (h2 h)
  | running p0 p h ho hr =>
    obtain ⟨h4, h5⟩ := h3 p0 p rfl ho hr
    exact .running p0 p (h2 h) h4 h5
  | finished call r h => exact .finished call r (h1 _ h)
  | free p p' h => exact .free p p' h
  | freeFin p r => exact .freeFin p r

theorem nodup_snoc {β γ : Type} {l : List (β × γ)} {i : β} (g : γ) (h : (l.map Prod.fst).Nodup) (hi : i ∉ l.map Prod.fst) :
    ((l ++ [(i, g)]).map Prod.fst).Nodup := by
  rw [List.map_append]
  refine List.nodup_append.2 ⟨h, by simp, fun a ha b hb => ?_⟩
  rw [List.map_singleton, List.mem_singleton] at hb
  subst hb
  rintro rfl
  exact hi ha

theorem not_mem_snoc {β γ : Type} {l : List (β × γ)} {i k : β} (g : γ) (hk : k ≠ i) (h : k ∉ l.map Prod.fst) :
    k ∉ (l ++ [(i, g)]).map Prod.fst := by
  rw [List.map_append, List.mem_append, List.map_singleton, List.mem_singleton]
  rintro (h' | h')
  · exact h h'
  · exact hk h'

theorem set_get {β : Type} (l : List β) (i k : Nat) (b x : β) (h : l[i]? = some x) : (l.set i b)[k]? = if k = i then some b else l[k]? := by
  rw [List.getElem?_set]
  split
  · rename_i e; subst e
    obtain ⟨hl, _⟩ := List.getElem?_eq_some_iff.1 h
    simp [hl]
  · rename_i e; rw [if_neg (fun h => e h.symm)]

theorem SerInv.step {ths0 : List (Th σ α)} {st0 : σ} {c c' : Cfg σ α} {log} {s0 : σ} (h : SerInv ths0 st0 c log s0) (hs : Step c c') :
    ∃ log' s0', SerInv ths0 st0 c' log' s0' ∧ ∃ l, log' = log ++ l := by
  -- the thread inside is the owner
  have uniq : ∀ i p, c.ths[i]? = some (.inside p) → c.owner = some i := by
    intro i p hi
    have := h.fate i
    rw [hi] at this
    generalize ths0[i]? = a at this
    cases this with
    | running p0 p h1 h2 h3 => exact h2
  -- adding the result of thread `i` to the log
  have addSub : ∀ (i : Nat) (t : Th σ α) (call : Except PyErr (Prog σ α)) (r : Except PyErr α), c.ths[i]? = some t → i ∉ log.map Prod.fst →
      ths0[i]? = some (.start call) →
      ∀ e ∈ log ++ [(i, call, r)], ths0[e.1]? = some (.start e.2.1) ∧ (c.ths.set i (.fin r))[e.1]? = some (.fin e.2.2) := by
    intro i t call r hi hlog h0 x hx
    rw [set_get _ _ _ _ _ hi]
    rcases List.mem_append.1 hx with hx | hx
    · have hne : x.1 ≠ i := fun e => hlog (e ▸ List.mem_map_of_mem hx)
      rw [if_neg hne]
      exact h.sub x hx
    · rw [List.mem_singleton] at hx; subst hx
      rw [if_pos rfl]
      exact ⟨h0, rfl⟩
  -- changing a thread that is not finished
  have keepSub : ∀ (i : Nat) (t t' : Th σ α), c.ths[i]? = some t → (∀ r, t ≠ .fin r) →
      ∀ e ∈ log, ths0[e.1]? = some (.start e.2.1) ∧ (c.ths.set i t')[e.1]? = some (.fin e.2.2) := by
    intro i t t' hi ht x hx
    have hne : x.1 ≠ i := by
      intro e
      have := (h.sub x hx).2
      rw [e, hi] at this
      cases this
      exact ht _ rfl
    rw [set_get _ _ _ _ _ hi, if_neg hne]
    exact h.sub x hx
  cases hs with
  | fail i e hi =>
    have hf := h.fate i
    rw [hi] at hf
    obtain ⟨hlog, h0⟩ : i ∉ log.map Prod.fst ∧ ths0[i]? = some (.start (.error e)) := by
      generalize ths0[i]? = a at hf
      cases hf with
      | waiting call h => exact ⟨h, rfl⟩
    refine ⟨log ++ [(i, .error e, .error e)], s0, ⟨.snoc i (.error e) h.seq, nodup_snoc _ h.nodup hlog, addSub i _ _ _ hi hlog h0, h.unlocked, ?_, ?_⟩,
      _, rfl⟩
    · intro j hj
      obtain ⟨p, hp⟩ := h.locked j hj
      have hne : j ≠ i := by rintro rfl; rw [hi] at hp; cases hp
      exact ⟨p, by rw [set_get _ _ _ _ _ hi, if_neg hne, hp]⟩
    · intro k
      dsimp only
      rw [set_get _ _ _ _ _ hi]
      split
      · rename_i hk; subst hk; rw [h0]; exact .finished _ _ (by simp)
      · rename_i hk
        exact (h.fate k).transfer (fun e he => List.mem_append_left _ he) (not_mem_snoc _ hk) fun p0 p _ ho hr => ⟨ho, hr⟩
  | acquire i p hi ho =>
    have hf := h.fate i
    rw [hi] at hf
    obtain ⟨hlog, h0⟩ : i ∉ log.map Prod.fst ∧ ths0[i]? = some (.start (.ok p)) := by
      generalize ths0[i]? = a at hf
      cases hf with
      | waiting call h => exact ⟨h, rfl⟩
    refine ⟨log, s0, ⟨h.seq, h.nodup, keepSub i _ _ hi (by simp), by simp, ?_, ?_⟩, [], by simp⟩
    · intro j hj
      cases hj
      exact ⟨p, by rw [set_get _ _ _ _ _ hi, if_pos rfl]⟩
    · intro k
      dsimp only
      rw [set_get _ _ _ _ _ hi]
      split
      · rename_i hk; subst hk; rw [h0]; exact .running p p hlog rfl (by rw [h.unlocked ho])
      · refine (h.fate k).transfer (fun e he => he) (fun h => h) fun p0 p _ ho' _ => ?_
        rw [ho] at ho'; cases ho'
  | access i u n hi =>
    have hown := uniq i _ hi
    have hf := h.fate i
    rw [hi] at hf
    obtain ⟨p0, hlog, h0, hr⟩ : ∃ p0, i ∉ log.map Prod.fst ∧ ths0[i]? = some (.start (.ok p0)) ∧ p0.run s0 = (Prog.act u n).run c.st := by
      generalize ths0[i]? = a at hf
      cases hf with
      | running p0 p h1 h2 h3 => exact ⟨p0, h1, rfl, h3⟩
    refine ⟨log, s0, ⟨h.seq, h.nodup, keepSub i _ _ hi (by simp), (fun h => by rw [hown] at h; cases h), ?_, ?_⟩, [], by simp⟩
    · intro j hj
      rw [hown] at hj; cases hj
      exact ⟨n c.st, by rw [set_get _ _ _ _ _ hi, if_pos rfl]⟩
    · intro k
      dsimp only
      rw [set_get _ _ _ _ _ hi]
      split
      · rename_i hk; subst hk; rw [h0]; exact .running p0 _ hlog hown hr
      · rename_i hk
        refine (h.fate k).transfer (fun e he => he) (fun h => h) fun p0 p _ ho' _ => ?_
        rw [hown] at ho'; cases ho'; exact absurd rfl hk
  | release i r hi =>
    have hown := uniq i _ hi
    have hf := h.fate i
    rw [hi] at hf
    obtain ⟨p0, hlog, h0, hr⟩ : ∃ p0, i ∉ log.map Prod.fst ∧ ths0[i]? = some (.start (.ok p0)) ∧ p0.run s0 = (Prog.done r).run c.st := by
      generalize ths0[i]? = a at hf
      cases hf with
      | running p0 p h1 h2 h3 => exact ⟨p0, h1, rfl, h3⟩
    have hseq := Sequential.snoc i (.ok p0) h.seq
    have hrun : callRun (.ok p0) s0 = (r, c.st) := hr
    rw [hrun] at hseq
    refine ⟨log ++ [(i, .ok p0, r)], c.st, ⟨hseq, nodup_snoc _ h.nodup hlog, addSub i _ _ _ hi hlog h0, fun _ => rfl, by simp, ?_⟩, _, rfl⟩
    intro k
    dsimp only
    rw [set_get _ _ _ _ _ hi]
    split
    · rename_i hk; subst hk; rw [h0]; exact .finished _ _ (by simp)
    · rename_i hk
      refine (h.fate k).transfer (fun e he => List.mem_append_left _ he) (not_mem_snoc _ hk) fun p0 p _ ho' _ => ?_
      rw [hown] at ho'; cases ho'; exact absurd rfl hk
  | freeAccess i u n hi =>
    have hf := h.fate i
    rw [hi] at hf
    obtain ⟨p0, h0, hu, hn⟩ : ∃ p0, ths0[i]? = some (.free p0) ∧ (∀ s, u s = s) ∧ ∀ s, ReadOnly (n s) := by
      generalize ths0[i]? = a at hf
      cases hf with
      | free p p' h => cases h with | act u n hu hn => exact ⟨p, rfl, hu, hn⟩
    refine ⟨log, s0, ⟨h.seq, h.nodup, keepSub i _ _ hi (by simp), fun ho => (hu c.st).trans (h.unlocked ho), ?_, ?_⟩, [], by simp⟩
    · intro j hj
      obtain ⟨p, hp⟩ := h.locked j hj
      have hne : j ≠ i := by rintro rfl; rw [hi] at hp; cases hp
      exact ⟨p, by rw [set_get _ _ _ _ _ hi, if_neg hne, hp]⟩
    · intro k
      dsimp only
      rw [set_get _ _ _ _ _ hi, hu]
      split
      · rename_i hk; subst hk; rw [h0]; exact .free _ _ (hn _)
      · exact h.fate k
  | freeDone i r hi =>
    have hf := h.fate i
    rw [hi] at hf
    obtain ⟨p0, h0⟩ : ∃ p0, ths0[i]? = some (.free p0) := by
      generalize ths0[i]? = a at hf
      cases hf with
      | free p p' h => exact ⟨p, rfl⟩
    refine ⟨log, s0, ⟨h.seq, h.nodup, keepSub i _ _ hi (by simp), h.unlocked, ?_, ?_⟩, [], by simp⟩
    · intro j hj
      obtain ⟨p, hp⟩ := h.locked j hj
      have hne : j ≠ i := by rintro rfl; rw [hi] at hp; cases hp
      exact ⟨p, by rw [set_get _ _ _ _ _ hi, if_neg hne, hp]⟩
    · intro k
      dsimp only
      rw [set_get _ _ _ _ _ hi]
      split
      · rename_i hk; subst hk; rw [h0]; exact .freeFin _ _
      · exact h.fate k

theorem SerInv.steps {ths0 : List (Th σ α)} (h : Starting ths0) {st0 : σ} {c : Cfg σ α} (hs : Steps ⟨st0, none, ths0⟩ c) :
    ∃ log s0, SerInv ths0 st0 c log s0 := by
  generalize hc : (⟨st0, none, ths0⟩ : Cfg σ α) = c0 at hs
  induction hs with
  | refl => subst hc; exact ⟨[], st0, .start h st0⟩
  | tail _ h' ih =>
    obtain ⟨log, s0, hi⟩ := ih
    obtain ⟨log', s0', hi', _⟩ := hi.step h'
    exact ⟨log', s0', hi'⟩

/-! ### Every schedule ends -/

/-- A program and what is left of it after an access. -/
inductive Rest : Prog σ α → Prog σ α → Prop
  | mk (u n s) : Rest (n s) (.act u n)

theorem rest_wf : WellFounded (Rest (σ := σ) (α := α)) := by
  refine ⟨fun p => ?_⟩
  induction p with
  | done r => exact ⟨_, fun q h => by cases h⟩
  | act u n ih => exact ⟨_, fun q h => by cases h; exact ih _⟩

/-- A thread and what it becomes in a step. -/
inductive Next : Th σ α → Th σ α → Prop
  | fail (e) : Next (.fin (.error e)) (.start (.error e))
  | acquire (p) : Next (.inside p) (.start (.ok p))
  | access (u n s) : Next (.inside (n s)) (.inside (.act u n))
  | release (r) : Next (.fin r) (.inside (.done r))
  | freeAccess (u n s) : Next (.free (n s)) (.free (.act u n))
  | freeDone (r) : Next (.fin r) (.free (.done r))

theorem next_wf : WellFounded (Next (σ := σ) (α := α)) := by
  have hfin : ∀ r : Except PyErr α, Acc Next (Th.fin (σ := σ) r) := fun r => ⟨_, fun q h => by cases h⟩
  have hin : ∀ p : Prog σ α, Acc Next (Th.inside p) := fun p => by
    induction p with
    | done r => exact ⟨_, fun q h => by cases h; exact hfin r⟩
    | act u n ih => exact ⟨_, fun q h => by cases h; exact ih _⟩
  have hfr : ∀ p : Prog σ α, Acc Next (Th.free p) := fun p => by
    induction p with
    | done r => exact ⟨_, fun q h => by cases h; exact hfin r⟩
    | act u n ih => exact ⟨_, fun q h => by cases h; exact ih _⟩
  refine ⟨fun t => ?_⟩
  cases t with
  | fin r => exact hfin r
  | inside p => exact hin p
  | free p => exact hfr p
  | start call => exact ⟨_, fun q h => by cases h <;> [exact hfin _; exact hin _]⟩

theorem Step.next {c c' : Cfg σ α} (h : Step c c') : ∃ i t t', c.ths[i]? = some t ∧ Next t' t ∧ c'.ths = c.ths.set i t' := by
  cases h with
  | fail i e hi => exact ⟨i, _, _, hi, .fail e, rfl⟩
  | acquire i p hi ho => exact ⟨i, _, _, hi, .acquire p, rfl⟩
  | access i u n hi => exact ⟨i, _, _, hi, .access u n _, rfl⟩
  | release i r hi => exact ⟨i, _, _, hi, .release r, rfl⟩
  | freeAccess i u n hi => exact ⟨i, _, _, hi, .freeAccess u n _, rfl⟩
  | freeDone i r hi => exact ⟨i, _, _, hi, .freeDone r, rfl⟩

theorem step_wf : WellFounded fun c' c : Cfg σ α => Step c c' := by
  have hw := (next_wf (σ := σ) (α := α)).cutExpand
  refine Subrelation.wf (r := InvImage (Relation.CutExpand Next) fun c : Cfg σ α => (c.ths : Multiset (Th σ α))) ?_ (InvImage.wf _ hw)
  intro c' c h
  obtain ⟨i, t, t', hi, hn, he⟩ := h.next
  refine ⟨{t'}, t, by simpa using hn, ?_⟩
  dsimp only
  rw [he]
  obtain ⟨hl, ht⟩ := List.getElem?_eq_some_iff.1 hi
  have h1 : c.ths = c.ths.take i ++ t :: c.ths.drop (i + 1) := by rw [← ht, List.getElem_cons_drop, List.take_append_drop]
  have h2 : c.ths.set i t' = c.ths.take i ++ t' :: c.ths.drop (i + 1) := List.set_eq_take_append_cons_drop .. |>.trans (if_pos hl)
  rw [h2]
  conv_rhs => rw [h1]
  rw [Multiset.add_comm, Multiset.singleton_add, Multiset.add_comm, Multiset.singleton_add]
  simp only [Multiset.cons_coe, Multiset.coe_eq_coe]
  refine (List.Perm.cons _ List.perm_middle).trans ?_
  refine (List.Perm.swap _ _ _).trans ?_
  exact List.Perm.cons _ List.perm_middle.symm

end Verif
