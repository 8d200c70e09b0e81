/-
The loop over units, for `parse` and `tag` at once: units are functions from the set of what was seen.
-/
import Verif.Spec.Open
import Verif.Lemmas.Bind

set_option linter.unusedSectionVars false

namespace Verif

section loop

variable {F α σ : Type}

/-- The flags of one group. -/
def gflag : List F → List (F × Bool)
  | [] => []
  | [u] => [(u, true)]
  | u :: v :: g => (u, false) :: gflag (v :: g)

theorem gflag_eq (g : List F) (l : F) : gflag (g ++ [l]) = g.map (fun u => (u, false)) ++ [(l, true)] := by
  induction g with
  | nil => rfl
  | cons u g ih =>
    cases g with
    | nil => rfl
    | cons v g =>
      have : gflag (u :: v :: (g ++ [l])) = (u, false) :: gflag (v :: (g ++ [l])) := rfl
      simp only [List.cons_append] at ih ⊢
      rw [this, ih]; rfl

abbrev LoopStep (α σ : Type) := σ → Except PyErr (List α × σ)

/-- The loop of `parse` and `tag`. -/
def grun (step : F → LoopStep α σ) : List (F × Bool) → σ → List α → Except PyErr (List α)
  | [], _, res => .ok res
  | (u, terminal) :: us, seen, res => do
    let r ← step u seen
    if terminal = true ∧ res ++ r.1 ≠ [] then pure (res ++ r.1) else grun step us r.2 (res ++ r.1)

/-- The units of one group. -/
def ggroup (step : F → LoopStep α σ) : List F → σ → Except PyErr (List α)
  | [], _ => .ok []
  | u :: us, seen => do
    let r ← step u seen
    let rest ← ggroup step us r.2
    pure (r.1 ++ rest)

/-- Returning nothing leaves the set unchanged. -/
def StepQuiet (f : LoopStep α σ) : Prop := ∀ seen r, f seen = .ok r → r.1 = [] → r.2 = seen

theorem grun_group (step : F → LoopStep α σ) (g : List F) (hg : g ≠ []) (hq : ∀ u ∈ g, StepQuiet (step u)) (rest : List (F × Bool)) (seen : σ) (res : List α) :
    grun step (gflag g ++ rest) seen res =
      (do let r ← ggroup step g seen
          if res ++ r = [] then grun step rest seen [] else pure (res ++ r)) := by
  induction g generalizing seen res with
  | nil => exact absurd rfl hg
  | cons u g ih =>
    cases g with
    | nil =>
      simp only [gflag, List.cons_append, List.nil_append, grun, ggroup]
      cases hu : step u seen with
      | error e => simp
      | ok r =>
        simp only [ok_bind, pure_eq_ok, List.append_nil]
        by_cases he : res ++ r.1 = []
        · rw [if_neg (by simp [he]), if_pos he, he]
          rw [hq u (by simp) seen r hu (List.append_eq_nil_iff.1 he).2]
        · rw [if_pos ⟨trivial, he⟩, if_neg he]
    | cons v g =>
      have e : gflag (u :: v :: g) = (u, false) :: gflag (v :: g) := rfl
      rw [e, List.cons_append, grun, ggroup]
      cases hu : step u seen with
      | error e => simp
      | ok r =>
        simp only [ok_bind, Bool.false_eq_true, false_and, if_false, pure_eq_ok]
        rw [ih (by simp) (fun w hw => hq w (by simp [hw]))]
        cases hg' : ggroup step (v :: g) r.2 with
        | error e => simp
        | ok r' =>
          simp only [ok_bind, List.append_assoc, pure_eq_ok]
          by_cases he : res ++ (r.1 ++ r') = []
          · rw [if_pos he, if_pos he]
            rw [hq u (by simp) seen r hu (List.append_eq_nil_iff.1 (List.append_eq_nil_iff.1 he).2).1]
          · rw [if_neg he, if_neg he]

/-- The search for the first answering group. -/
def gfirst {G : Type} (run : G → Except PyErr (List α)) : List G → Except PyErr (List α)
  | [] => .ok []
  | g :: gs => do
    let r ← run g
    match r with
    | [] => gfirst run gs
    | a :: as => pure (a :: as)

theorem gfirst_iff {G : Type} (run : G → Except PyErr (List α)) (groups : List G) (out : List α) :
    gfirst run groups = .ok out ↔ OpenFirst run groups out := by
  induction groups with
  | nil =>
    simp only [gfirst, OpenFirst, Except.ok.injEq]
    constructor
    · rintro rfl; exact .inr ⟨rfl, by simp⟩
    · rintro (⟨_, b, g, a, h, _⟩ | ⟨rfl, _⟩)
      · simp at h
      · rfl
  | cons g gs ih =>
    simp only [gfirst, bind_ok_iff]
    constructor
    · rintro ⟨r, hr, h⟩
      cases r with
      | nil =>
        dsimp only at h
        rcases ih.1 h with ⟨hne, b, g', a, rfl, hb, hg⟩ | ⟨rfl, h2⟩
        · refine .inl ⟨hne, g :: b, g', a, rfl, ?_, hg⟩
          intro x hx
          rcases List.mem_cons.1 hx with rfl | hx
          · exact hr
          · exact hb x hx
        · refine .inr ⟨rfl, ?_⟩
          intro x hx
          rcases List.mem_cons.1 hx with rfl | hx
          · exact hr
          · exact h2 x hx
      | cons a as =>
        simp at h; subst h
        exact .inl ⟨by simp, [], g, gs, rfl, by simp, hr⟩
    · rintro (⟨hne, b, g', a, he, hb, hg⟩ | ⟨rfl, h⟩)
      · cases b with
        | nil =>
          simp at he
          obtain ⟨rfl, rfl⟩ := he
          refine ⟨out, hg, ?_⟩
          cases out with
          | nil => exact absurd rfl hne
          | cons x xs => rfl
        | cons b0 b =>
          simp at he
          obtain ⟨rfl, rfl⟩ := he
          refine ⟨[], hb g (by simp), ?_⟩
          exact ih.2 (.inl ⟨hne, b, g', a, rfl, fun x hx => hb x (by simp [hx]), hg⟩)
      · exact ⟨[], h g (by simp), ih.2 (.inr ⟨rfl, fun x hx => h x (by simp [hx])⟩)⟩

theorem grun_first (step : F → LoopStep α σ) (groups : List (List F)) (hne : ∀ g ∈ groups, g ≠ [])
    (hq : ∀ g ∈ groups, ∀ u ∈ g, StepQuiet (step u)) (seen : σ) :
    grun step (groups.flatMap gflag) seen [] = gfirst (fun g => ggroup step g seen) groups := by
  induction groups with
  | nil => rfl
  | cons g gs ih =>
    rw [List.flatMap_cons, grun_group step g (hne g (by simp)) (hq g (by simp)), gfirst]
    cases ggroup step g seen with
    | error e => rfl
    | ok r =>
      simp only [ok_bind, List.nil_append]
      cases r with
      | nil => simpa using ih (fun g hg => hne g (by simp [hg])) (fun g hg => hq g (by simp [hg]))
      | cons a as => simp

/-- What follows a group matters only if nothing was collected. -/
theorem grun_boundary (step : F → LoopStep α σ) (g : List F) (hg : g ≠ []) (rest rest' : List (F × Bool))
    (h : ∀ seen, grun step rest seen [] = grun step rest' seen []) (seen : σ) (res : List α) :
    grun step (gflag g ++ rest) seen res = grun step (gflag g ++ rest') seen res := by
  induction g generalizing seen res with
  | nil => exact absurd rfl hg
  | cons u g ih =>
    cases g with
    | nil =>
      simp only [gflag, List.cons_append, List.nil_append, grun]
      cases hu : step u seen with
      | error e => simp
      | ok r =>
        simp only [ok_bind]
        by_cases he : res ++ r.1 = []
        · rw [if_neg (by simp [he]), if_neg (by simp [he]), he]; exact h _
        · rw [if_pos ⟨trivial, he⟩, if_pos ⟨trivial, he⟩]
    | cons v g =>
      have e : gflag (u :: v :: g) = (u, false) :: gflag (v :: g) := rfl
      rw [e, List.cons_append, List.cons_append, grun, grun]
      congr 1
      funext r
      simp only [Bool.false_eq_true, false_and, if_false]
      exact ih (by simp) _ _

theorem grun_boundaries (step : F → LoopStep α σ) (groups : List (List F)) (hne : ∀ g ∈ groups, g ≠ []) (rest rest' : List (F × Bool))
    (h : ∀ seen, grun step rest seen [] = grun step rest' seen []) (seen : σ) :
    grun step (groups.flatMap gflag ++ rest) seen [] = grun step (groups.flatMap gflag ++ rest') seen [] := by
  induction groups generalizing seen with
  | nil => exact h seen
  | cons g gs ih =>
    rw [List.flatMap_cons, List.append_assoc, List.append_assoc]
    exact grun_boundary step g (hne g (by simp)) _ _ (fun seen => ih (fun g hg => hne g (by simp [hg])) seen) seen []

/-- A group with nothing to say is passed over. -/
theorem grun_silent (step : F → LoopStep α σ) (g : List F) (hs : ∀ u ∈ g, ∀ seen, step u seen = .ok ([], seen)) (rest : List (F × Bool)) (seen : σ) :
    grun step (gflag g ++ rest) seen [] = grun step rest seen [] := by
  induction g with
  | nil => rfl
  | cons u g ih =>
    cases g with
    | nil => simp [gflag, grun, hs u (by simp)]
    | cons v g =>
      have e : gflag (u :: v :: g) = (u, false) :: gflag (v :: g) := rfl
      rw [e, List.cons_append, grun, hs u (by simp)]
      simp only [ok_bind, Bool.false_eq_true, false_and, if_false, List.append_nil]
      exact ih fun w hw => hs w (by simp [hw])

theorem grun_congr (step step' : F → LoopStep α σ) (us : List (F × Bool)) (h : ∀ u ∈ us, ∀ seen, step u.1 seen = step' u.1 seen) (seen : σ) (res : List α) :
    grun step us seen res = grun step' us seen res := by
  induction us generalizing seen res with
  | nil => rfl
  | cons ut us ih =>
    obtain ⟨u, t⟩ := ut
    rw [grun, grun, h (u, t) (by simp)]
    congr 1
    funext r
    rw [ih fun u hu => h u (by simp [hu])]

theorem grun_ok (step : F → LoopStep α σ) (us : List (F × Bool)) (h : ∀ u ∈ us, ∀ seen, ∃ r, step u.1 seen = .ok r) (seen : σ) (res : List α) :
    ∃ out, grun step us seen res = .ok out := by
  induction us generalizing seen res with
  | nil => exact ⟨_, rfl⟩
  | cons ut us ih =>
    obtain ⟨u, t⟩ := ut
    obtain ⟨r, hr⟩ := h (u, t) (by simp) seen
    rw [grun, hr, ok_bind]
    split
    · exact ⟨_, rfl⟩
    · exact ih (fun u hu => h u (by simp [hu])) _ _

end loop

variable {S : Type} [Score S]

/-! ### The loops of the model -/

theorem openRun_eq (rec : Rec S) (word wl : Str) (us : List (OpenUnit S × Bool)) (seen : Seen) (res : List (Parse S)) :
    openRun rec word wl us seen res = grun (fun u => u.parse rec word wl) us seen res := by
  induction us generalizing seen res with
  | nil => rfl
  | cons ut us ih =>
    obtain ⟨u, t⟩ := ut
    rw [openRun, grun]
    congr 1
    funext r
    dsimp only
    rw [ih]

theorem openRunTag_eq (rec : Rec S) (word wl : Str) (us : List (OpenUnit S × Bool)) (seen : SeenTags) (res : List Tag) :
    openRunTag rec word wl us seen res = grun (fun u => u.tag rec word wl) us seen res := by
  induction us generalizing seen res with
  | nil => rfl
  | cons ut us ih =>
    obtain ⟨u, t⟩ := ut
    rw [openRunTag, grun]
    congr 1
    funext r
    dsimp only
    rw [ih]

theorem openGroup_eq (rec : Rec S) (word wl : Str) (us : List (OpenUnit S)) (seen : Seen) :
    openGroup rec word wl us seen = ggroup (fun u => u.parse rec word wl) us seen := by
  induction us generalizing seen with
  | nil => rfl
  | cons u us ih =>
    rw [openGroup, ggroup]
    congr 1
    funext r
    rw [ih]

theorem openGroupTag_eq (rec : Rec S) (word wl : Str) (us : List (OpenUnit S)) (seen : SeenTags) :
    openGroupTag rec word wl us seen = ggroup (fun u => u.tag rec word wl) us seen := by
  induction us generalizing seen with
  | nil => rfl
  | cons u us ih =>
    rw [openGroupTag, ggroup]
    congr 1
    funext r
    rw [ih]

theorem openInit_ok {groups : List (List (OpenUnit S))} {us : List (OpenUnit S × Bool)} (h : openInit groups = .ok us) :
    (∀ g ∈ groups, g ≠ []) ∧ us = groups.flatMap gflag := by
  induction groups generalizing us with
  | nil => simp [openInit] at h; subst h; simp
  | cons g gs ih =>
    rw [openInit] at h
    split at h
    · simp at h
    · next l hl =>
      simp only [bind_ok_iff, pure_eq_ok, Except.ok.injEq] at h
      obtain ⟨rest, hrest, rfl⟩ := h
      obtain ⟨h1, rfl⟩ := ih hrest
      have hg : g ≠ [] := by rintro rfl; simp at hl
      have e : g = g.dropLast ++ [l] := by
        rw [List.getLast?_eq_some_getLast hg] at hl
        simp only [Option.some.injEq] at hl
        rw [← hl]; exact (List.dropLast_append_getLast hg).symm
      refine ⟨?_, ?_⟩
      · intro x hx
        rcases List.mem_cons.1 hx with rfl | hx
        · exact hg
        · exact h1 x hx
      · rw [List.flatMap_cons]
        conv_rhs => rw [e]
        rw [gflag_eq]
        simp

theorem mem_gflag {F : Type} (g : List F) (x : F × Bool) (h : x ∈ gflag g) : x.1 ∈ g := by
  induction g with
  | nil => simp [gflag] at h
  | cons u g ih =>
    cases g with
    | nil => simp [gflag] at h; subst h; simp
    | cons v g =>
      have e : gflag (u :: v :: g) = (u, false) :: gflag (v :: g) := rfl
      rw [e] at h
      rcases List.mem_cons.1 h with rfl | h
      · simp
      · exact List.mem_cons_of_mem _ (ih h)

theorem openInit_mem {groups : List (List (OpenUnit S))} {us : List (OpenUnit S × Bool)} (h : openInit groups = .ok us) (x : OpenUnit S × Bool) (hx : x ∈ us) :
    ∃ g ∈ groups, x.1 ∈ g := by
  obtain ⟨_, rfl⟩ := openInit_ok h
  obtain ⟨g, hg, hx⟩ := List.mem_flatMap.1 hx
  exact ⟨g, hg, mem_gflag g x hx⟩

/-! ### Nested calls -/

theorem open_step_congr (o : OpenMorph S) (hu : ∀ u ∈ o.units, u.1.AsksShorter) (r r' : Rec S) (w : Str)
    (h : Rec.AgreeBelow (o.env.lower w) r r') : o.parseStep r w = o.parseStep r' w ∧ o.tagStep r w = o.tagStep r' w := by
  unfold OpenMorph.parseStep OpenMorph.tagStep
  simp only [openRun_eq, openRunTag_eq]
  rw [grun_congr (fun u => u.parse r w (o.env.lower w)) (fun u => u.parse r' w (o.env.lower w)) o.units fun u hu' => (hu u hu' r r' w _ h).1]
  rw [grun_congr (fun u => u.tag r w (o.env.lower w)) (fun u => u.tag r' w (o.env.lower w)) o.units fun u hu' => (hu u hu' r r' w _ h).2]
  exact ⟨rfl, rfl⟩

theorem open_budget (o : OpenMorph S) (hlow : o.env.LowerStable) (hu : ∀ u ∈ o.units, u.1.AsksShorter) (n n' : Nat) (w : Str)
    (hn : (o.env.lower w).length < n) (hn' : (o.env.lower w).length < n') :
    (o.analyze n).parse w = (o.analyze n').parse w ∧ (o.analyze n).tag w = (o.analyze n').tag w := by
  induction n generalizing n' w with
  | zero => omega
  | succ n ih =>
    obtain ⟨n', rfl⟩ : ∃ k, n' = k + 1 := ⟨n' - 1, by omega⟩
    show o.parseStep (o.analyze n) w = o.parseStep (o.analyze n') w ∧ o.tagStep (o.analyze n) w = o.tagStep (o.analyze n') w
    apply open_step_congr o hu
    intro x hx hl
    have e : o.env.lower x = x := hlow w x hx
    exact ih n' x (by rw [e]; omega) (by rw [e]; omega)

theorem open_unfold (o : OpenMorph S) (hlow : o.env.LowerStable) (hu : ∀ u ∈ o.units, u.1.AsksShorter) (w : Str) :
    o.parse w = o.parseStep ⟨o.parse, o.tag⟩ w ∧ o.tag w = o.tagStep ⟨o.parse, o.tag⟩ w := by
  refine open_step_congr o hu (o.analyze (o.env.lower w).length) ⟨o.parse, o.tag⟩ w ?_
  intro x hx hl
  have e : o.env.lower x = x := hlow w x hx
  exact open_budget o hlow hu _ ((o.env.lower x).length + 1) x (by rw [e]; omega) (by omega)

end Verif
