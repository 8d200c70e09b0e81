/-
The unit loop as a search for the first answering group.
-/
import Verif.Lemmas.Run
import Verif.Spec.Groups

set_option linter.unusedSectionVars false

namespace Verif

variable {S : Type} [Score S]

theorem addParses_nil {ps : List (Parse S)} {seen : Seen} (h : (addParses ps seen).1 = []) :
    (addParses ps seen).2 = seen := by
  induction ps generalizing seen with
  | nil => rfl
  | cons p ps ih =>
    rw [addParses] at h ⊢
    split
    · next hm => rw [if_pos hm] at h; exact ih h
    · next hm => rw [if_neg hm] at h; simp at h

theorem addTags_nil {ps : List Tag} {seen : SeenTags} (h : (addTags ps seen).1 = []) :
    (addTags ps seen).2 = seen := by
  induction ps generalizing seen with
  | nil => rfl
  | cons p ps ih =>
    rw [addTags] at h ⊢
    split
    · next hm => rw [if_pos hm] at h; exact ih h
    · next hm => rw [if_neg hm] at h; simp at h

theorem dedupCands_nil {cs : List SfxCand} {seen : Seen} (h : (dedupCands cs seen).1 = []) :
    (dedupCands cs seen).2 = seen := by
  induction cs generalizing seen with
  | nil => rfl
  | cons p ps ih =>
    rw [dedupCands] at h ⊢
    split
    · next hm => rw [if_pos hm] at h; exact ih h
    · next hm => rw [if_neg hm] at h; simp at h

theorem dedupTagCands_nil {cs : List SfxCand} {seen : SeenTags} (h : (dedupTagCands cs seen).1 = []) :
    (dedupTagCands cs seen).2 = seen := by
  induction cs generalizing seen with
  | nil => rfl
  | cons p ps ih =>
    rw [dedupTagCands] at h ⊢
    split
    · next hm => rw [if_pos hm] at h; exact ih h
    · next hm => rw [if_neg hm] at h; simp at h

theorem sfxLoop_nil {cands : Nat → Except PyErr (List SfxCand)} {is : List Nat} {total : Nat} {seen : Seen}
    {r : List SfxCand × Nat × Seen} (h : sfxLoop cands is total seen = .ok r) (hr : r.1 = []) : r.2.2 = seen := by
  induction is generalizing total seen r with
  | nil => simp [sfxLoop] at h; subst h; rfl
  | cons i is ih =>
    rw [sfxLoop, bind_ok_iff] at h
    obtain ⟨cs, hcs, h⟩ := h
    dsimp only at h
    split at h
    · simp at h; subst h; exact dedupCands_nil hr
    · simp only [bind_ok_iff, pure_eq_ok, Except.ok.injEq] at h
      obtain ⟨r', hr', rfl⟩ := h
      dsimp only at hr ⊢
      obtain ⟨h1, h2⟩ := List.append_eq_nil_iff.1 hr
      rw [ih hr' h2, dedupCands_nil h1]

theorem sfxPrefixLoop_nil {d : Dict} {sub : Subst} {wl : Str} {ips : List (Nat × Str)} {seen : Seen}
    {r : List (SfxCand × Nat) × Seen} (h : sfxPrefixLoop d sub wl ips seen = .ok r) (hr : r.1 = []) : r.2 = seen := by
  induction ips generalizing seen r with
  | nil => simp [sfxPrefixLoop] at h; subst h; rfl
  | cons ip ips ih =>
    simp only [sfxPrefixLoop, bind_ok_iff, pure_eq_ok, Except.ok.injEq, pyGet_ok_iff] at h
    obtain ⟨t, ht, r1, hr1, r2, hr2, rfl⟩ := h
    dsimp only at hr ⊢
    obtain ⟨h1, h2⟩ := List.append_eq_nil_iff.1 hr
    rw [ih hr2 h2, sfxLoop_nil hr1 (by simpa using h1)]

theorem sfxTagLoop_nil {cands : Nat → Except PyErr (List SfxCand)} {is : List Nat} {seen : SeenTags}
    {r : List (Nat × Tag) × SeenTags} (h : sfxTagLoop cands is seen = .ok r) (hr : r.1 = []) : r.2 = seen := by
  induction is generalizing seen r with
  | nil => simp [sfxTagLoop] at h; subst h; rfl
  | cons i is ih =>
    rw [sfxTagLoop, bind_ok_iff] at h
    obtain ⟨cs, hcs, h⟩ := h
    dsimp only at h
    split at h
    · simp at h; subst h; exact dedupTagCands_nil hr
    · simp only [bind_ok_iff, pure_eq_ok, Except.ok.injEq] at h
      obtain ⟨r', hr', rfl⟩ := h
      dsimp only at hr ⊢
      obtain ⟨h1, h2⟩ := List.append_eq_nil_iff.1 hr
      rw [ih hr' h2, dedupTagCands_nil h1]

theorem sfxTagPrefixLoop_nil {d : Dict} {sub : Subst} {wl : Str} {ips : List (Nat × Str)} {seen : SeenTags}
    {r : List (Nat × Tag) × SeenTags} (h : sfxTagPrefixLoop d sub wl ips seen = .ok r) (hr : r.1 = []) :
    r.2 = seen := by
  induction ips generalizing seen r with
  | nil => simp [sfxTagPrefixLoop] at h; subst h; rfl
  | cons ip ips ih =>
    simp only [sfxTagPrefixLoop, bind_ok_iff, pure_eq_ok, Except.ok.injEq, pyGet_ok_iff] at h
    obtain ⟨t, ht, r1, hr1, r2, hr2, rfl⟩ := h
    dsimp only at hr ⊢
    obtain ⟨h1, h2⟩ := List.append_eq_nil_iff.1 hr
    rw [ih hr2 h2, sfxTagLoop_nil hr1 h1]

/-- A unit that returns nothing leaves `seen_parses` unchanged. -/
theorem unitParse_nil {m : Morph S} {rec : Rec S} {u : BUnit S} {word wl : Str} {seen : Seen}
    {r : List (Parse S) × Seen} (h : unitParse m rec u word wl seen = .ok r) (hr : r.1 = []) : r.2 = seen := by
  unfold unitParse at h
  split at h
  case h_8 =>
    split at h
    · simp at h; subst h; rfl
    · simp only [bind_ok_iff, pure_eq_ok, Except.ok.injEq] at h
      obtain ⟨ps, _, rfl⟩ := h
      exact addParses_nil hr
  case h_9 =>
    simp only [bind_ok_iff, pure_eq_ok, Except.ok.injEq] at h
    obtain ⟨b, _, rfl⟩ := h
    cases b <;> simp at hr ⊢
  case h_11 | h_12 =>
    simp only [bind_ok_iff, pure_eq_ok, Except.ok.injEq] at h
    obtain ⟨ps, _, rfl⟩ := h
    exact addParses_nil hr
  case h_13 =>
    unfold suffixParse at h
    split at h
    · simp at h; subst h; rfl
    · simp only [bind_ok_iff, pure_eq_ok, Except.ok.injEq] at h
      obtain ⟨r', hr', ps, hps, rfl⟩ := h
      refine sfxPrefixLoop_nil hr' ?_
      have h1 : ps = [] := List.Perm.nil_eq ((hr ▸ sortByScore_perm ps : List.Perm [] ps)) |>.symm
      have h2 := mapE_length hps
      rw [h1] at h2
      exact List.length_eq_zero_iff.1 h2.symm
  all_goals first
    | (simp only [Except.ok.injEq] at h; subst h; rfl)
    | (simp only [bind_ok_iff, pure_eq_ok, Except.ok.injEq] at h
       obtain ⟨ps, _, rfl⟩ := h
       rfl)

/-- A unit that returns no tags leaves `seen_tags` unchanged. -/
theorem unitTag_nil {m : Morph S} {rec : Rec S} {u : BUnit S} {word wl : Str} {seen : SeenTags}
    {r : List Tag × SeenTags} (h : unitTag m rec u word wl seen = .ok r) (hr : r.1 = []) : r.2 = seen := by
  unfold unitTag at h
  split at h
  case h_8 =>
    split at h
    · simp at h; subst h; rfl
    · simp only [bind_ok_iff, pure_eq_ok, Except.ok.injEq] at h
      obtain ⟨ps, _, rfl⟩ := h
      rfl
  case h_9 =>
    simp only [bind_ok_iff, pure_eq_ok, Except.ok.injEq] at h
    obtain ⟨b, _, rfl⟩ := h
    split at hr
    · next hc => rw [if_pos hc]
    · simp at hr
  case h_10 | h_11 | h_12 =>
    simp only [bind_ok_iff, pure_eq_ok, Except.ok.injEq] at h
    obtain ⟨ps, _, rfl⟩ := h
    exact addTags_nil hr
  case h_13 =>
    unfold suffixTag at h
    split at h
    · simp at h; subst h; rfl
    · simp only [bind_ok_iff, pure_eq_ok, Except.ok.injEq] at h
      obtain ⟨r', hr', rfl⟩ := h
      refine sfxTagPrefixLoop_nil hr' ?_
      have h1 := congrArg List.length hr
      simpa using h1
  all_goals first
    | (simp only [Except.ok.injEq] at h; subst h; rfl)
    | (simp only [bind_ok_iff, pure_eq_ok, Except.ok.injEq] at h
       obtain ⟨ps, _, rfl⟩ := h
       rfl)

/-! ### runParse over one group followed by others -/

/-- The flagged list of one group. -/
def flagged (g : List (BUnit S)) : List (BUnit S × Bool) := g.mapIdx fun i u => (u, decide (i + 1 = g.length))

theorem flagged_single (u : BUnit S) : flagged [u] = [(u, true)] := by simp [flagged]

theorem flagged_cons (u v : BUnit S) (g : List (BUnit S)) : flagged (u :: v :: g) = (u, false) :: flagged (v :: g) := by
  simp [flagged, List.mapIdx_cons]

/-- The seen set after a group that returned nothing is the one before. -/
theorem runParse_group (m : Morph S) (rec : Rec S) (word wl : Str) (g : List (BUnit S)) (hg : g ≠ [])
    (rest : List (BUnit S × Bool)) (seen : Seen) (res : List (Parse S)) :
    runParse m rec word wl (flagged g ++ rest) seen res =
      (do let r ← groupParse m rec word wl g seen
          if res ++ r = [] then runParse m rec word wl rest seen [] else pure (res ++ r)) := by
  induction g generalizing seen res with
  | nil => exact absurd rfl hg
  | cons u g ih =>
    cases g with
    | nil =>
      rw [flagged_single]
      simp only [List.cons_append, List.nil_append, runParse, groupParse]
      cases hu : unitParse m rec u word wl seen with
      | error e => simp
      | ok r =>
        simp only [ok_bind, pure_eq_ok, List.append_nil]
        by_cases he : res ++ r.1 = []
        · rw [if_neg (by simp [he]), if_pos he, he]
          rw [unitParse_nil hu (List.append_eq_nil_iff.1 he).2]
        · rw [if_pos ⟨trivial, he⟩, if_neg he]
    | cons v g =>
      rw [flagged_cons, List.cons_append, runParse, groupParse]
      cases hu : unitParse m rec u word wl seen with
      | error e => simp
      | ok r =>
        simp only [ok_bind, Bool.false_eq_true, false_and, if_false, pure_eq_ok]
        rw [ih (by simp)]
        cases hg' : groupParse m rec word wl (v :: g) r.2 with
        | error e => simp
        | ok r' =>
          simp only [ok_bind, List.append_assoc, pure_eq_ok]
          by_cases he : res ++ (r.1 ++ r') = []
          · rw [if_pos he, if_pos he]
            rw [unitParse_nil hu (List.append_eq_nil_iff.1 (List.append_eq_nil_iff.1 he).2).1]
          · rw [if_neg he, if_neg he]

theorem runTag_group (m : Morph S) (rec : Rec S) (word wl : Str) (g : List (BUnit S)) (hg : g ≠ [])
    (rest : List (BUnit S × Bool)) (seen : SeenTags) (res : List Tag) :
    runTag m rec word wl (flagged g ++ rest) seen res =
      (do let r ← groupTag m rec word wl g seen
          if res ++ r = [] then runTag m rec word wl rest seen [] else pure (res ++ r)) := by
  induction g generalizing seen res with
  | nil => exact absurd rfl hg
  | cons u g ih =>
    cases g with
    | nil =>
      rw [flagged_single]
      simp only [List.cons_append, List.nil_append, runTag, groupTag]
      cases hu : unitTag m rec u word wl seen with
      | error e => simp
      | ok r =>
        simp only [ok_bind, pure_eq_ok, List.append_nil]
        by_cases he : res ++ r.1 = []
        · rw [if_neg (by simp [he]), if_pos he, he]
          rw [unitTag_nil hu (List.append_eq_nil_iff.1 he).2]
        · rw [if_pos ⟨trivial, he⟩, if_neg he]
    | cons v g =>
      rw [flagged_cons, List.cons_append, runTag, groupTag]
      cases hu : unitTag m rec u word wl seen with
      | error e => simp
      | ok r =>
        simp only [ok_bind, Bool.false_eq_true, false_and, if_false, pure_eq_ok]
        rw [ih (by simp)]
        cases hg' : groupTag m rec word wl (v :: g) r.2 with
        | error e => simp
        | ok r' =>
          simp only [ok_bind, List.append_assoc, pure_eq_ok]
          by_cases he : res ++ (r.1 ++ r') = []
          · rw [if_pos he, if_pos he]
            rw [unitTag_nil hu (List.append_eq_nil_iff.1 (List.append_eq_nil_iff.1 he).2).1]
          · rw [if_neg he, if_neg he]

/-- The search for the first answering group, as a function. -/
def firstGroup {α : Type} (run : List (BUnit S) → Except PyErr (List α)) : List (List (BUnit S)) → Except PyErr (List α)
  | [] => .ok []
  | g :: gs => do
    let r ← run g
    match r with
    | [] => firstGroup run gs
    | a :: as => pure (a :: as)

theorem firstGroup_iff {α : Type} (run : List (BUnit S) → Except PyErr (List α)) (groups : List (List (BUnit S)))
    (out : List α) : firstGroup run groups = .ok out ↔ FirstAnswer run groups out := by
  induction groups with
  | nil =>
    simp only [firstGroup, FirstAnswer, Except.ok.injEq]
    constructor
    · rintro rfl; exact .inr ⟨rfl, by simp⟩
    · rintro (⟨_, b, g, a, h, _⟩ | ⟨rfl, _⟩)
      · simp at h
      · rfl
  | cons g gs ih =>
    simp only [firstGroup, bind_ok_iff]
    constructor
    · rintro ⟨r, hr, h⟩
      cases r with
      | nil =>
        dsimp only at h
        rcases ih.1 h with ⟨hne, b, g', a, rfl, hb, hg⟩ | ⟨rfl, h2⟩
        · refine .inl ⟨hne, g :: b, g', a, rfl, ?_, hg⟩
          intro x hx
          rcases List.mem_cons.1 hx with rfl | hx
          · exact hr
          · exact hb x hx
        · refine .inr ⟨rfl, ?_⟩
          intro x hx
          rcases List.mem_cons.1 hx with rfl | hx
          · exact hr
          · exact h2 x hx
      | cons a as =>
        simp at h; subst h
        exact .inl ⟨by simp, [], g, gs, rfl, by simp, hr⟩
    · rintro (⟨hne, b, g', a, he, hb, hg⟩ | ⟨rfl, h⟩)
      · cases b with
        | nil =>
          simp at he
          obtain ⟨rfl, rfl⟩ := he
          refine ⟨out, hg, ?_⟩
          cases out with
          | nil => exact absurd rfl hne
          | cons x xs => rfl
        | cons b0 b =>
          simp at he
          obtain ⟨rfl, rfl⟩ := he
          refine ⟨[], hb g (by simp), ?_⟩
          exact ih.2 (.inl ⟨hne, b, g', a, rfl, fun x hx => hb x (by simp [hx]), hg⟩)
      · exact ⟨[], h g (by simp), ih.2 (.inr ⟨rfl, fun x hx => h x (by simp [hx])⟩)⟩

theorem runParse_eq_firstGroup (m : Morph S) (rec : Rec S) (word wl : Str) (groups : List (List (BUnit S)))
    (units : List (BUnit S × Bool)) (hu : IsGroups groups units) :
    runParse m rec word wl units [] [] = firstGroup (fun g => groupParse m rec word wl g []) groups := by
  obtain ⟨hne, rfl⟩ := hu
  induction groups with
  | nil => rfl
  | cons g gs ih =>
    rw [List.flatMap_cons]
    rw [show (g.mapIdx fun i u => (u, decide (i + 1 = g.length))) = flagged g from rfl]
    rw [runParse_group m rec word wl g (hne g (by simp)), firstGroup]
    cases groupParse m rec word wl g [] with
    | error e => rfl
    | ok r =>
      simp only [ok_bind, List.nil_append]
      cases r with
      | nil => simpa using ih fun g hg => hne g (by simp [hg])
      | cons a as => simp

theorem runTag_eq_firstGroup (m : Morph S) (rec : Rec S) (word wl : Str) (groups : List (List (BUnit S)))
    (units : List (BUnit S × Bool)) (hu : IsGroups groups units) :
    runTag m rec word wl units [] [] = firstGroup (fun g => groupTag m rec word wl g []) groups := by
  obtain ⟨hne, rfl⟩ := hu
  induction groups with
  | nil => rfl
  | cons g gs ih =>
    rw [List.flatMap_cons]
    rw [show (g.mapIdx fun i u => (u, decide (i + 1 = g.length))) = flagged g from rfl]
    rw [runTag_group m rec word wl g (hne g (by simp)), firstGroup]
    cases groupTag m rec word wl g [] with
    | error e => rfl
    | ok r =>
      simp only [ok_bind, List.nil_append]
      cases r with
      | nil => simpa using ih fun g hg => hne g (by simp [hg])
      | cons a as => simp

theorem groupParse_mem (m : Morph S) (rec : Rec S) (word wl : Str) (g : List (BUnit S)) (seen : Seen)
    (out : List (Parse S)) (h : groupParse m rec word wl g seen = .ok out) (p : Parse S) (hp : p ∈ out) :
    ∃ u ∈ g, ∃ seen' r, unitParse m rec u word wl seen' = .ok r ∧ p ∈ r.1 := by
  induction g generalizing seen out with
  | nil => simp [groupParse] at h; subst h; simp at hp
  | cons u g ih =>
    simp only [groupParse, bind_ok_iff, pure_eq_ok, Except.ok.injEq] at h
    obtain ⟨r, hr, rest, hrest, rfl⟩ := h
    rcases List.mem_append.1 hp with hp | hp
    · exact ⟨u, by simp, seen, r, hr, hp⟩
    · obtain ⟨u', hu', h'⟩ := ih _ _ hrest hp
      exact ⟨u', by simp [hu'], h'⟩

/-- Each unit of a group is run, and its results are part of the answer. -/
theorem groupParse_unit (m : Morph S) (rec : Rec S) (word wl : Str) (g : List (BUnit S)) (seen : Seen)
    (out : List (Parse S)) (h : groupParse m rec word wl g seen = .ok out) (u : BUnit S) (hu : u ∈ g) :
    ∃ seen' r, unitParse m rec u word wl seen' = .ok r ∧ ∀ p ∈ r.1, p ∈ out := by
  induction g generalizing seen out with
  | nil => simp at hu
  | cons v g ih =>
    simp only [groupParse, bind_ok_iff, pure_eq_ok, Except.ok.injEq] at h
    obtain ⟨r, hr, rest, hrest, rfl⟩ := h
    rcases List.mem_cons.1 hu with rfl | hu
    · exact ⟨seen, r, hr, fun p hp => by simp [hp]⟩
    · obtain ⟨s, r', hr', h'⟩ := ih _ _ hrest hu
      exact ⟨s, r', hr', fun p hp => by simp [h' p hp]⟩

end Verif
