/-
The computations of `Model/Cost` have the values of `Model/Analyzer`.
-/
import Verif.Model.Cost
import Verif.Lemmas.Run
import Verif.Lemmas.Deriv

set_option linter.unusedSectionVars false

namespace Verif

variable {S : Type} [Score S]

theorem Logged.ext {α : Type} {x y : Logged α} (h1 : x.val = y.val) (h2 : x.log = y.log) : x = y := by
  cases x; cases y; simp_all

@[simp] theorem Logged.pure_val {α : Type} (a : α) : (pure a : Logged α).val = .ok a := rfl
@[simp] theorem Logged.pure_log {α : Type} (a : α) : (pure a : Logged α).log = [] := rfl
@[simp] theorem Logged.quiet_val {α : Type} (x : Except PyErr α) : (Logged.quiet x).val = x := rfl
@[simp] theorem Logged.quiet_log {α : Type} (x : Except PyErr α) : (Logged.quiet x).log = [] := rfl
@[simp] theorem Logged.called_val {α : Type} (c : Call) (x : Logged α) : (x.called c).val = x.val := rfl
@[simp] theorem Logged.called_log {α : Type} (c : Call) (x : Logged α) : (x.called c).log = c :: x.log := rfl

theorem Logged.bind_val {α β : Type} (x : Logged α) (f : α → Logged β) : (x >>= f).val = x.val >>= fun a => (f a).val := by
  show (match x.val with
    | .error e => (⟨.error e, x.log⟩ : Logged β)
    | .ok a => ⟨(f a).val, x.log ++ (f a).log⟩).val = _
  cases x.val <;> rfl

theorem Logged.bind_log_ok {α β : Type} (x : Logged α) (f : α → Logged β) (a : α) (h : x.val = .ok a) : (x >>= f).log = x.log ++ (f a).log := by
  show (match x.val with
    | .error e => (⟨.error e, x.log⟩ : Logged β)
    | .ok a => ⟨(f a).val, x.log ++ (f a).log⟩).log = _
  rw [h]

theorem Logged.bind_log_error {α β : Type} (x : Logged α) (f : α → Logged β) (e : PyErr) (h : x.val = .error e) : (x >>= f).log = x.log := by
  show (match x.val with
    | .error e => (⟨.error e, x.log⟩ : Logged β)
    | .ok a => ⟨(f a).val, x.log ++ (f a).log⟩).log = _
  rw [h]

/-- A statement that calls nothing adds nothing. -/
theorem Logged.bind_log_quiet {α β : Type} (x : Logged α) (f : α → Logged β) (h : ∀ a, (f a).log = []) : (x >>= f).log = x.log := by
  cases hx : x.val with
  | error e => exact Logged.bind_log_error x f e hx
  | ok a => rw [Logged.bind_log_ok x f a hx, h, List.append_nil]

theorem mapL_val {α β : Type} (f : α → Logged β) (l : List α) : (mapL f l).val = mapE (fun a => (f a).val) l := by
  induction l with
  | nil => rfl
  | cons a as ih =>
    rw [mapL, Logged.bind_val, mapE]
    refine bind_congr fun b => ?_
    rw [Logged.bind_val, ih]
    rfl

theorem adverbShouldL_val (m : Morph S) (rec : RecL S) (wl : Str) : (adverbShouldL m rec wl).val = adverbShould m rec.erase wl := by
  unfold adverbShouldL adverbShould
  split
  · rfl
  · rw [Logged.bind_val]; rfl

theorem hyphenParseL_val (rec : RecL S) (u : UObj) (skip : List Str) (mult : S) (wl : Str) :
    (hyphenParseL rec u skip mult wl).val = hyphenParse rec.erase u skip mult wl := by
  unfold hyphenParseL hyphenParse
  split
  · rw [Logged.bind_val]
    refine bind_congr fun a => ?_
    rw [Logged.bind_val]
    rfl
  · rfl

theorem prefixCandsL_val (u : UObj) (mult : S) (f : Str → Logged (List (Parse S))) (splits : List (Str × Str)) :
    (prefixCandsL u mult f splits).val = prefixCands u mult (fun x => (f x).val) splits := by
  unfold prefixCandsL prefixCands
  rw [Logged.bind_val, mapL_val]
  simp only [Logged.bind_val, Logged.pure_val]
  rfl

theorem prefixTagCandsL_val (f : Str → Logged (List Tag)) (splits : List (Str × Str)) :
    (prefixTagCandsL f splits).val = prefixTagCands (fun x => (f x).val) splits := by
  unfold prefixTagCandsL prefixTagCands
  rw [Logged.bind_val, mapL_val]
  simp only [Logged.bind_val, Logged.pure_val]
  rfl

theorem unitParseL_val (m : Morph S) (rec : RecL S) (u : BUnit S) (word wl : Str) (seen : Seen) :
    (unitParseL m rec u word wl seen).val = unitParse m rec.erase u word wl seen := by
  unfold unitParseL
  split
  · next hk =>
    unfold unitParse
    rw [hk]
    dsimp only
    cases h : particleSplit _ wl with
    | none => rfl
    | some rp => dsimp only; rw [Logged.bind_val]; rfl
  · next hk => unfold unitParse; rw [hk, Logged.bind_val, adverbShouldL_val]; rfl
  · next hk => unfold unitParse; rw [hk, Logged.bind_val, hyphenParseL_val]; rfl
  · next hk => unfold unitParse; rw [hk, Logged.bind_val, prefixCandsL_val]; rfl
  · rfl

theorem unitTagL_val (m : Morph S) (rec : RecL S) (u : BUnit S) (word wl : Str) (seen : SeenTags) :
    (unitTagL m rec u word wl seen).val = unitTag m rec.erase u word wl seen := by
  unfold unitTagL
  split
  · next hk =>
    unfold unitTag
    rw [hk]
    dsimp only
    cases h : particleSplit _ wl with
    | none => rfl
    | some rp => dsimp only; rw [Logged.bind_val]; rfl
  · next hk => unfold unitTag; rw [hk, Logged.bind_val, adverbShouldL_val]; rfl
  · next hk => unfold unitTag; rw [hk, Logged.bind_val, hyphenParseL_val]; rfl
  · next hk => unfold unitTag; rw [hk, Logged.bind_val, prefixTagCandsL_val]; rfl
  · rfl

theorem runParseL_val (m : Morph S) (rec : RecL S) (word wl : Str) (us : List (BUnit S × Bool)) (seen : Seen) (res : List (Parse S)) :
    (runParseL m rec word wl us seen res).val = runParse m rec.erase word wl us seen res := by
  induction us generalizing seen res with
  | nil => rfl
  | cons ut us ih =>
    obtain ⟨u, t⟩ := ut
    rw [runParseL, runParse, Logged.bind_val, unitParseL_val]
    refine bind_congr fun r => ?_
    dsimp only
    split
    · rfl
    · exact ih _ _

theorem runTagL_val (m : Morph S) (rec : RecL S) (word wl : Str) (us : List (BUnit S × Bool)) (seen : SeenTags) (res : List Tag) :
    (runTagL m rec word wl us seen res).val = runTag m rec.erase word wl us seen res := by
  induction us generalizing seen res with
  | nil => rfl
  | cons ut us ih =>
    obtain ⟨u, t⟩ := ut
    rw [runTagL, runTag, Logged.bind_val, unitTagL_val]
    refine bind_congr fun r => ?_
    dsimp only
    split
    · rfl
    · exact ih _ _

theorem analyzeL_erase (m : Morph S) (n : Nat) : (analyzeL m n).erase = analyze m n := by
  induction n with
  | zero => rfl
  | succ n ih =>
    rw [analyze, ← ih]
    unfold RecL.erase
    congr 1 <;> funext w
    · show (parseStepL m (analyzeL m n) w).val = parseStep m (analyzeL m n).erase w
      unfold parseStepL parseStep estimateParses
      rw [Logged.bind_val, runParseL_val]
      refine bind_congr fun r => ?_
      cases m.est <;> rfl
    · show (tagStepL m (analyzeL m n) w).val = tagStep m (analyzeL m n).erase w
      unfold tagStepL tagStep estimateTags
      rw [Logged.bind_val, runTagL_val]
      refine bind_congr fun r => ?_
      cases m.est <;> rfl

end Verif
