/-
C47 — restore_capitalization only changes case.
-/
import Verif.Model.Case
import Verif.Lemmas.Run
import Mathlib.Tactic.SplitIfs
import Mathlib.Data.List.Forall2

namespace Verif

/-- What is assumed of Python's case methods: they are neutral for some notion `fold` of "equal up to letter case" that is computed piece by piece,
and neither add nor remove hyphens. -/
structure CaseLaws (c : CaseEnv) (fold : Str → Str) : Prop where
  append : ∀ a b, fold (a ++ b) = fold a ++ fold b
  foldLower : ∀ s, fold (c.lower s) = fold s
  foldUpper : ∀ s, fold (c.upper s) = fold s
  foldTitle : ∀ s, fold (c.title s) = fold s
  hyphensLower : ∀ s, (c.lower s).count '-' = s.count '-'
  hyphensUpper : ∀ s, (c.upper s).count '-' = s.count '-'
  hyphensTitle : ∀ s, (c.title s).count '-' = s.count '-'

/-- The specification for one part: `out` is `part` in the case of `ex`. -/
def CaseLike (c : CaseEnv) (part ex out : Str) : Prop :=
  (c.isLower ex = true ∧ out = c.lower part) ∨
  (c.isLower ex = false ∧ c.isUpper ex = true ∧ out = c.upper part) ∨
  (c.isLower ex = false ∧ c.isUpper ex = false ∧ c.isTitle ex = true ∧ out = c.title part) ∨
  (c.isLower ex = false ∧ c.isUpper ex = false ∧ c.isTitle ex = false ∧ out = c.lower part)

theorem sameCase_like (c : CaseEnv) (p e : Str) : CaseLike c p e (c.sameCase p e) := by
  unfold CaseEnv.sameCase CaseLike
  cases c.isLower e <;> cases c.isUpper e <;> cases c.isTitle e <;> simp

theorem sameCase_ind (c : CaseEnv) (P : Str → Str → Prop) (h1 : ∀ s, P s (c.lower s)) (h2 : ∀ s, P s (c.upper s)) (h3 : ∀ s, P s (c.title s)) (p e : Str) :
    P p (c.sameCase p e) := by
  unfold CaseEnv.sameCase
  split
  · exact h1 p
  · split
    · exact h2 p
    · split
      · exact h3 p
      · exact h1 p

theorem restoreParts_forall₂ (c : CaseEnv) (P : Str → Str → Prop) (h1 : ∀ s, P s (c.lower s)) (h2 : ∀ s, P s (c.upper s)) (h3 : ∀ s, P s (c.title s))
    (ps es : List Str) : List.Forall₂ P ps (c.restoreParts ps es) := by
  induction ps generalizing es with
  | nil => exact .nil
  | cons p ps ih =>
    cases es with
    | nil => exact .cons (h1 p) (ih [])
    | cons e es => exact .cons (sameCase_ind c P h1 h2 h3 p e) (ih es)

theorem restoreParts_get (c : CaseEnv) (ps es : List Str) (i : Nat) :
    (c.restoreParts ps es)[i]? = (ps[i]?).map fun p => match es[i]? with
      | some e => c.sameCase p e
      | none => c.lower p := by
  induction ps generalizing es i with
  | nil => simp [CaseEnv.restoreParts]
  | cons p ps ih =>
    cases es with
    | nil =>
      cases i with
      | zero => simp [CaseEnv.restoreParts]
      | succ i => simpa [CaseEnv.restoreParts] using ih [] i
    | cons e es =>
      cases i with
      | zero => simp [CaseEnv.restoreParts]
      | succ i => simpa [CaseEnv.restoreParts] using ih es i

theorem fold_joinC (fold : Str → Str) (happ : ∀ a b, fold (a ++ b) = fold a ++ fold b) (ps qs : List Str)
    (h : List.Forall₂ (fun p q => fold q = fold p) ps qs) : fold (joinC '-' qs) = fold (joinC '-' ps) := by
  induction h with
  | nil => rfl
  | @cons p q ps qs hpq hrest ih =>
    cases hrest with
    | nil => simpa [joinC] using hpq
    | @cons p' q' ps' qs' h' hr' =>
      have e1 : joinC '-' (q :: q' :: qs') = q ++ (['-'] ++ joinC '-' (q' :: qs')) := rfl
      have e2 : joinC '-' (p :: p' :: ps') = p ++ (['-'] ++ joinC '-' (p' :: ps')) := rfl
      rw [e1, e2, happ, happ, happ, happ, hpq, ih]

/-- C47: the result equals the word up to letter case. -/
theorem c47_same_up_to_case (c : CaseEnv) (fold : Str → Str) (hc : CaseLaws c fold) (w e : Str) : fold (c.restore w e) = fold w := by
  unfold CaseEnv.restore
  split
  · conv_rhs => rw [← joinC_splitC '-' w]
    exact fold_joinC fold hc.append _ _ (restoreParts_forall₂ c _ hc.foldLower hc.foldUpper hc.foldTitle _ _)
  · exact sameCase_ind c (fun p q => fold q = fold p) hc.foldLower hc.foldUpper hc.foldTitle w e

theorem count_joinC (ps qs : List Str) (h : List.Forall₂ (fun p q : Str => q.count '-' = p.count '-') ps qs) :
    (joinC '-' qs).count '-' = (joinC '-' ps).count '-' := by
  induction h with
  | nil => rfl
  | @cons p q ps qs hpq hrest ih =>
    cases hrest with
    | nil => simpa [joinC] using hpq
    | @cons p' q' ps' qs' h' hr' =>
      have e1 : joinC '-' (q :: q' :: qs') = q ++ ('-' :: joinC '-' (q' :: qs')) := rfl
      have e2 : joinC '-' (p :: p' :: ps') = p ++ ('-' :: joinC '-' (p' :: ps')) := rfl
      rw [e1, e2, List.count_append, List.count_append, List.count_cons_self, List.count_cons_self, hpq, ih]

/-- C47: hyphens stay as they were. -/
theorem c47_hyphens (c : CaseEnv) (fold : Str → Str) (hc : CaseLaws c fold) (w e : Str) : (c.restore w e).count '-' = w.count '-' := by
  unfold CaseEnv.restore
  split
  · conv_rhs => rw [← joinC_splitC '-' w]
    exact count_joinC _ _ (restoreParts_forall₂ c _ hc.hyphensLower hc.hyphensUpper hc.hyphensTitle _ _)
  · exact sameCase_ind c (fun p q => q.count '-' = p.count '-') hc.hyphensLower hc.hyphensUpper hc.hyphensTitle w e

theorem restoreParts_ne_nil (c : CaseEnv) (ps es : List Str) (h : ps ≠ []) : c.restoreParts ps es ≠ [] := by
  cases ps with
  | nil => exact absurd rfl h
  | cons p ps => cases es <;> simp [CaseEnv.restoreParts]

theorem restore_split (c : CaseEnv) (fold : Str → Str) (hc : CaseLaws c fold) (w e : Str) (he : '-' ∈ e) :
    splitC '-' (c.restore w e) = c.restoreParts (splitC '-' w) (splitC '-' e) := by
  unfold CaseEnv.restore
  rw [if_pos he]
  apply splitC_joinC
  · exact restoreParts_ne_nil c _ _ (splitC_ne_nil _ _)
  · have hf := restoreParts_forall₂ c (fun p q => q.count '-' = p.count '-') hc.hyphensLower hc.hyphensUpper hc.hyphensTitle (splitC '-' w) (splitC '-' e)
    have hn : ∀ p ∈ splitC '-' w, '-' ∉ p := fun p hp => not_mem_of_mem_splitC '-' w p hp
    generalize c.restoreParts (splitC '-' w) (splitC '-' e) = out at hf
    generalize splitC '-' w = ps at hf hn
    intro q hq
    induction hf with
    | nil => simp at hq
    | @cons p q' ps qs hpq _ ih =>
      rcases List.mem_cons.1 hq with rfl | hq
      · rw [← List.count_eq_zero, hpq, List.count_eq_zero]; exact hn p (by simp)
      · exact ih (fun p hp => hn p (by simp [hp])) hq

/-- C47, an example with hyphens: part by part; what lies beyond the example is lower-cased. -/
theorem c47_parts (c : CaseEnv) (fold : Str → Str) (hc : CaseLaws c fold) (w e : Str) (he : '-' ∈ e) :
    (splitC '-' (c.restore w e)).length = (splitC '-' w).length ∧
    ∀ (i : Nat) (p out : Str), (splitC '-' w)[i]? = some p → (splitC '-' (c.restore w e))[i]? = some out →
      (∀ x, (splitC '-' e)[i]? = some x → CaseLike c p x out) ∧ ((splitC '-' e)[i]? = none → out = c.lower p) := by
  rw [restore_split c fold hc w e he]
  refine ⟨(restoreParts_forall₂ c (fun _ _ => True) (by simp) (by simp) (by simp) _ _).length_eq.symm, ?_⟩
  intro i p out hp hout
  rw [restoreParts_get, hp] at hout
  constructor
  · intro x hx
    simp only [hx, Option.map_some, Option.some.injEq] at hout
    rw [← hout]; exact sameCase_like c p x
  · intro hx
    simp only [hx, Option.map_some, Option.some.injEq] at hout
    exact hout.symm

/-- C47, an example without hyphens: the whole word is put in its case. -/
theorem c47_whole (c : CaseEnv) (w e : Str) (he : '-' ∉ e) : CaseLike c w e (c.restore w e) := by
  unfold CaseEnv.restore
  rw [if_neg he]
  exact sameCase_like c w e

/-- C47: a lower-case example without hyphen gives `word.lower()`. -/
theorem c47_lower_example (c : CaseEnv) (w e : Str) (he : '-' ∉ e) (hl : c.isLower e = true) : c.restore w e = c.lower w := by
  rcases c47_whole c w e he with ⟨_, h⟩ | ⟨h, _⟩ | ⟨h, _⟩ | ⟨h, _⟩
  · exact h
  all_goals rw [hl] at h; simp at h

/-- C47: restoring twice is restoring once. -/
theorem c47_idempotent (c : CaseEnv) (fold : Str → Str) (hc : CaseLaws c fold) (hl : ∀ s, c.lower (c.lower s) = c.lower s)
    (hu : ∀ s, c.upper (c.upper s) = c.upper s) (ht : ∀ s, c.title (c.title s) = c.title s) (w e : Str) :
    c.restore (c.restore w e) e = c.restore w e := by
  have h1 : ∀ p x, c.sameCase (c.sameCase p x) x = c.sameCase p x := by
    intro p x
    unfold CaseEnv.sameCase
    cases c.isLower x <;> cases c.isUpper x <;> cases c.isTitle x <;> simp [hl, hu, ht]
  by_cases he : '-' ∈ e
  · have h2 : ∀ ps es, c.restoreParts (c.restoreParts ps es) es = c.restoreParts ps es := by
      intro ps
      induction ps with
      | nil => intro es; rfl
      | cons p ps ih =>
        intro es
        cases es with
        | nil => simp [CaseEnv.restoreParts, hl, ih]
        | cons e es => simp [CaseEnv.restoreParts, h1, ih]
    have hs := restore_split c fold hc w e he
    have hd : ∀ x, c.restore x e = joinC '-' (c.restoreParts (splitC '-' x) (splitC '-' e)) := fun x => by
      unfold CaseEnv.restore; rw [if_pos he]
    rw [hd (c.restore w e), hs, h2, hd w]
  · unfold CaseEnv.restore
    rw [if_neg he, if_neg he, h1]

/-- C47: a word all of whose hyphen-separated parts are in lower, upper or title case is restored from itself. -/
theorem c47_self (c : CaseEnv) (hl : ∀ s, c.isLower s = true → c.lower s = s) (hu : ∀ s, c.isUpper s = true → c.upper s = s)
    (ht : ∀ s, c.isTitle s = true → c.title s = s) (w : Str)
    (hw : ∀ p ∈ splitC '-' w, c.isLower p = true ∨ c.isUpper p = true ∨ c.isTitle p = true) : c.restore w w = w := by
  have h1 : ∀ p, (c.isLower p = true ∨ c.isUpper p = true ∨ c.isTitle p = true) → c.sameCase p p = p := by
    intro p hp
    rcases sameCase_like c p p with ⟨h, e⟩ | ⟨_, h, e⟩ | ⟨_, _, h, e⟩ | ⟨h2, h3, h4, _⟩
    · rw [e, hl p h]
    · rw [e, hu p h]
    · rw [e, ht p h]
    · rw [h2, h3, h4] at hp; simp at hp
  have h2 : ∀ ps, (∀ p ∈ ps, c.isLower p = true ∨ c.isUpper p = true ∨ c.isTitle p = true) → c.restoreParts ps ps = ps := by
    intro ps
    induction ps with
    | nil => intro _; rfl
    | cons p ps ih =>
      intro h
      rw [CaseEnv.restoreParts, h1 p (h p (by simp)), ih fun p hp => h p (by simp [hp])]
  by_cases he : '-' ∈ w
  · unfold CaseEnv.restore
    rw [if_pos he, h2 _ hw, joinC_splitC]
  · unfold CaseEnv.restore
    rw [if_neg he]
    rw [splitC_of_not_mem '-' w he] at hw
    exact h1 w (hw w (by simp))

/-! ### The hypotheses are met by the case methods of ASCII and Russian letters -/

theorem toNat_ofNat' {n : Nat} (h : n.isValidChar) : (Char.ofNat n).toNat = n := by
  unfold Char.ofNat; rw [dif_pos h]; rfl

theorem char_ext {a b : Char} (h : a.toNat = b.toNat) : a = b := Char.ext (UInt32.toNat_inj.1 h)

theorem lowerChar_toNat (c : Char) : (lowerChar c).toNat =
    if 65 ≤ c.toNat ∧ c.toNat ≤ 90 then c.toNat + 32 else if 1040 ≤ c.toNat ∧ c.toNat ≤ 1071 then c.toNat + 32
    else if 1024 ≤ c.toNat ∧ c.toNat ≤ 1039 then c.toNat + 80 else if c.toNat = 1168 then 1169 else c.toNat := by
  unfold lowerChar
  dsimp only
  split
  · rw [toNat_ofNat' (by left; omega)]
  · split
    · rw [toNat_ofNat' (by left; omega)]
    · split
      · rw [toNat_ofNat' (by left; omega)]
      · split
        · decide
        · rfl

theorem upperChar_toNat (c : Char) : (upperChar c).toNat =
    if 97 ≤ c.toNat ∧ c.toNat ≤ 122 then c.toNat - 32 else if 1072 ≤ c.toNat ∧ c.toNat ≤ 1103 then c.toNat - 32
    else if 1104 ≤ c.toNat ∧ c.toNat ≤ 1119 then c.toNat - 80 else if c.toNat = 1169 then 1168 else c.toNat := by
  unfold upperChar
  dsimp only
  split
  · rw [toNat_ofNat' (by left; omega)]
  · split
    · rw [toNat_ofNat' (by left; omega)]
    · split
      · rw [toNat_ofNat' (by left; omega)]
      · split
        · next h => subst h; decide
        · next h =>
          rw [if_neg]
          intro h'
          exact h (char_ext (h'.trans (by decide)))

theorem lower_upper (c : Char) : lowerChar (upperChar c) = lowerChar c := by
  apply char_ext
  rw [lowerChar_toNat, upperChar_toNat, lowerChar_toNat]
  split_ifs <;> omega

theorem lower_lower (c : Char) : lowerChar (lowerChar c) = lowerChar c := by
  apply char_ext
  rw [lowerChar_toNat, lowerChar_toNat]
  split_ifs <;> omega

theorem lower_hyphen (c : Char) : lowerChar c = '-' ↔ c = '-' := by
  constructor
  · intro h
    have := congrArg Char.toNat h
    rw [lowerChar_toNat] at this
    apply char_ext
    have e : ('-' : Char).toNat = 45 := by decide
    rw [e] at this ⊢
    split_ifs at this <;> omega
  · rintro rfl; decide

theorem upper_hyphen (c : Char) : upperChar c = '-' ↔ c = '-' := by
  constructor
  · intro h
    have := congrArg Char.toNat h
    rw [upperChar_toNat] at this
    apply char_ext
    have e : ('-' : Char).toNat = 45 := by decide
    rw [e] at this ⊢
    split_ifs at this <;> omega
  · rintro rfl; decide

theorem count_map_hyphen (f : Char → Char) (hf : ∀ c, f c = '-' ↔ c = '-') (s : Str) : (s.map f).count '-' = s.count '-' := by
  induction s with
  | nil => rfl
  | cons c s ih => simp only [List.map_cons, List.count_cons, ih, beq_iff_eq, hf]

theorem c47_demo_laws : CaseLaws demoCase (fun s => s.map lowerChar) where
  append := fun a b => List.map_append
  foldLower := fun s => by simp [demoCase, Function.comp_def, lower_lower]
  foldUpper := fun s => by simp [demoCase, Function.comp_def, lower_upper]
  foldTitle := by
    intro s
    show (titleFrom false s).map lowerChar = s.map lowerChar
    generalize false = b
    induction s generalizing b with
    | nil => rfl
    | cons c s ih =>
      simp only [titleFrom, List.map_cons, ih]
      cases b <;> simp [lower_lower, lower_upper]
  hyphensLower := fun s => count_map_hyphen _ lower_hyphen s
  hyphensUpper := fun s => count_map_hyphen _ upper_hyphen s
  hyphensTitle := by
    intro s
    show (titleFrom false s).count '-' = s.count '-'
    generalize false = b
    induction s generalizing b with
    | nil => rfl
    | cons c s ih =>
      cases b <;> simp [titleFrom, List.count_cons, ih, lower_hyphen, upper_hyphen]

/-! Tests (the doctests of the function) and the documented limitation. -/
example : demoCase.restore (c!"bye") (c!"Hello") = c!"Bye" ∧ demoCase.restore (c!"half-an-hour") (c!"Minute") = c!"Half-An-Hour" ∧
    demoCase.restore (c!"usa") (c!"IEEE") = c!"USA" ∧ demoCase.restore (c!"pre-world") (c!"anti-World") = c!"pre-World" ∧
    demoCase.restore (c!"123-do") (c!"anti-IEEE") = c!"123-DO" ∧ demoCase.restore (c!"123--do") (c!"anti--IEEE") = c!"123--DO" ∧
    demoCase.restore (c!"foo-BAR-BAZ") (c!"Baz-Baz") = c!"Foo-Bar-baz" ∧ demoCase.restore (c!"foo") (c!"foo-bar") = c!"foo" := by decide +kernel
/-- Letters in the middle of a part are lost even when the example is the word itself. -/
theorem c47_inner_capitals : demoCase.restore (c!"McDonald") (c!"McDonald") = c!"mcdonald" := by decide +kernel

end Verif
