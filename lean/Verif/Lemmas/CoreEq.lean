/-
Lexemes and normal forms do not depend on scores.
-/
import Verif.Lemmas.DoubleSim
import Verif.Lemmas.LexTotal

set_option linter.unusedSectionVars false

namespace Verif

variable {S T : Type} [Score S] [Score T]

/-- Parses that differ in their scores only, whatever the scores are. -/
def CoreEq (a : Parse S) (b : Parse T) : Prop := a.core = b.core

theorem CoreEq.fields {a : Parse S} {b : Parse T} (h : CoreEq a b) :
    a.word = b.word ∧ a.tag = b.tag ∧ a.nf = b.nf ∧ a.stack = b.stack := by
  simpa [CoreEq, Parse.core] using h

theorem CoreEq.mk {a : Parse S} {b : Parse T} (h1 : a.word = b.word) (h2 : a.tag = b.tag) (h3 : a.nf = b.nf) (h4 : a.stack = b.stack) :
    CoreEq a b := by
  simp [CoreEq, Parse.core, h1, h2, h3, h4]

theorem closest_sim {l : List (Parse S)} {l' : List (Parse T)} (h : List.Forall₂ CoreEq l l') {r : Parse S} {r' : Parse T}
    (hr : CoreEq r r') : (closest l r = none ∧ closest l' r' = none) ∨ ∃ x y, closest l r = some x ∧ closest l' r' = some y ∧ CoreEq x y := by
  have key : ∀ (best : Nat) (c : Option (Parse S)) (c' : Option (Parse T)),
      ((c = none ∧ c' = none) ∨ ∃ x y, c = some x ∧ c' = some y ∧ CoreEq x y) →
      (closestLoop r l best c = none ∧ closestLoop r' l' best c' = none) ∨
        ∃ x y, closestLoop r l best c = some x ∧ closestLoop r' l' best c' = some y ∧ CoreEq x y := by
    induction h with
    | nil => intro best c c' hc; exact hc
    | cons hab _ ih =>
      rename_i a b _ _ _
      intro best c c' hc
      have hd : formDist a r = formDist b r' := by
        unfold formDist; rw [hab.fields.2.1, hr.fields.2.1]
      simp only [closestLoop, hd]
      split
      · exact ih _ _ _ (.inr ⟨a, b, rfl, rfl, hab⟩)
      · exact ih _ _ _ hc
  exact key _ _ _ (.inl ⟨rfl, rfl⟩)

theorem mergeForms_sim (u : UObj) {l : List (Parse S)} {l' : List (Parse T)} (h : List.Forall₂ CoreEq l l') {r : Parse S}
    {r' : Parse T} (hr : CoreEq r r') : ERel CoreEq (mergeForms u l r) (mergeForms u l' r') := by
  unfold mergeForms
  rcases closest_sim h hr with ⟨h1, h2⟩ | ⟨x, y, h1, h2, hxy⟩
  · rw [h1, h2]; exact .err _
  · rw [h1, h2]
    obtain ⟨a1, a2, a3, a4⟩ := hxy.fields
    obtain ⟨b1, b2, b3, b4⟩ := hr.fields
    exact .ok (CoreEq.mk (by dsimp only; rw [a1, b1]) a2 (by dsimp only; rw [a3, b3]) (by dsimp only; rw [a4, b4]))

theorem lexemeOf_sim (m : Morph S) (m' : Morph T) (hd : m'.dict = m.dict) (hc : m'.cls = m.cls) (st : Stack) (p : Parse S) (q : Parse T) (h1 : p.word = q.word) (h2 : p.tag = q.tag)
    (h3 : p.nf = q.nf) : ERel (List.Forall₂ CoreEq) (lexemeOf m st p) (lexemeOf m' st q) := by
  fun_induction lexemeOf m st p generalizing q
  case case1 => exact .err _
  case case2 hk =>
    rw [lexemeOf]
    simp only [hk]
    rw [hd]
    unfold dictLexeme
    rw [← h1, ← h3]
    refine ERel.bind_same fun pi => ERel.bind_same fun para => ?_
    refine ERel.bind_same fun stem => ERel.bind_same fun rows => .ok ?_
    rw [List.forall₂_iff_get]
    refine ⟨by simp, fun i _ _ => ?_⟩
    simp [CoreEq, Parse.core, lexForm]
  case case3 hk =>
    rw [lexemeOf]
    split
    · next hk' => exact absurd hk' hk
    · exact .err _
  case case4 hk | case5 hk | case6 hk =>
    rw [lexemeOf]
    simp only [hk]
    exact .ok (.cons (CoreEq.mk h1 h2 h3 rfl) .nil)
  case case7 hk =>
    rw [lexemeOf]
    simp only [hk]
    rw [← h2, hc]
    refine ERel.bind_same fun tags => .ok ?_
    exact forall₂_map₂ (forall₂_same tags) _ _ fun a b hab => CoreEq.mk h1 hab h3 rfl
  case case8 tags hk =>
    rw [lexemeOf]
    simp only [hk]
    exact .ok (forall₂_map₂ (forall₂_same tags) _ _ fun a b hab => CoreEq.mk h1 hab h3 rfl)
  case case9 hk | case11 hk | case13 hk =>
    rw [lexemeOf]
    simp only [hk]
    exact .err _
  case case10 hk hr ih =>
    rw [lexemeOf]
    simp only [hk]
    rw [if_neg hr]
    refine ERel.bind (ih _ (by simp [Parse.withoutSuffix, h1]) h2 (by simp [Parse.withoutSuffix, h3])) fun fs gs h => .ok ?_
    refine forall₂_map₂ h _ _ fun a b hab => ?_
    obtain ⟨a1, a2, a3, a4⟩ := hab.fields
    exact CoreEq.mk (by simp [Parse.withSuffix, Parse.appendMethod, a1]) a2 (by simp [Parse.withSuffix, Parse.appendMethod, a3])
      (by simp [Parse.withSuffix, Parse.appendMethod, a4])
  case case12 hk hr ih =>
    rw [lexemeOf]
    simp only [hk]
    rw [if_neg hr]
    refine ERel.bind (ih _ (by simp [Parse.withoutPrefix, h1]) h2 (by simp [Parse.withoutPrefix, h3])) fun fs gs h => .ok ?_
    refine forall₂_map₂ h _ _ fun a b hab => ?_
    obtain ⟨a1, a2, a3, a4⟩ := hab.fields
    exact CoreEq.mk (by simp [Parse.withPrefix, Parse.appendMethod, a1]) a2 (by simp [Parse.withPrefix, Parse.appendMethod, a3])
      (by simp [Parse.withPrefix, Parse.appendMethod, a4])
  case case14 hk hr ih =>
    rw [lexemeOf]
    simp only [hk]
    rw [if_neg hr]
    refine ERel.bind (ih _ h1 h2 h3) fun fs gs h => .ok ?_
    refine forall₂_map₂ h _ _ fun a b hab => ?_
    obtain ⟨a1, a2, a3, a4⟩ := hab.fields
    exact CoreEq.mk a1 a2 a3 (by simp [Parse.appendMethod, a4])
  case case15 hk =>
    rw [lexemeOf]
    split <;> first | exact .err _ | simp_all
  case case16 hr =>
    rw [lexemeOf, if_pos hr]
    exact .err _
  case case17 hr ih =>
    rw [lexemeOf, if_neg hr]
    refine ERel.bind (ih _ (by simp [Parse.withoutPrefix, h1]) h2 (by simp [Parse.withoutPrefix, h3])) fun fs gs h => .ok ?_
    refine forall₂_map₂ h _ _ fun a b hab => ?_
    obtain ⟨a1, a2, a3, a4⟩ := hab.fields
    exact CoreEq.mk (by simp [Parse.withPrefix, a1]) a2 (by simp [Parse.withPrefix, a3]) (by simp [a4])
  case case18 hr =>
    rw [lexemeOf, if_pos hr]
    exact .err _
  case case19 hr ih2 ih1 =>
    rw [lexemeOf, if_neg hr]
    refine ERel.bind (R := fun (a : Parse S) (b : Parse T) => a.word = b.word ∧ a.tag = b.tag ∧ a.nf = b.nf) ?_ fun lf lf' hl => ?_
    · unfold withoutRightPart
      rw [← h1, ← h3]
      exact ERel.bind_same fun w => ERel.bind_same fun n => .ok ⟨rfl, h2, rfl⟩
    refine ERel.bind (R := fun (a : Parse S) (b : Parse T) => a.word = b.word ∧ a.tag = b.tag ∧ a.nf = b.nf) ?_ fun rf rf' hr' => ?_
    · unfold withoutLeftPart
      rw [← h1, ← h3]
      exact ERel.bind_same fun w => ERel.bind_same fun n => .ok ⟨rfl, h2, rfl⟩
    refine ERel.bind (ih2 lf lf' hl.1 hl.2.1 hl.2.2) fun ls ls' hls => ?_
    refine ERel.bind (ih1 rf rf' hr'.1 hr'.2.1 hr'.2.2) fun rs rs' hrs => ?_
    exact ERel.mapE hrs fun a b _ hab => mergeForms_sim _ hls hab

/-- `pyNext` of corresponding lists. -/
theorem pyNext_sim {l : List (Parse S)} {l' : List (Parse T)} (h : List.Forall₂ CoreEq l l') : ERel CoreEq (pyNext l) (pyNext l') := by
  cases h with
  | nil => exact .err _
  | cons h _ => exact .ok h

theorem normalizedOf_sim (m : Morph S) (m' : Morph T) (hd : m'.dict = m.dict) (hc : m'.cls = m.cls) (st : Stack) (p : Parse S) (q : Parse T)
    (h1 : p.word = q.word) (h2 : p.tag = q.tag) (h3 : p.nf = q.nf) : ERel CoreEq (normalizedOf m st p) (normalizedOf m' st q) := by
  fun_induction normalizedOf m st p generalizing q
  case case1 => exact .err _
  case case2 hk =>
    rw [normalizedOf]
    simp only [hk]
    rw [hd]
    unfold dictNormalized
    refine ERel.bind_same fun pi => ?_
    split
    · exact .ok (CoreEq.mk h1 h2 h3 rfl)
    · refine ERel.bind_same fun tag => .ok ?_
      simp [CoreEq, Parse.core, h3]
  case case3 hk =>
    rw [normalizedOf]
    split
    · next hk' => exact absurd hk' hk
    · exact .err _
  case case4 hk | case5 hk | case6 hk =>
    rw [normalizedOf]
    simp only [hk]
    exact .ok (CoreEq.mk h1 h2 h3 rfl)
  case case7 hk =>
    rw [normalizedOf]
    simp only [hk]
    rw [← h2, hc]
    exact ERel.bind_same fun tags => ERel.bind_same fun t => .ok (CoreEq.mk h1 rfl h3 rfl)
  case case8 tags hk =>
    rw [normalizedOf]
    simp only [hk]
    exact ERel.bind_same fun t => .ok (CoreEq.mk h1 rfl h3 rfl)
  case case9 hk | case11 hk | case13 hk =>
    rw [normalizedOf]
    simp only [hk]
    exact .err _
  case case10 hk hr ih =>
    rw [normalizedOf]
    simp only [hk]
    rw [if_neg hr]
    refine ERel.bind (ih _ (by simp [Parse.withoutSuffix, h1]) h2 (by simp [Parse.withoutSuffix, h3])) fun a b hab => .ok ?_
    obtain ⟨a1, a2, a3, a4⟩ := hab.fields
    exact CoreEq.mk (by simp [Parse.withSuffix, Parse.appendMethod, a1]) a2 (by simp [Parse.withSuffix, Parse.appendMethod, a3])
      (by simp [Parse.withSuffix, Parse.appendMethod, a4])
  case case12 hk hr ih =>
    rw [normalizedOf]
    simp only [hk]
    rw [if_neg hr]
    refine ERel.bind (ih _ (by simp [Parse.withoutPrefix, h1]) h2 (by simp [Parse.withoutPrefix, h3])) fun a b hab => .ok ?_
    obtain ⟨a1, a2, a3, a4⟩ := hab.fields
    exact CoreEq.mk (by simp [Parse.withPrefix, Parse.appendMethod, a1]) a2 (by simp [Parse.withPrefix, Parse.appendMethod, a3])
      (by simp [Parse.withPrefix, Parse.appendMethod, a4])
  case case14 hk hr ih =>
    rw [normalizedOf]
    simp only [hk]
    rw [if_neg hr]
    refine ERel.bind (ih _ h1 h2 h3) fun a b hab => .ok ?_
    obtain ⟨a1, a2, a3, a4⟩ := hab.fields
    exact CoreEq.mk a1 a2 a3 (by simp [Parse.appendMethod, a4])
  case case15 hk =>
    rw [normalizedOf]
    split <;> first | exact .err _ | simp_all
  case case16 =>
    rw [normalizedOf]
    exact ERel.bind (lexemeOf_sim m m' hd hc _ _ _ h1 h2 h3) fun fs gs h => pyNext_sim h
  case case17 hr =>
    rw [normalizedOf, if_pos hr]
    exact .err _
  case case18 hr =>
    rw [normalizedOf, if_neg hr]
    refine ERel.bind (R := fun (a : Parse S) (b : Parse T) => a.word = b.word ∧ a.tag = b.tag ∧ a.nf = b.nf) ?_ fun lf lf' hl => ?_
    · unfold withoutRightPart
      rw [← h1, ← h3]
      exact ERel.bind_same fun w => ERel.bind_same fun n => .ok ⟨rfl, h2, rfl⟩
    refine ERel.bind (R := fun (a : Parse S) (b : Parse T) => a.word = b.word ∧ a.tag = b.tag ∧ a.nf = b.nf) ?_ fun rf rf' hr' => ?_
    · unfold withoutLeftPart
      rw [← h1, ← h3]
      exact ERel.bind_same fun w => ERel.bind_same fun n => .ok ⟨rfl, h2, rfl⟩
    refine ERel.bind (lexemeOf_sim m m' hd hc _ lf lf' hl.1 hl.2.1 hl.2.2) fun ls ls' hls => ?_
    refine ERel.bind (lexemeOf_sim m m' hd hc _ rf rf' hr'.1 hr'.2.1 hr'.2.2) fun rs rs' hrs => ?_
    exact ERel.bind (pyNext_sim hrs) fun a b hab => mergeForms_sim _ hls hab

end Verif
