/-
C07 — closed word classes are never predicted.
-/
import Verif.Lemmas.Outer
import Verif.Lemmas.DictCheck

set_option linter.unusedSectionVars false

namespace Verif

variable {S : Type} [Score S]

/-- The closed classes, written out (tagset.py:231-232). -/
def closedClasses : List Str := [c!"NUMR", c!"NPRO", c!"PRED", c!"PREP", c!"CONJ", c!"PRCL", c!"INTJ", c!"Apro"]

theorem isProductive_iff (t : Tag) : t.isProductive = true ↔ ∀ g ∈ closedClasses, g ∉ t.grammemes := by
  unfold Tag.isProductive
  rw [decide_eq_true_eq]
  have : ∀ g, g ∈ NON_PRODUCTIVE ↔ g ∈ closedClasses := by
    intro g; unfold NON_PRODUCTIVE closedClasses; rw [List.mem_toFinset]
  constructor
  · intro h g hg hm
    have : g ∈ t.grammemes ∩ NON_PRODUCTIVE := Finset.mem_inter.2 ⟨hm, (this g).2 hg⟩
    rw [h] at this; simp at this
  · intro h
    refine Finset.eq_empty_iff_forall_notMem.2 fun g hg => ?_
    obtain ⟨h1, h2⟩ := Finset.mem_inter.1 hg
    exact h g ((this g).1 h2) h1

/-- C07 for `parse`: a result whose outermost method is prefix removal or suffix prediction carries no closed-class
grammeme.  Any unit list, any dictionary, any input. -/
theorem c07_parse (m : Morph S) (w : Str) (ps : List (Parse S)) (h : m.parse w = .ok ps) (p : Parse S) (hp : p ∈ ps)
    (u : UObj) (ho : p.outer = some u) (hk : u.kind = .pref ∨ u.kind = .suff) :
    ∀ g ∈ closedClasses, g ∉ p.tag.grammemes := by
  obtain ⟨v, hv, seen, r, hr, q, hq, he⟩ := parseStep_mem_core m _ w ps h p hp
  simp only [Parse.core, Prod.mk.injEq] at he
  have h1 := unitParse_outer _ _ _ _ _ _ _ hr q hq
  have h2 : p.outer = q.outer := by simp [Parse.outer, he]
  rw [h2, h1] at ho
  simp at ho
  subst ho
  rw [← isProductive_iff, ← he.2.1]
  exact unitParse_productive _ _ _ _ _ _ _ hr q hq hk

/-- C07 for `tag`: the tags produced by a group made of prefix and suffix prediction units (in the default analyzers the
groups [KnownPrefix] and [UnknownPrefix, KnownSuffix]) carry no closed-class grammeme. -/
theorem c07_tag (m : Morph S) (rec : Rec S) (w wl : Str) (g : List (BUnit S)) (seen : SeenTags)
    (hg : ∀ u ∈ g, u.cfg.kind = .pref ∨ u.cfg.kind = .suff) (ts : List Tag)
    (h : groupTag m rec w wl g seen = .ok ts) : ∀ t ∈ ts, ∀ gr ∈ closedClasses, gr ∉ t.grammemes := by
  intro t ht
  obtain ⟨u, hu, s, r, hr, htr⟩ := groupTag_mem _ _ _ _ _ _ _ h t ht
  rw [← isProductive_iff]
  exact unitTag_productive _ _ _ _ _ _ _ hr t htr (hg u hu)

/-- Non-vacuity (test): `некошка` is answered by a prefix unit. -/
example : (Demo.morph.parse (c!"некошка")).toOption.map (·.map fun p => p.outer.map UObj.kind)
    = some [some .pref] := by decide +kernel
/-- and `мошка` by the suffix unit. -/
example : (Demo.morph.parse (c!"мошка")).toOption.map (·.map fun p => p.outer.map UObj.kind)
    = some [some .suff] := by decide +kernel
/-- `нечто` is not predicted from `что` (a conjunction) — it is left unknown. -/
example : (Demo.morph.parse (c!"нечто")).toOption.map (·.map fun p => p.tag.str) = some [c!"UNKN"] := by decide +kernel

end Verif
