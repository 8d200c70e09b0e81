/-
C90: answers do not depend on the order in which Python enumerates its sets (PYTHONHASHSEED).
-/
import Verif.Props.C20
import Verif.Props.C24
import Verif.Props.C23
import Verif.Props.C75
import Verif.Props.C34
import Verif.Props.C88

set_option linter.unusedSectionVars false

namespace Verif

variable {S : Type} [Score S]

/-! ### inflect -/

theorem toFinset_same {req req' : List Str} (h : ∀ g, g ∈ req ↔ g ∈ req') : req.toFinset = req'.toFinset := by
  ext g; simp [h g]

theorem map_same {req req' : List Str} (f : Str → Str) (h : ∀ g, g ∈ req ↔ g ∈ req') (g : Str) : g ∈ req.map f ↔ g ∈ req'.map f := by
  simp [h]

/-- `updated_grammemes` in two enumerations: same set or same exception. -/
theorem updated_same (c : TagCls) (t : Tag) {req req' : List Str} (h : ∀ g, g ∈ req ↔ g ∈ req') :
    updatedGrammemes c t req = updatedGrammemes c t req' := by
  have hv := c24_order_irrelevant c t req req' h
  obtain ⟨a1, a2, a3⟩ := c24_error c t req
  obtain ⟨b1, b2, _⟩ := c24_error c t req'
  have hne : req ≠ [] ↔ req' ≠ [] := by
    simp only [ne_eq, List.eq_nil_iff_forall_not_mem, h]
  cases he : updatedGrammemes c t req with
  | ok g => exact ((hv g).1 he).symm
  | error e =>
    rcases a3 e he with rfl | rfl
    · obtain ⟨⟨r, hr, hn⟩, hc⟩ := a1.1 he
      exact (b1.2 ⟨⟨r, (h r).1 hr, hn⟩, hc⟩).symm
    · obtain ⟨hr, hc⟩ := a2.1 he
      exact (b2.2 ⟨hne.1 hr, hc⟩).symm

/-- **C90, inflect.** `inflect` is given a set; in whatever order its members come, the result is the same, or the same exception is raised. -/
theorem c90_inflect (m : Morph S) (sim : Sim) (p : Parse S) (req req' : List Str) (h : ∀ g, g ∈ req ↔ g ∈ req') :
    m.inflect sim p req = m.inflect sim p req' := by
  unfold Morph.inflect
  dsimp only
  rw [toFinset_same h, toFinset_same (map_same fixRare1 h), updated_same m.cls p.tag h, updated_same m.cls p.tag (map_same fixRare1 h)]

/-! ### Attributes -/

/-- Some enumeration starts with a given member: `next(iter(s))` is that member if the set has it. -/
noncomputable def favour (g : Str) (s : Grams) : Option Str :=
  if g ∈ s then some g else if h : s.Nonempty then some h.choose else none

theorem favour_isChoice (g : Str) : IsChoice (favour g) := by
  intro s hs
  unfold favour
  by_cases h : g ∈ s
  · exact ⟨g, h, by rw [if_pos h]⟩
  · have hn : s.Nonempty := Finset.nonempty_iff_ne_empty.2 hs
    exact ⟨hn.choose, hn.choose_spec, by rw [if_neg h, dif_pos hn]⟩

theorem category_eq_of_unique {pick pick' : Grams → Option Str} (hp : IsChoice pick) (hp' : IsChoice pick') (t : Tag) (cat : Grams)
    (h : ∀ g ∈ t.tuple, ∀ g' ∈ t.tuple, g ∈ cat → g' ∈ cat → g = g') : t.category pick cat = t.category pick' cat := by
  obtain ⟨a1, a2, _⟩ := c27_attribute pick hp t cat
  obtain ⟨_, _, b3⟩ := c27_attribute pick' hp' t cat
  obtain ⟨b1, _, _⟩ := c27_attribute pick' hp' t cat
  cases hv : t.category pick cat with
  | none => exact (b1.2 (a1.1 hv)).symm
  | some g =>
    obtain ⟨h1, h2⟩ := a2 g hv
    exact (b3 g h1 h2 fun g' hg' hc' => h g' hg' g h1 hc' h2).symm

/-- **C90, attributes.** `tag.POS`, `tag.case`, … is the same for all enumeration orders exactly if the tag has at most one grammeme of
the category. -/
theorem c90_attributes (t : Tag) (a : Attr) :
    (∀ pick pick', IsChoice pick → IsChoice pick' → t.attr pick a = t.attr pick' a) ↔
      ∀ g ∈ t.tuple, ∀ g' ∈ t.tuple, g ∈ a.value → g' ∈ a.value → g = g' := by
  constructor
  · intro h g hg g' hg' hc hc'
    have e := h (favour g) (favour g') (favour_isChoice g) (favour_isChoice g')
    have val : ∀ x, x ∈ t.tuple → x ∈ a.value → t.attr (favour x) a = some x := by
      intro x hx hxa
      have hm : x ∈ a.cat ∩ t.grammemes := by
        rw [Finset.mem_inter]; exact ⟨(mem_cat a x).2 hxa, by simpa [Tag.grammemes] using hx⟩
      unfold Tag.attr Tag.category
      rw [if_neg (Finset.ne_empty_of_mem hm)]
      unfold favour
      rw [if_pos hm]
    rw [val g hg hc, val g' hg' hc'] at e
    exact Option.some.inj e
  · intro h pick pick' hp hp'
    exact category_eq_of_unique hp hp' t a.cat fun g hg g' hg' hc hc' => h g hg g' hg' ((mem_cat a g).1 hc) ((mem_cat a g').1 hc')

/-! ### make_agree_with_number -/

/-- The tag has at most one grammeme of the category. -/
def Tag.AtMostOne (t : Tag) (a : Attr) : Prop := ∀ g ∈ t.tuple, ∀ g' ∈ t.tuple, g ∈ a.value → g' ∈ a.value → g = g'

instance (t : Tag) (a : Attr) : Decidable (t.AtMostOne a) := by unfold Tag.AtMostOne; infer_instance

/-- **C90, agreement with numbers.** For a form whose tag has at most one part of speech, case and gender the result is the same for all
enumeration orders. -/
theorem c90_agree (m : Morph S) (sim : Sim) (pick pick' : Grams → Option Str) (hp : IsChoice pick) (hp' : IsChoice pick') (p : Parse S)
    (h1 : p.tag.AtMostOne .pos) (h2 : p.tag.AtMostOne .case) (h3 : p.tag.AtMostOne .gender) (num : Int) :
    m.makeAgree sim pick p num = m.makeAgree sim pick' p num := by
  have e1 : p.tag.category pick PARTS_OF_SPEECH = p.tag.category pick' PARTS_OF_SPEECH := (c90_attributes p.tag .pos).2 h1 pick pick' hp hp'
  have e2 : p.tag.category pick CASES = p.tag.category pick' CASES := (c90_attributes p.tag .case).2 h2 pick pick' hp hp'
  have e3 : p.tag.category pick GENDERS = p.tag.category pick' GENDERS := (c90_attributes p.tag .gender).2 h3 pick pick' hp hp'
  unfold Morph.makeAgree numeralAgreement
  rw [e1, e2, e3]

/-- With two genders it may differ. -/
theorem c90_two_genders : ∃ (t : Tag) (num : Int) (pick pick' : Grams → Option Str), IsChoice pick ∧ IsChoice pick' ∧
    t.AtMostOne .pos ∧ t.AtMostOne .case ∧ numeralAgreement pick t num ≠ numeralAgreement pick' t num := by
  refine ⟨⟨c!"ADJF femn,masc,sing,nomn"⟩, 2, favour (c!"femn"), favour (c!"masc"), favour_isChoice _, favour_isChoice _, by decide +kernel,
    by decide +kernel, ?_⟩
  have hpos : ∀ pick, IsChoice pick → (⟨c!"ADJF femn,masc,sing,nomn"⟩ : Tag).category pick PARTS_OF_SPEECH = some (c!"ADJF") :=
    fun pick hp => category_unique hp (by decide +kernel)
  have hg : ∀ g, g ∈ GENDERS ∩ (⟨c!"ADJF femn,masc,sing,nomn"⟩ : Tag).grammemes →
      (⟨c!"ADJF femn,masc,sing,nomn"⟩ : Tag).category (favour g) GENDERS = some g := by
    intro g hg
    unfold Tag.category
    rw [if_neg (Finset.ne_empty_of_mem hg)]
    unfold favour
    rw [if_pos hg]
  have hi : numeralIndex 2 = 1 := by decide
  unfold numeralAgreement
  rw [hpos _ (favour_isChoice _), hpos _ (favour_isChoice _), hg (c!"femn") (by decide +kernel), hg (c!"masc") (by decide +kernel), hi]
  decide

/-! ### The helper of the compiler -/

/-- **C90, `largest_elements`.** The keys are put into a set; in whatever order it is enumerated, the same elements are selected. -/
theorem c90_largest {α K : Type} [LinearOrder K] (xs : List α) (key : α → K) (n : Nat) (ks : List K) (hn : ks.Nodup)
    (hk : ∀ k, k ∈ ks ↔ ∃ x ∈ xs, key x = k) : (xs.filter fun el => decide (key el ∈ nlargest n ks)) = largestElements xs key n := by
  have hp : ks.Perm (xs.map key).dedup := by
    rw [List.perm_ext_iff_of_nodup hn (List.nodup_dedup _)]
    intro k; rw [hk, List.mem_dedup, List.mem_map]
  have : nlargest n ks = nlargest n (xs.map key).dedup := by
    unfold nlargest
    rw [List.Perm.eq_of_pairwise (fun a b _ _ h1 h2 => le_antisymm h2 h1) (List.pairwise_insertionSort (fun a b : K => b ≤ a) ks)
      (List.pairwise_insertionSort (fun a b : K => b ≤ a) (xs.map key).dedup)
      (((List.perm_insertionSort _ _).trans hp).trans (List.perm_insertionSort _ _).symm)]
  unfold largestElements
  rw [this]

/-- **C90, the table of suffixes.** The compiler sorts the set of the suffixes of all paradigms; in whatever order the set is enumerated, the
table (and with it the numbers of the suffixes in the compiled paradigms) is the same. -/
theorem c90_suffixes (paradigms : List (List (Str × Nat × Str))) (l : List Str) (hn : l.Nodup)
    (hl : ∀ x, x ∈ l ↔ ∃ p ∈ paradigms, ∃ f ∈ p, f.1 = x) : sortStrs l = allSuffixes paradigms := by
  have hp : l.Perm (paradigms.flatMap fun p => p.map (·.1)).dedup := by
    rw [List.perm_ext_iff_of_nodup hn (List.nodup_dedup _)]
    intro k; rw [hl, List.mem_dedup, List.mem_flatMap]; simp
  obtain ⟨hirr, htr, htot⟩ := strLt_strictTotal
  let r : Str → Str → Prop := fun a b => strLt b a = false
  have r_total : ∀ a b : Str, r a b ∨ r b a := by
    intro a b
    by_cases h : strLt b a = true
    · right
      by_contra hc
      have hc : strLt a b = true := by simpa [r] using hc
      have := htr _ _ _ h hc
      rw [hirr] at this
      exact absurd this (by simp)
    · left; simpa [r] using h
  have r_trans : ∀ a b c : Str, r a b → r b c → r a c := by
    intro a b c h1 h2
    by_contra hc
    have hc : strLt c a = true := by simpa [r] using hc
    rcases or_left_comm.1 (htot a b) with h | h | h
    · have := htr _ _ _ hc h
      simp only [r] at h2
      rw [this] at h2; simp at h2
    · subst h
      simp only [r] at h2
      rw [hc] at h2; simp at h2
    · simp only [r] at h1
      rw [h] at h1; simp at h1
  haveI : Std.Total r := ⟨r_total⟩
  haveI : IsTrans Str r := ⟨r_trans⟩
  unfold allSuffixes sortStrs
  refine List.Perm.eq_of_pairwise (le := r) ?_ (List.pairwise_insertionSort r l) (List.pairwise_insertionSort r _)
    (((List.perm_insertionSort _ _).trans hp).trans (List.perm_insertionSort _ _).symm)
  intro a b _ _ h1 h2
  rcases or_left_comm.1 (htot a b) with h | h | h
  · simp only [r] at h2; rw [h] at h2; simp at h2
  · exact h
  · simp only [r] at h1; rw [h] at h1; simp at h1

/-! ### The hypotheses are met -/

example : (Demo.koshka.tag).AtMostOne .pos ∧ (Demo.koshka.tag).AtMostOne .case ∧ (Demo.koshka.tag).AtMostOne .gender := by decide +kernel

example : Demo.morph.inflect Sim.exact Demo.koshka [c!"plur", c!"gent"] = Demo.morph.inflect Sim.exact Demo.koshka [c!"gent", c!"plur", c!"gent"] :=
  c90_inflect _ _ _ _ _ (by intro g; simp; tauto)

end Verif
