/-
C20 — agreement with numerals.
-/
import Verif.Lemmas.DictCheck
import Verif.Demo

set_option linter.unusedSectionVars false

namespace Verif

variable {S : Type} [Score S]

/-- The three classes of Russian numerals. -/
inductive NumClass
  /-- 1, 21, 31, …, 101, … but not 11, 111, … -/
  | one
  /-- 2-4, 22-24, … but not 12-14, 112-114, … -/
  | few
  /-- everything else -/
  | many
  deriving DecidableEq

/-- Ends in 1, but not in 11. -/
def EndsOne (n : Nat) : Prop := (∃ k, n = 10 * k + 1) ∧ ¬ ∃ k, n = 100 * k + 11
/-- Ends in 2, 3 or 4, but not in 12, 13 or 14. -/
def EndsFew (n : Nat) : Prop := (∃ k, n = 10 * k + 2 ∨ n = 10 * k + 3 ∨ n = 10 * k + 4) ∧
  ¬ ∃ k, n = 100 * k + 12 ∨ n = 100 * k + 13 ∨ n = 100 * k + 14

/-- `n` (a natural number) belongs to the class, by its decimal ending. -/
def InClass (n : Nat) : NumClass → Prop
  | .one => EndsOne n
  | .few => EndsFew n
  | .many => ¬ EndsOne n ∧ ¬ EndsFew n

/-- The index the code uses for the class. -/
def indexOf : NumClass → Nat
  | .one => 0
  | .few => 1
  | .many => 2

theorem inClass_one (n : Nat) : InClass n .one ↔ n % 10 = 1 ∧ n % 100 ≠ 11 := by
  show EndsOne n ↔ _
  unfold EndsOne
  constructor
  · rintro ⟨⟨k, rfl⟩, h⟩
    refine ⟨by omega, fun e => h ⟨(10 * k + 1) / 100, by omega⟩⟩
  · rintro ⟨h1, h2⟩
    refine ⟨⟨n / 10, by omega⟩, ?_⟩
    rintro ⟨k, rfl⟩
    omega

theorem inClass_few (n : Nat) : InClass n .few ↔ (n % 10 = 2 ∨ n % 10 = 3 ∨ n % 10 = 4) ∧
    ¬ (n % 100 = 12 ∨ n % 100 = 13 ∨ n % 100 = 14) := by
  show EndsFew n ↔ _
  unfold EndsFew
  constructor
  · rintro ⟨⟨k, hk⟩, h⟩
    refine ⟨by omega, fun e => h ⟨n / 100, by omega⟩⟩
  · rintro ⟨h1, h2⟩
    refine ⟨⟨n / 10, by omega⟩, ?_⟩
    rintro ⟨k, hk⟩
    omega

theorem numeralIndex_inClass (n : Nat) (c : NumClass) : InClass n c ↔ numeralIndex (n : Int) = indexOf c := by
  unfold numeralIndex
  cases c with
  | one =>
    rw [inClass_one]; simp only [indexOf]
    split
    · omega
    · split <;> omega
  | few =>
    rw [inClass_few]; simp only [indexOf]
    split
    · omega
    · split <;> omega
  | many =>
    show ¬ (InClass n .one) ∧ ¬ (InClass n .few) ↔ _
    rw [inClass_one, inClass_few]; simp only [indexOf]
    split
    · omega
    · split <;> omega

/-- Every natural number belongs to exactly one class. -/
theorem c20_classes (n : Nat) : ∃ c, InClass n c ∧ ∀ c', InClass n c' → c' = c := by
  have huniq : ∀ c c', InClass n c → InClass n c' → c' = c := by
    intro c c' h h'
    rw [numeralIndex_inClass] at h h'
    cases c <;> cases c' <;> simp_all [indexOf]
  have : numeralIndex n = 0 ∨ numeralIndex n = 1 ∨ numeralIndex n = 2 := by
    unfold numeralIndex; split
    · simp
    · split <;> simp
  rcases this with h | h | h
  · exact ⟨.one, (numeralIndex_inClass n .one).2 h, fun c' => huniq _ _ ((numeralIndex_inClass n .one).2 h)⟩
  · exact ⟨.few, (numeralIndex_inClass n .few).2 h, fun c' => huniq _ _ ((numeralIndex_inClass n .few).2 h)⟩
  · exact ⟨.many, (numeralIndex_inClass n .many).2 h, fun c' => huniq _ _ ((numeralIndex_inClass n .many).2 h)⟩

/-- The result depends on the number only modulo 100. -/
theorem c20_mod_100 (pick : Grams → Option Str) (t : Tag) (a b : Int) (h : a % 100 = b % 100) :
    numeralAgreement pick t a = numeralAgreement pick t b := by
  have hi : numeralIndex a = numeralIndex b := by
    have h10 : a % 10 = b % 10 := by omega
    unfold numeralIndex; rw [h, h10]
  unfold numeralAgreement; rw [hi]

/-- `next(iter(s))`: some element of a non-empty set. -/
def Picks (pick : Grams → Option Str) : Prop := ∀ s : Grams, s ≠ ∅ → ∃ g ∈ s, pick s = some g

theorem category_unique {pick : Grams → Option Str} (hp : Picks pick) {t : Tag} {cat : Grams} {g : Str}
    (h : cat ∩ t.grammemes = {g}) : t.category pick cat = some g := by
  unfold Tag.category
  rw [h, if_neg (by simp)]
  obtain ⟨x, hx, e⟩ := hp {g} (by simp)
  rw [Finset.mem_singleton] at hx; rw [e, hx]

theorem category_none {pick : Grams → Option Str} {t : Tag} {cat : Grams}
    (h : cat ∩ t.grammemes = ∅) : t.category pick cat = none := by
  unfold Tag.category; rw [if_pos h]

/-- A tag whose part of speech is `pos` and nothing else. -/
def HasPos (t : Tag) (pos : Str) : Prop := PARTS_OF_SPEECH ∩ t.grammemes = {pos}
/-- A tag with exactly one case. -/
def HasCase (t : Tag) (c : Str) : Prop := CASES ∩ t.grammemes = {c}

/-- Nouns in nominative or accusative: singular of the same case / genitive singular / genitive plural. -/
theorem c20_noun_direct (pick : Grams → Option Str) (hp : Picks pick) (t : Tag) (c : Str) (n : Nat)
    (hpos : HasPos t (c!"NOUN")) (hcase : HasCase t c) (hc : c = c!"nomn" ∨ c = c!"accs") :
    (InClass n .one → numeralAgreement pick t n = [some (c!"sing"), some c]) ∧
    (InClass n .few → numeralAgreement pick t n = [some (c!"sing"), some (c!"gent")]) ∧
    (InClass n .many → numeralAgreement pick t n = [some (c!"plur"), some (c!"gent")]) := by
  simp only [numeralIndex_inClass, indexOf]
  unfold numeralAgreement
  rw [category_unique hp hpos, category_unique hp hcase]
  rcases hc with rfl | rfl <;> refine ⟨?_, ?_, ?_⟩ <;> intro h <;> simp [h]

/-- Nouns in other cases keep the case; the number is singular only after "one". -/
theorem c20_noun_oblique (pick : Grams → Option Str) (hp : Picks pick) (t : Tag) (c : Str) (n : Nat)
    (hpos : HasPos t (c!"NOUN")) (hcase : HasCase t c) (hc : c ≠ c!"nomn" ∧ c ≠ c!"accs") :
    (InClass n .one → numeralAgreement pick t n = [some (c!"sing"), some c]) ∧
    (¬ InClass n .one → numeralAgreement pick t n = [some (c!"plur"), some c]) := by
  simp only [numeralIndex_inClass, indexOf]
  unfold numeralAgreement
  rw [category_unique hp hpos, category_unique hp hcase]
  refine ⟨?_, ?_⟩ <;> intro h <;> simp [h, hc]

/-- Full adjectives and participles.  After "one" the case is nominative if it was, otherwise accusative; feminine ones
take the nominative plural after 2-4; everything else is genitive plural. -/
theorem c20_adjective (pick : Grams → Option Str) (hp : Picks pick) (t : Tag) (pos : Str) (n : Nat)
    (hpos : HasPos t pos) (hadj : pos = c!"ADJF" ∨ pos = c!"PRTF") :
    (InClass n .one → HasCase t (c!"nomn") → numeralAgreement pick t n = [some (c!"sing"), some (c!"nomn")]) ∧
    (InClass n .one → (∃ c, HasCase t c ∧ c ≠ c!"nomn") →
      numeralAgreement pick t n = [some (c!"sing"), some (c!"accs")]) ∧
    (InClass n .few → GENDERS ∩ t.grammemes = {c!"femn"} →
      numeralAgreement pick t n = [some (c!"plur"), some (c!"nomn")]) ∧
    (InClass n .few → c!"femn" ∉ t.grammemes →
      numeralAgreement pick t n = [some (c!"plur"), some (c!"gent")]) ∧
    (InClass n .many → numeralAgreement pick t n = [some (c!"plur"), some (c!"gent")]) := by
  simp only [numeralIndex_inClass, indexOf]
  unfold numeralAgreement
  rw [category_unique hp hpos]
  refine ⟨?_, ?_, ?_, ?_, ?_⟩
  · intro h hc; rw [category_unique hp hc]; rcases hadj with rfl | rfl <;> simp [h]
  · rintro h ⟨c, hc, hne⟩; rw [category_unique hp hc]; rcases hadj with rfl | rfl <;> simp [h, hne]
  · intro h hg; rw [category_unique hp hg]; rcases hadj with rfl | rfl <;> simp [h]
  · intro h hg
    have hgen : t.category pick GENDERS ≠ some (c!"femn") := by
      intro e
      unfold Tag.category at e
      split at e
      · simp at e
      · next hne =>
        obtain ⟨x, hx, ex⟩ := hp _ hne
        rw [ex] at e; injection e with e; subst e
        exact hg (Finset.mem_inter.1 hx).2
    rcases hadj with rfl | rfl <;> simp [h, hgen]
  · intro h; rcases hadj with rfl | rfl <;> simp [h]

/-- Words of other parts of speech have nothing to agree: the result is empty (so the word is not changed in case or number
on purpose). -/
theorem c20_other (pick : Grams → Option Str) (t : Tag) (num : Int) (hp : Picks pick)
    (h : ∀ g ∈ t.grammemes, g ≠ c!"NOUN" ∧ g ≠ c!"ADJF" ∧ g ≠ c!"PRTF") : numeralAgreement pick t num = [] := by
  unfold numeralAgreement
  rw [if_pos]
  unfold Tag.category
  split
  · simp
  · next hne =>
    obtain ⟨x, hx, e⟩ := hp _ hne
    rw [e]
    have := h x (Finset.mem_inter.1 hx).2
    simpa using this

/-- `make_agree_with_number` is `inflect` with these grammemes. -/
theorem c20_make_agree (m : Morph S) (sim : Sim) (pick : Grams → Option Str) (p : Parse S) (num : Int) (req : List Str)
    (h : numeralAgreement pick p.tag num = req.map some) : m.makeAgree sim pick p num = m.inflect sim p req := by
  have : ∀ l : List Str, allSome (l.map some) = some l := by
    intro l
    induction l with
    | nil => rfl
    | cons a as ih => simp [allSome, ih]
  unfold Morph.makeAgree
  rw [h, this]

/-- Not symmetric in the sign: Python's `%` makes −1 end in 9. -/
theorem c20_negative : ∃ (t : Tag) (num : Int), num > 0 ∧ ∀ pick, Picks pick →
    numeralAgreement pick t (-num) ≠ numeralAgreement pick t num := by
  refine ⟨⟨c!"NOUN,inan,masc sing,nomn"⟩, 1, by decide, ?_⟩
  intro pick hp
  have h1 : HasPos ⟨c!"NOUN,inan,masc sing,nomn"⟩ (c!"NOUN") := by unfold HasPos; decide +kernel
  have h2 : HasCase ⟨c!"NOUN,inan,masc sing,nomn"⟩ (c!"nomn") := by unfold HasCase; decide +kernel
  unfold numeralAgreement
  rw [category_unique hp h1, category_unique hp h2]
  simp [numeralIndex]

/-- A noun without a case: `make_agree_with_number` raises `ValueError` for every number (if it has a lexeme at all). -/
theorem c20_caseless_noun (m : Morph S) (sim : Sim) (pick : Grams → Option Str) (hp : Picks pick) (p : Parse S) (num : Int)
    (hpos : HasPos p.tag (c!"NOUN")) (hcase : CASES ∩ p.tag.grammemes = ∅) (hl : ∃ fs, m.lexeme p = .ok fs)
    (hk : m.cls.known ≠ ∅) : m.makeAgree sim pick p num = .error .valueError := by
  obtain ⟨fs, hl⟩ := hl
  have : allSome (numeralAgreement pick p.tag num) = none := by
    unfold numeralAgreement
    rw [category_unique hp hpos, category_none hcase]
    by_cases h0 : numeralIndex num = 0 <;> simp [h0, allSome]
  unfold Morph.makeAgree
  rw [this]
  simp [hl, TagCls.assertInit, hk]

/-- An adjective in an oblique case does not keep it: after 1 the dative is replaced by the accusative. -/
theorem c20_adjective_loses_case : ∃ t : Tag, HasPos t (c!"ADJF") ∧ HasCase t (c!"datv") ∧ ∀ pick, Picks pick →
    numeralAgreement pick t 1 = [some (c!"sing"), some (c!"accs")] := by
  refine ⟨⟨c!"ADJF,Qual masc,sing,datv"⟩, by unfold HasPos; decide +kernel, by unfold HasCase; decide +kernel, ?_⟩
  intro pick hp
  exact (c20_adjective pick hp _ _ 1 (by unfold HasPos; decide +kernel) (.inl rfl)).2.1
    ((numeralIndex_inClass 1 .one).2 (by decide)) ⟨c!"datv", by unfold HasCase; decide +kernel, by decide⟩

/-! Non-vacuity (tests). -/
noncomputable example : Picks fun s => if h : s = ∅ then none else some (Finset.nonempty_iff_ne_empty.2 h).choose :=
  fun s hs => ⟨_, (Finset.nonempty_iff_ne_empty.2 hs).choose_spec, by simp [hs]⟩
example : InClass 121 .one := (numeralIndex_inClass 121 .one).2 (by decide)
example : InClass 12 .many := (numeralIndex_inClass 12 .many).2 (by decide)
example : HasPos ⟨c!"NOUN,anim,femn sing,nomn"⟩ (c!"NOUN") := by unfold HasPos; decide +kernel
example : HasPos ⟨c!"NOUN,Abbr"⟩ (c!"NOUN") ∧ CASES ∩ (⟨c!"NOUN,Abbr"⟩ : Tag).grammemes = ∅ := by
  unfold HasPos; decide +kernel

end Verif
