/-
C23 — tag construction, equality, ordering and pickling are coherent.
-/
import Verif.Model.Tag
import Verif.Demo

namespace Verif

/-! ### Splitting -/

theorem replaceFirst_of_not_mem (a b : Char) (s : Str) (h : a ∉ s) : replaceFirst a b s = s := by
  induction s with
  | nil => rfl
  | cons x xs ih =>
    simp only [List.mem_cons, not_or] at h
    rw [replaceFirst, if_neg (fun e => h.1 e.symm), ih h.2]

theorem replaceFirst_append (a b : Char) (p s : Str) (h : a ∉ p) : replaceFirst a b (p ++ a :: s) = p ++ b :: s := by
  induction p with
  | nil => simp [replaceFirst]
  | cons x xs ih =>
    simp only [List.mem_cons, not_or] at h
    rw [List.cons_append, replaceFirst, if_neg (fun e => h.1 e.symm), ih h.2, List.cons_append]

theorem splitC_append_sep (c : Char) (a b : Str) : splitC c (a ++ c :: b) = splitC c a ++ splitC c b := by
  induction a with
  | nil => simp [splitC]
  | cons x xs ih =>
    rw [List.cons_append, splitC, splitC]
    split
    · rw [ih]; rfl
    · rw [ih]
      cases hs : splitC c xs with
      | nil => exact absurd hs (splitC_ne_nil c xs)
      | cons p ps => rfl

/-- The grammemes of a tag string: the pieces between commas, the first space acting as one more comma; further spaces are
ordinary characters. -/
theorem c23_parts (s : Str) : (' ' ∉ s → (Tag.mk s).tuple = splitC ',' s) ∧
    (∀ a b, s = a ++ ' ' :: b → ' ' ∉ a → (Tag.mk s).tuple = splitC ',' a ++ splitC ',' b) := by
  unfold Tag.tuple splitTag
  constructor
  · intro h; rw [replaceFirst_of_not_mem _ _ _ h]
  · rintro a b rfl h; rw [replaceFirst_append _ _ _ _ h, splitC_append_sep]

/-- Construction: `Tag(s)` succeeds iff every part of `s` is a known grammeme; otherwise it raises `ValueError`
(`RuntimeError` if the class was never initialised). -/
theorem c23_construct (c : TagCls) (s : Str) :
    (∀ t, c.mkTag s = .ok t ↔ t.str = s ∧ ∀ g ∈ t.tuple, g ∈ c.known) ∧
    (c.mkTag s = .error .valueError ↔ (∃ g ∈ (Tag.mk s).tuple, g ∉ c.known) ∧ c.known ≠ ∅) ∧
    (c.mkTag s = .error .runtimeError ↔ c.known = ∅) ∧
    (∀ e, c.mkTag s = .error e → e = .valueError ∨ e = .runtimeError) := by
  have hk : (splitTag s).toFinset ⊆ c.known ↔ ∀ g ∈ (Tag.mk s).tuple, g ∈ c.known := by
    simp only [Finset.subset_iff, List.mem_toFinset]; rfl
  have hn : (∃ g ∈ (Tag.mk s).tuple, g ∉ c.known) ↔ ¬ (splitTag s).toFinset ⊆ c.known := by rw [hk]; simp
  have hne : (splitTag s).toFinset ≠ ∅ := by simp [splitTag, splitC_ne_nil]
  have ht : ∀ t : Tag, (t.str = s ∧ ∀ g ∈ t.tuple, g ∈ c.known) ↔ t = ⟨s⟩ ∧ (splitTag s).toFinset ⊆ c.known := by
    rintro ⟨s'⟩
    rw [hk]
    constructor
    · rintro ⟨rfl, h⟩; exact ⟨rfl, h⟩
    · rintro ⟨h, h'⟩; injection h with h; subst h; exact ⟨rfl, h'⟩
  simp only [ht, hn]
  unfold TagCls.mkTag TagCls.assertKnown TagCls.assertInit
  by_cases h : (splitTag s).toFinset ⊆ c.known
  · have : c.known ≠ ∅ := by intro e; rw [e, Finset.subset_empty] at h; exact hne h
    simp [h, this, eq_comm]
  · by_cases h2 : c.known = ∅
    · simp only [h2, Finset.subset_empty, hne]; simp
    · simp [h, h2]

/-- Equality is equality of the grammeme sequences, an equivalence, and implies equal hashes (any function of the sequence)
and equal grammeme sets. -/
theorem c23_eq (a b d : Tag) : (a.eqv b = true ↔ a.tuple = b.tuple) ∧ a.eqv a = true ∧ (a.eqv b = b.eqv a) ∧
    (a.eqv b = true → b.eqv d = true → a.eqv d = true) ∧
    (a.eqv b = true → ∀ {γ : Type} (hash : List Str → γ), hash a.tuple = hash b.tuple) ∧
    (a.eqv b = true → a.grammemes = b.grammemes) := by
  have key : ∀ x y : Tag, x.eqv y = true ↔ x.tuple = y.tuple := by intro x y; simp [Tag.eqv]
  refine ⟨key a b, (key a a).2 rfl, ?_, ?_, ?_, ?_⟩
  · rw [Bool.eq_iff_iff, key, key]; exact eq_comm
  · rw [key, key, key]; exact Eq.trans
  · rw [key]; intro h _ hash; rw [h]
  · rw [key]; intro h; unfold Tag.grammemes; rw [h]

/-! ### Ordering -/

/-- A strict total order given as a Boolean function. -/
structure StrictTotal {α : Type} (lt : α → α → Bool) : Prop where
  irrefl : ∀ a, lt a a = false
  trans : ∀ a b c, lt a b = true → lt b c = true → lt a c = true
  total : ∀ a b, a = b ∨ lt a b = true ∨ lt b a = true

theorem listLt_strictTotal {α : Type} [DecidableEq α] (lt : α → α → Bool) (h : StrictTotal lt) :
    StrictTotal (listLt lt) where
  irrefl := by
    intro a
    induction a with
    | nil => rfl
    | cons x xs ih => simp [listLt, ih]
  trans := by
    intro a
    induction a with
    | nil => intro b c hab hbc; cases b <;> cases c <;> simp_all [listLt]
    | cons x xs ih =>
      intro b c hab hbc
      cases b with
      | nil => simp [listLt] at hab
      | cons y ys =>
        cases c with
        | nil => simp [listLt] at hbc
        | cons z zs =>
          simp only [listLt] at hab hbc ⊢
          split at hab
          · next e =>
            subst e
            split at hbc
            · next e => subst e; simp [ih ys zs hab hbc]
            · next e => rw [if_neg e]; exact hbc
          · next e =>
            split at hbc
            · next e' => subst e'; rw [if_neg e]; exact hab
            · next e' =>
              have := h.trans _ _ _ hab hbc
              rw [if_neg]
              · exact this
              · rintro rfl; rw [h.irrefl] at this; exact absurd this (by simp)
  total := by
    intro a
    induction a with
    | nil => intro b; cases b <;> simp [listLt]
    | cons x xs ih =>
      intro b
      cases b with
      | nil => simp [listLt]
      | cons y ys =>
        by_cases e : x = y
        · subst e
          rcases ih ys with h1 | h1 | h1 <;> simp [listLt, h1]
        · have e' : ¬ y = x := fun h => e h.symm
          rcases h.total x y with h1 | h1 | h1
          · exact absurd h1 e
          · simp [listLt, e, h1]
          · simp [listLt, e', h1]

theorem strLt_strictTotal : StrictTotal strLt := by
  apply listLt_strictTotal
  refine ⟨by intro a; simp, ?_, ?_⟩
  · intro a b c; simp only [decide_eq_true_eq]; omega
  · intro a b
    simp only [decide_eq_true_eq]
    rcases Nat.lt_trichotomy a.toNat b.toNat with h | h | h
    · exact .inr (.inl h)
    · exact .inl (Char.toNat_inj.1 h)
    · exact .inr (.inr h)

/-- `<` is a strict total order compatible with `==`: exactly one of `a < b`, `a == b`, `b < a` holds, `<` is transitive,
and equal tags are interchangeable; `a > b` is `b < a`. -/
theorem c23_order (a b d : Tag) :
    (a.lt b = true ∨ a.eqv b = true ∨ b.lt a = true) ∧
    ¬ (a.lt b = true ∧ a.eqv b = true) ∧ ¬ (a.lt b = true ∧ b.lt a = true) ∧ ¬ (b.lt a = true ∧ a.eqv b = true) ∧
    (a.lt b = true → b.lt d = true → a.lt d = true) ∧
    (a.eqv b = true → a.lt d = b.lt d ∧ d.lt a = d.lt b) ∧
    (a.gt b = b.lt a) := by
  have key : ∀ x y : Tag, x.eqv y = true ↔ x.tuple = y.tuple := by intro x y; simp [Tag.eqv]
  have hs := listLt_strictTotal strLt strLt_strictTotal
  unfold Tag.gt
  simp only [key, Tag.lt]
  refine ⟨?_, ?_, ?_, ?_, ?_, ?_, trivial⟩
  · rcases hs.total a.tuple b.tuple with h | h | h
    · exact .inr (.inl h)
    · exact .inl h
    · exact .inr (.inr h)
  · rintro ⟨h1, h2⟩; rw [h2, hs.irrefl] at h1; exact absurd h1 (by simp)
  · rintro ⟨h1, h2⟩; have := hs.trans _ _ _ h1 h2; rw [hs.irrefl] at this; exact absurd this (by simp)
  · rintro ⟨h1, h2⟩; rw [h2, hs.irrefl] at h1; exact absurd h1 (by simp)
  · exact hs.trans _ _ _
  · intro h; rw [h]; exact ⟨rfl, rfl⟩

/-- Pickling: `__reduce__` rebuilds the tag from `str(tag)` (tagset.py:376-377).  This gives back the same tag in every
class state that still knows its grammemes, and raises otherwise; it never gives a different tag. -/
theorem c23_pickle (c c' : TagCls) (s : Str) (t : Tag) (h : c.mkTag s = .ok t) :
    ((∀ g ∈ t.tuple, g ∈ c'.known) → c'.mkTag t.str = .ok t) ∧
    (∀ t', c'.mkTag t.str = .ok t' → t' = t ∧ t'.eqv t = true) ∧ c.mkTag t.str = .ok t := by
  refine ⟨fun hk => ((c23_construct c' t.str).1 t).2 ⟨rfl, hk⟩, ?_, ?_⟩
  · intro t' h'
    have := (((c23_construct c' t.str).1 t').1 h').1
    obtain ⟨x⟩ := t'; obtain ⟨y⟩ := t
    simp only at this; subst this
    exact ⟨rfl, by simp [Tag.eqv]⟩
  · have := ((c23_construct c s).1 t).1 h
    exact ((c23_construct c t.str).1 t).2 ⟨rfl, this.2⟩

/-! Non-vacuity (tests): two different strings of equal tags; a rejected string; an ordered pair. -/
example : (Tag.mk (c!"NOUN,anim sing")).eqv ⟨c!"NOUN anim,sing"⟩ = true := by decide +kernel
example : Demo.cls.mkTag (c!"NOUN,anim sing,nomn") = .ok ⟨c!"NOUN,anim sing,nomn"⟩ := by decide +kernel
example : Demo.cls.mkTag (c!"NOUN,xyz sing") = .error .valueError := by decide +kernel
example : (Tag.mk (c!"ADJF")).lt ⟨c!"NOUN"⟩ = true := by decide +kernel

end Verif
