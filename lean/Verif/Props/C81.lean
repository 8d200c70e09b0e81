/-
C81 — which words are numbers on CPython.
-/
import Verif.Spec.Number
import Verif.Props.C80

set_option linter.unusedSectionVars false

namespace Verif

open Cpython Unicode Numbers

/-! ### ASCII texts -/

abbrev AD : Char → Prop := fun c => cDigit c = true
abbrev AB : Char → Prop := fun c => cSpace c = true
abbrev AP : Char → Prop := fun c => c = '.'

theorem cDigit_ne {c x : Char} (h : cDigit c = true) (hx : cDigit x = false) : c ≠ x := by
  rintro rfl; rw [hx] at h; cases h

theorem digit_not_space {c : Char} (h : cDigit c = true) : cSpace c = false := by
  simp only [cDigit, Bool.and_eq_true, decide_eq_true_eq] at h
  simp [cSpace]; omega

theorem run_ne {D : Char → Prop} {r : Str} {n : Nat} (h : Run D r n) : ∃ d s, r = d :: s ∧ D d := by
  cases h with
  | one h => exact ⟨_, _, rfl, h⟩
  | next h _ => exact ⟨_, _, rfl, h⟩
  | under h _ => exact ⟨_, _, rfl, h⟩

theorem scan_run {r : Str} {n : Nat} (h : Run AD r n) (b : Str) (hb : ∀ c ∈ b.head?, c ≠ '_' ∧ cDigit c = false) (p : Char) (k : Nat) :
    scanDigits p k (r ++ b) = some (b, k + n) := by
  have hstop : ∀ d : Char, cDigit d = true → ∀ j, scanDigits d j b = some (b, j) := by
    intro d hd j
    have hd' : d ≠ '_' := cDigit_ne hd (by decide)
    cases b with
    | nil => simp [scanDigits, hd']
    | cons c b =>
      have := hb c (by simp)
      simp [scanDigits, this.1, this.2, hd']
  induction h generalizing p k with
  | @one d hd =>
    have hd' : d ≠ '_' := cDigit_ne hd (by decide)
    simp only [List.singleton_append]
    rw [scanDigits, if_neg hd', if_pos hd, hstop d hd]
  | @next d s n hd _ ih =>
    have hd' : d ≠ '_' := cDigit_ne hd (by decide)
    rw [List.cons_append, scanDigits, if_neg hd', if_pos hd, ih]
    congr 2; omega
  | @under d s n hd _ ih =>
    have hd' : d ≠ '_' := cDigit_ne hd (by decide)
    rw [List.cons_append, List.cons_append, scanDigits, if_neg hd', if_pos hd, scanDigits, if_pos rfl, if_neg hd', ih]
    congr 2; omega

theorem scan_inv (s : Str) (p : Char) (k : Nat) (rest : Str) (n : Nat) (h : scanDigits p k s = some (rest, n)) :
    (p ≠ '_' ∧ rest = s ∧ n = k) ∨ ∃ r j, Run AD r j ∧ n = k + j ∧ (s = r ++ rest ∨ (p ≠ '_' ∧ s = '_' :: (r ++ rest))) := by
  induction s generalizing p k with
  | nil =>
    rw [scanDigits] at h
    split at h
    · cases h
    · next hp => simp only [Option.some.injEq, Prod.mk.injEq] at h; exact .inl ⟨hp, h.1.symm, h.2.symm⟩
  | cons c s ih =>
    rw [scanDigits] at h
    split at h
    · next hc =>
      subst hc
      split at h
      · cases h
      · next hp =>
        rcases ih _ _ h with ⟨h1, _⟩ | ⟨r, j, h1, h2, h3 | ⟨h3, _⟩⟩
        · exact absurd rfl h1
        · exact .inr ⟨r, j, h1, h2, .inr ⟨hp, by rw [h3]⟩⟩
        · exact absurd rfl h3
    · split at h
      · next hd =>
        right
        rcases ih _ _ h with ⟨_, h1, h2⟩ | ⟨r, j, h1, h2, h3 | ⟨_, h3⟩⟩
        · exact ⟨[c], 1, .one hd, h2, .inl (by rw [h1]; rfl)⟩
        · exact ⟨c :: r, j + 1, .next hd h1, by omega, .inl (by rw [h3]; rfl)⟩
        · exact ⟨c :: '_' :: r, j + 1, .under hd h1, by omega, .inl (by rw [h3]; rfl)⟩
      · split at h
        · cases h
        · next hp => simp only [Option.some.injEq, Prod.mk.injEq] at h; exact .inl ⟨hp, h.1.symm, h.2.symm⟩

theorem dropWhile_all {α : Type} (p : α → Bool) (a t : List α) (ha : ∀ c ∈ a, p c = true) (ht : ∀ c ∈ t.head?, p c = false) :
    (a ++ t).dropWhile p = t := by
  induction a with
  | nil =>
    cases t with
    | nil => rfl
    | cons c t => simp [ht c (by simp)]
  | cons x a ih =>
    rw [List.cons_append, List.dropWhile_cons, if_pos (ha x (by simp))]
    exact ih fun c hc => ha c (by simp [hc])

theorem dropWhile_split {α : Type} (p : α → Bool) (s : List α) : ∃ a, s = a ++ s.dropWhile p ∧ (∀ c ∈ a, p c = true) ∧ ∀ c ∈ (s.dropWhile p).head?, p c = false := by
  refine ⟨s.takeWhile p, (List.takeWhile_append_dropWhile ..).symm, fun c hc => List.all_eq_true.1 (List.all_takeWhile ..) c hc, ?_⟩
  intro c hc
  have := List.head?_dropWhile_not p s
  rw [Option.mem_def.1 hc] at this
  simpa using this

theorem dropWhile_nil {α : Type} (p : α → Bool) (s : List α) (h : s.dropWhile p = []) : ∀ c ∈ s, p c = true := by
  obtain ⟨a, h1, h2, _⟩ := dropWhile_split p s
  rw [h, List.append_nil] at h1
  rw [h1]; exact h2

theorem sign_chars {s : Str} (h : Sign s) : ∀ c ∈ s, c = '+' ∨ c = '-' := by
  rcases h with rfl | rfl | rfl <;> simp

theorem skipSign_split (s : Str) : ∃ g, Sign g ∧ s = g ++ skipSign s := by
  cases s with
  | nil => exact ⟨[], .inl rfl, rfl⟩
  | cons c s =>
    unfold skipSign
    by_cases h : c = '+' ∨ c = '-'
    · refine ⟨[c], ?_, by simp [h]⟩
      rcases h with rfl | rfl
      · exact .inr (.inl rfl)
      · exact .inr (.inr rfl)
    · exact ⟨[], .inl rfl, by simp [h]⟩

theorem skipSign_append (g t : Str) (hg : Sign g) (ht : ∀ c ∈ t.head?, c ≠ '+' ∧ c ≠ '-') : skipSign (g ++ t) = t := by
  rcases hg with rfl | rfl | rfl
  · cases t with
    | nil => rfl
    | cons c t =>
      have := ht c (by simp)
      simp [skipSign, this]
  · rfl
  · rfl

/-- The integer scanner, declaratively. -/
theorem intAscii_iff (s : Str) : intAscii s = true ↔ IntText AB AD s := by
  constructor
  · intro h
    unfold intAscii at h
    split at h
    · cases h
    · next rest n hs =>
      rw [Bool.and_eq_true, List.isEmpty_iff, decide_eq_true_eq] at h
      obtain ⟨a, ha, ha', _⟩ := dropWhile_split cSpace s
      obtain ⟨g, hg, hg'⟩ := skipSign_split (s.dropWhile cSpace)
      rcases scan_inv _ _ _ _ _ hs with ⟨h1, _⟩ | ⟨r, j, h1, h2, h3 | ⟨h3, _⟩⟩
      · exact absurd rfl h1
      · refine ⟨a, g, r, rest, j, ?_, ha', hg, h1, by rw [Nat.zero_add] at h2; rw [← h2]; exact h.2, dropWhile_nil _ _ h.1⟩
        rw [h3] at hg'
        rw [hg'] at ha
        rw [ha]; simp
      · exact absurd rfl h3
  · rintro ⟨a, g, r, b, n, rfl, ha, hg, hr, hn, hb⟩
    obtain ⟨d, r', hd, hd'⟩ := run_ne hr
    have h1 : (a ++ (g ++ r) ++ b).dropWhile cSpace = g ++ (r ++ b) := by
      rw [List.append_assoc, List.append_assoc]
      refine dropWhile_all _ _ _ ha ?_
      intro c hc
      rcases hg with rfl | rfl | rfl
      · rw [hd] at hc; simp at hc; subst hc; exact digit_not_space hd'
      · simp at hc; subst hc; decide
      · simp at hc; subst hc; decide
    have h2 : skipSign (g ++ (r ++ b)) = r ++ b := by
      refine skipSign_append _ _ hg ?_
      intro c hc
      rw [hd] at hc; simp at hc; subst hc
      exact ⟨cDigit_ne hd' (by decide), cDigit_ne hd' (by decide)⟩
    have h3 : scanDigits '_' 0 (r ++ b) = some (b, 0 + n) := by
      refine scan_run hr b ?_ _ _
      intro c hc
      have hsp := hb c (List.mem_of_mem_head? hc)
      constructor
      · rintro rfl; exact absurd hsp (by decide)
      · cases hcd : cDigit c with
        | false => rfl
        | true => have := digit_not_space hcd; rw [hsp] at this; cases this
    unfold intAscii
    rw [h1, h2, h3]
    simp only [Nat.zero_add, Bool.and_eq_true, List.isEmpty_iff, decide_eq_true_eq]
    exact ⟨by simpa using dropWhile_all cSpace b [] hb (by simp), hn⟩

/-! ### Underscores -/

/-- Digit or underscore. -/
def du (c : Char) : Bool := cDigit c || c == '_'

theorem run_du {r : Str} {n : Nat} (h : Run AD r n) : ∀ c ∈ r, du c = true := by
  induction h with
  | one h => intro c hc; simp at hc; subst hc; simp [du, show cDigit _ = true from h]
  | next h _ ih =>
    intro c hc
    rcases List.mem_cons.1 hc with rfl | hc
    · simp [du, show cDigit _ = true from h]
    · exact ih c hc
  | under h _ ih =>
    intro c hc
    rcases List.mem_cons.1 hc with rfl | hc
    · simp [du, show cDigit _ = true from h]
    · rcases List.mem_cons.1 hc with rfl | hc
      · decide
      · exact ih c hc

/-- Underscores are allowed to begin with. -/
def UOk (s : Str) : Prop := underscoresOk ' ' s = true

theorem underscores_plain (p : Char) (hp : du p = false) (s : Str) : underscoresOk p s = underscoresOk ' ' s := by
  simp only [du, Bool.or_eq_false_iff, beq_eq_false_iff_ne] at hp
  have h' : cDigit ' ' = false := by decide
  cases s with
  | nil => simp [underscoresOk, hp.2]
  | cons c s => simp [underscoresOk, hp.1, bne_iff_ne.2 hp.2, h']

/-- What follows a stretch of digits and underscores. -/
def AfterRun (z : Str) : Prop := ∀ c t, z = c :: t → UOk t

theorem after_iff (z : Str) (hz : ∀ c ∈ z.head?, du c = false) (p : Char) (hp : p ≠ '_') : underscoresOk p z = true ↔ AfterRun z := by
  unfold AfterRun
  cases z with
  | nil => simp [underscoresOk, hp]
  | cons c t =>
    have hc := hz c (by simp)
    have hc' : c ≠ '_' := by rintro rfl; exact absurd hc (by decide)
    rw [underscoresOk, if_neg hc', underscores_plain c hc]
    simp [hp, UOk]

theorem digits_after {r : Str} {n : Nat} (h : Run AD r n) (z : Str) (hz : ∀ c ∈ z.head?, du c = false) (p : Char) :
    underscoresOk p (r ++ z) = true ↔ AfterRun z := by
  induction h generalizing p with
  | @one d hd =>
    have hd' : d ≠ '_' := cDigit_ne hd (by decide)
    rw [List.singleton_append, underscoresOk, if_neg hd', ← after_iff z hz d hd']
    simp [show cDigit d = true from hd]
  | @next d s n hd _ ih =>
    have hd' : d ≠ '_' := cDigit_ne hd (by decide)
    rw [List.cons_append, underscoresOk, if_neg hd', ← ih d]
    simp [show cDigit d = true from hd]
  | @under d s n hd _ ih =>
    have hd' : d ≠ '_' := cDigit_ne hd (by decide)
    rw [List.cons_append, List.cons_append, underscoresOk, if_neg hd', underscoresOk, if_pos rfl, ← ih '_']
    simp [show cDigit d = true from hd]

theorem under_inv (y : Str) (p : Char) (h : underscoresOk p y = true) :
    (du p = false → y.takeWhile du = [] ∨ ∃ n, Run AD (y.takeWhile du) n) ∧ (cDigit p = true → ∃ n, Run AD (p :: y.takeWhile du) n) ∧
    (p = '_' → ∃ n, Run AD (y.takeWhile du) n) := by
  induction y generalizing p with
  | nil =>
    refine ⟨fun _ => .inl rfl, fun hp => ⟨1, .one hp⟩, fun hp => ?_⟩
    subst hp
    exact absurd h (by decide)
  | cons c y ih =>
    rw [underscoresOk] at h
    by_cases hc : c = '_'
    · subst hc
      rw [if_pos rfl, Bool.and_eq_true] at h
      have hp' := (ih '_' h.2).2.2 rfl
      have : List.takeWhile du ('_' :: y) = '_' :: y.takeWhile du := by rw [List.takeWhile_cons, if_pos (by decide)]
      rw [this]
      refine ⟨fun hp => ?_, fun hp => ?_, fun hp => ?_⟩
      · rw [du, h.1] at hp; cases hp
      · obtain ⟨n, hn⟩ := hp'
        exact ⟨n + 1, .under hp hn⟩
      · subst hp; exact absurd h.1 (by decide)
    · rw [if_neg hc, Bool.and_eq_true] at h
      by_cases hd : cDigit c = true
      · have : List.takeWhile du (c :: y) = c :: y.takeWhile du := by rw [List.takeWhile_cons, if_pos (by simp [du, hd])]
        rw [this]
        obtain ⟨n, hn⟩ := (ih c h.2).2.1 hd
        exact ⟨fun _ => .inr ⟨n, hn⟩, fun hp => ⟨n + 1, .next hp hn⟩, fun _ => ⟨n, hn⟩⟩
      · have : List.takeWhile du (c :: y) = [] := by rw [List.takeWhile_cons, if_neg (by simp [du, hd, hc])]
        rw [this]
        refine ⟨fun _ => .inl rfl, fun hp => ⟨1, .one hp⟩, fun hp => ?_⟩
        subst hp
        simp [hd] at h

/-- A text is a stretch of digits and underscores, and the rest. -/
theorem seg_iff (y : Str) : UOk y ↔ (y.takeWhile du = [] ∨ ∃ n, Run AD (y.takeWhile du) n) ∧ AfterRun (y.dropWhile du) := by
  have hz : ∀ c ∈ (y.dropWhile du).head?, du c = false := (dropWhile_split du y).choose_spec.2.2
  have hy : y = y.takeWhile du ++ y.dropWhile du := (List.takeWhile_append_dropWhile ..).symm
  constructor
  · intro h
    have h1 := (under_inv y ' ' h).1 (by decide)
    refine ⟨h1, ?_⟩
    unfold UOk at h
    rw [hy] at h
    rcases h1 with h1 | ⟨n, h1⟩
    · rw [h1, List.nil_append] at h
      exact (after_iff _ hz ' ' (by decide)).1 h
    · exact (digits_after h1 _ hz ' ').1 h
  · rintro ⟨h1, h2⟩
    unfold UOk
    rw [hy]
    rcases h1 with h1 | ⟨n, h1⟩
    · rw [h1, List.nil_append]
      exact (after_iff _ hz ' ' (by decide)).2 h2
    · exact (digits_after h1 _ hz ' ').2 h2

/-! ### The removal of underscores -/

/-- Without underscores. -/
abbrev plain (s : Str) : Str := s.filter (· ≠ '_')

theorem plain_cons {c : Char} (h : c ≠ '_') (s : Str) : plain (c :: s) = c :: plain s := by simp [plain, h]

theorem plain_under (s : Str) : plain ('_' :: s) = plain s := by simp [plain]

theorem take_plain (y : Str) : (plain y).takeWhile cDigit = plain (y.takeWhile du) := by
  induction y with
  | nil => rfl
  | cons c y ih =>
    by_cases hc : c = '_'
    · subst hc
      rw [plain_under, ih, List.takeWhile_cons, if_pos (by decide), plain_under]
    · rw [plain_cons hc, List.takeWhile_cons, List.takeWhile_cons]
      by_cases hd : cDigit c = true
      · rw [if_pos hd, if_pos (by simp [du, hd]), ih, plain_cons hc]
      · rw [if_neg hd, if_neg (by simp [du, hd, hc])]; rfl

theorem drop_plain (y : Str) : (plain y).dropWhile cDigit = plain (y.dropWhile du) := by
  induction y with
  | nil => rfl
  | cons c y ih =>
    by_cases hc : c = '_'
    · subst hc
      rw [plain_under, ih, List.dropWhile_cons, if_pos (by decide)]
    · rw [plain_cons hc, List.dropWhile_cons, List.dropWhile_cons]
      by_cases hd : cDigit c = true
      · rw [if_pos hd, if_pos (by simp [du, hd]), ih]
      · rw [if_neg hd, if_neg (by simp [du, hd, hc]), plain_cons hc]

theorem run_plain_ne {r : Str} {n : Nat} (h : Run AD r n) : (plain r).isEmpty = false := by
  obtain ⟨d, s, rfl, hd⟩ := run_ne h
  rw [plain_cons (cDigit_ne hd (by decide))]; rfl

theorem uok_head {y : Str} (h : UOk y) (c : Char) (hc : c ∈ y.head?) : c ≠ '_' := by
  cases y with
  | nil => simp at hc
  | cons d y =>
    simp at hc; subst hc
    rintro rfl
    exact absurd h (by simp [UOk, underscoresOk]; exact fun h => absurd h (by decide))

theorem skip_plain {y : Str} (h : UOk y) : skipSign (plain y) = plain (skipSign y) ∧ UOk (skipSign y) := by
  cases y with
  | nil => exact ⟨rfl, h⟩
  | cons c y =>
    have hc := uok_head h c (by simp)
    rw [plain_cons hc]
    by_cases hs : c = '+' ∨ c = '-'
    · have hdu : du c = false := by rcases hs with rfl | rfl <;> decide
      have : skipSign (c :: y) = y := by simp [skipSign, hs]
      rw [this]
      refine ⟨by simp [skipSign, hs], ?_⟩
      unfold UOk at h ⊢
      rw [underscoresOk, if_neg hc, underscores_plain c hdu] at h
      exact (Bool.and_eq_true _ _ ▸ h).2
    · have : skipSign (c :: y) = c :: y := by simp [skipSign, hs]
      rw [this]
      exact ⟨by rw [plain_cons hc]; simp [skipSign, hs], h⟩

theorem takeWhile_all_du (v : Str) (h : ∀ c ∈ v, du c = true) : v.takeWhile du = v ∧ v.dropWhile du = [] := by
  have h2 : v.dropWhile du = [] := by simpa using dropWhile_all du v [] h (by simp)
  refine ⟨?_, h2⟩
  have := List.takeWhile_append_dropWhile (p := du) (l := v)
  rwa [h2, List.append_nil] at this

theorem run_uok {r : Str} {n : Nat} (h : Run AD r n) : UOk r := by
  have := takeWhile_all_du r (run_du h)
  rw [seg_iff, this.1, this.2]
  exact ⟨.inr ⟨n, h⟩, by intro c t hc; cases hc⟩

theorem plain_digits {r : Str} {n : Nat} (h : Run AD r n) : (plain r).all cDigit = true := by
  rw [List.all_eq_true]
  intro c hc
  obtain ⟨h1, h2⟩ := List.mem_filter.1 hc
  have := run_du h c h1
  simp only [du, Bool.or_eq_true, beq_iff_eq] at this
  rcases this with h | h
  · exact h
  · simp [h] at h2

theorem sign_uok {g v : Str} (hg : Sign g) (hv : UOk v) : UOk (g ++ v) := by
  rcases hg with rfl | rfl | rfl
  · exact hv
  · unfold UOk
    rw [List.singleton_append, underscoresOk, if_neg (by decide), underscores_plain '+' (by decide)]
    simpa [UOk] using hv
  · unfold UOk
    rw [List.singleton_append, underscoresOk, if_neg (by decide), underscores_plain '-' (by decide)]
    simpa [UOk] using hv

theorem run_head {r : Str} {n : Nat} (h : Run AD r n) (c : Char) (hc : c ∈ r.head?) : c ≠ '+' ∧ c ≠ '-' := by
  obtain ⟨d, s, rfl, hd⟩ := run_ne h
  simp at hc; subst hc
  exact ⟨cDigit_ne hd (by decide), cDigit_ne hd (by decide)⟩

theorem exp_iff (z : Str) (hz : ∀ c ∈ z.head?, du c = false) : (AfterRun z ∧ expOk (plain z) = true) ↔ Exponent AD z := by
  cases z with
  | nil => simp [AfterRun, expOk, Exponent, plain]
  | cons c u =>
    have hdu := hz c (by simp)
    have hc : c ≠ '_' := by rintro rfl; exact absurd hdu (by decide)
    rw [plain_cons hc]
    constructor
    · rintro ⟨h1, h2⟩
      have hu : UOk u := h1 c u rfl
      simp only [expOk, Bool.and_eq_true, decide_eq_true_eq, Bool.not_eq_true', List.isEmpty_eq_false_iff] at h2
      obtain ⟨⟨he, hne⟩, hall⟩ := h2
      obtain ⟨h3, h4⟩ := skip_plain hu
      rw [h3] at hne hall
      obtain ⟨g, hg, hg'⟩ := skipSign_split u
      have hv : ∀ x ∈ skipSign u, du x = true := by
        intro x hx
        by_cases hx' : x = '_'
        · subst hx'; decide
        · have := List.all_eq_true.1 hall x (List.mem_filter.2 ⟨hx, by simpa using hx'⟩)
          simp [du, this]
      have ht := takeWhile_all_du _ hv
      rw [seg_iff, ht.1] at h4
      rcases h4.1 with h5 | ⟨n, h5⟩
      · rw [h5] at hne; exact absurd rfl hne
      · exact .inr ⟨c, g, skipSign u, n, by rw [← hg'], he, hg, h5⟩
    · rintro (h | ⟨e, g, r, n, h, he, hg, hr⟩)
      · cases h
      · cases h
        refine ⟨fun c t h => ?_, ?_⟩
        · cases h; exact sign_uok hg (run_uok hr)
        · have hsk := (skip_plain (sign_uok hg (run_uok hr))).1
          rw [skipSign_append g r hg (run_head hr)] at hsk
          simp only [expOk, hsk, Bool.and_eq_true, decide_eq_true_eq, Bool.not_eq_true']
          exact ⟨⟨he, run_plain_ne hr⟩, plain_digits hr⟩

theorem run_take {r : Str} {n : Nat} (h : Run AD r n) (z : Str) (hz : ∀ c ∈ z.head?, du c = false) :
    (r ++ z).takeWhile du = r ∧ (r ++ z).dropWhile du = z := by
  have h2 := dropWhile_all du r z (run_du h) hz
  refine ⟨?_, h2⟩
  have := (List.takeWhile_append_dropWhile (p := du) (l := r ++ z))
  rw [h2] at this
  exact List.append_cancel_right this

theorem exp_head {D : Char → Prop} {x : Str} (h : Exponent D x) : ∀ c ∈ x.head?, c = 'e' ∨ c = 'E' := by
  rcases h with rfl | ⟨e, s, r, n, rfl, he, _⟩
  · simp
  · intro c hc; simp at hc; subst hc; exact he

theorem exp_du {x : Str} (h : Exponent AD x) : ∀ c ∈ x.head?, du c = false := by
  intro c hc
  rcases exp_head h c hc with rfl | rfl <;> decide

theorem decimalOk_point {s r : Str} (h : s.dropWhile cDigit = '.' :: r) :
    decimalOk s = (!((s.takeWhile cDigit).isEmpty && (r.takeWhile cDigit).isEmpty) && expOk (r.dropWhile cDigit)) := by
  unfold decimalOk; rw [h]; rfl

theorem decimalOk_other {s : Str} (h : ∀ r, s.dropWhile cDigit ≠ '.' :: r) :
    decimalOk s = (!(s.takeWhile cDigit).isEmpty && expOk (s.dropWhile cDigit)) := by
  unfold decimalOk
  dsimp only
  split
  · next r hr => exact absurd hr (h r)
  · rfl

/-- The decimal scanner, declaratively. -/
theorem decimal_iff (y : Str) : (UOk y ∧ decimalOk (plain y) = true) ↔ ∃ m e, y = m ++ e ∧ Mantissa AP AD m ∧ Exponent AD e := by
  have hy : y = y.takeWhile du ++ y.dropWhile du := (List.takeWhile_append_dropWhile ..).symm
  have hz : ∀ c ∈ (y.dropWhile du).head?, du c = false := (dropWhile_split du y).choose_spec.2.2
  constructor
  · rintro ⟨h1, h2⟩
    rw [seg_iff] at h1
    obtain ⟨hx, haf⟩ := h1
    have hpoint := fun r => decimalOk_point (s := plain y) (r := r)
    have hother := decimalOk_other (s := plain y)
    rw [take_plain, drop_plain] at hpoint hother
    generalize hX : y.takeWhile du = X at *
    generalize hZ : y.dropWhile du = Z at *
    have hno : ∀ (h : (plain X).isEmpty = false ∧ expOk (plain Z) = true), ∃ m e, y = m ++ e ∧ Mantissa AP AD m ∧ Exponent AD e := by
      rintro ⟨h3, h4⟩
      rcases hx with rfl | ⟨n, hx⟩
      · cases h3
      · exact ⟨X, Z, hy, .whole hx, (exp_iff Z hz).1 ⟨haf, h4⟩⟩
    cases Z with
    | nil =>
      rw [hother (by intro r h; cases h), Bool.and_eq_true, Bool.not_eq_true'] at h2
      exact hno h2
    | cons c t =>
      have hdu := hz c (by simp)
      have hc : c ≠ '_' := by rintro rfl; exact absurd hdu (by decide)
      by_cases hp : c = '.'
      · subst hp
        rw [hpoint (plain t) (plain_cons hc t), take_plain, drop_plain, Bool.and_eq_true, Bool.not_eq_true'] at h2
        obtain ⟨h3, h4⟩ := h2
        have hut : UOk t := haf _ _ rfl
        rw [seg_iff] at hut
        have hz2 : ∀ c ∈ (t.dropWhile du).head?, du c = false := (dropWhile_split du t).choose_spec.2.2
        have ht : t = t.takeWhile du ++ t.dropWhile du := (List.takeWhile_append_dropWhile ..).symm
        have hexp := (exp_iff _ hz2).1 ⟨hut.2, h4⟩
        rcases hx with rfl | ⟨n, hx⟩
        · rcases hut.1 with hq | ⟨k, hq⟩
          · rw [hq] at h3; cases h3
          · refine ⟨'.' :: t.takeWhile du, _, ?_, .fraction rfl hq, hexp⟩
            rw [hy, List.nil_append, List.cons_append, ← ht]
        · rcases hut.1 with hq | ⟨k, hq⟩
          · refine ⟨X ++ ['.'], _, ?_, .point hx rfl, hexp⟩
            rw [hq, List.nil_append] at ht
            rw [hy, ← ht]; simp
          · refine ⟨X ++ '.' :: t.takeWhile du, _, ?_, .both hx rfl hq, hexp⟩
            rw [List.append_assoc, List.cons_append, ← ht]
            exact hy
      · rw [hother (by intro r h; rw [plain_cons hc] at h; cases h; exact hp rfl), Bool.and_eq_true, Bool.not_eq_true'] at h2
        exact hno h2
  · rintro ⟨m, e, rfl, hm, he⟩
    have hed := exp_du he
    have hea := (exp_iff e hed).2 he
    have hpt : du '.' = false := by decide
    have hpe : ('.' : Char) ≠ '_' := by decide
    have pdot : ∀ t : Str, ∀ c ∈ ('.' :: t).head?, du c = false := by intro t c hc; simp at hc; subst hc; exact hpt
    have hexp : e = [] ∨ ∃ c t, e = c :: t ∧ c ≠ '.' ∧ c ≠ '_' := by
      cases e with
      | nil => exact .inl rfl
      | cons c t =>
        right
        rcases exp_head he c (by simp) with rfl | rfl
        · exact ⟨_, _, rfl, by decide, by decide⟩
        · exact ⟨_, _, rfl, by decide, by decide⟩
    cases hm with
    | whole hr =>
      have ht := run_take hr e hed
      refine ⟨(seg_iff _).2 (by rw [ht.1, ht.2]; exact ⟨.inr ⟨_, hr⟩, hea.1⟩), ?_⟩
      rw [decimalOk_other, take_plain, drop_plain, ht.1, ht.2, run_plain_ne hr, hea.2]
      · rfl
      · intro r h
        rw [drop_plain, ht.2] at h
        rcases hexp with rfl | ⟨c, t, rfl, h1, h2⟩
        · cases h
        · rw [plain_cons h2] at h; cases h; exact absurd rfl h1
    | @point r n p hr hp =>
      have hp' : p = '.' := hp
      subst hp'
      rw [List.append_assoc, List.singleton_append]
      have ht := run_take hr ('.' :: e) (pdot _)
      have h2 : e.takeWhile du = [] ∧ e.dropWhile du = e := by
        rcases hexp with rfl | ⟨c, t, rfl, _⟩
        · exact ⟨rfl, rfl⟩
        · have := hed c (by simp)
          simp [this]
      have hu : UOk e := (seg_iff e).2 (by rw [h2.1, h2.2]; exact ⟨.inl rfl, hea.1⟩)
      refine ⟨(seg_iff _).2 (by rw [ht.1, ht.2]; exact ⟨.inr ⟨_, hr⟩, fun c t h => by cases h; exact hu⟩), ?_⟩
      rw [decimalOk_point (by rw [drop_plain, ht.2, plain_cons hpe]), take_plain, ht.1, take_plain, drop_plain, h2.1, h2.2, run_plain_ne hr, hea.2]
      rfl
    | @both r q n k p hr hp hq =>
      have hp' : p = '.' := hp
      subst hp'
      rw [List.append_assoc, List.cons_append]
      have ht := run_take hr ('.' :: (q ++ e)) (pdot _)
      have h2 := run_take hq e hed
      have hu : UOk (q ++ e) := (seg_iff _).2 (by rw [h2.1, h2.2]; exact ⟨.inr ⟨_, hq⟩, hea.1⟩)
      refine ⟨(seg_iff _).2 (by rw [ht.1, ht.2]; exact ⟨.inr ⟨_, hr⟩, fun c t h => by cases h; exact hu⟩), ?_⟩
      rw [decimalOk_point (by rw [drop_plain, ht.2, plain_cons hpe]), take_plain, ht.1, take_plain, drop_plain, h2.1, h2.2, run_plain_ne hr, hea.2]
      rfl
    | @fraction q k p hp hq =>
      have hp' : p = '.' := hp
      subst hp'
      rw [List.cons_append]
      have h1 : List.takeWhile du ('.' :: (q ++ e)) = [] ∧ List.dropWhile du ('.' :: (q ++ e)) = '.' :: (q ++ e) := by
        simp [hpt]
      have h2 := run_take hq e hed
      have hu : UOk (q ++ e) := (seg_iff _).2 (by rw [h2.1, h2.2]; exact ⟨.inr ⟨_, hq⟩, hea.1⟩)
      refine ⟨(seg_iff _).2 (by rw [h1.1, h1.2]; exact ⟨.inl rfl, fun c t h => by cases h; exact hu⟩), ?_⟩
      rw [decimalOk_point (by rw [drop_plain, h1.2, plain_cons hpe]), take_plain, h1.1, take_plain, drop_plain, h2.1, h2.2, run_plain_ne hq, hea.2]
      simp

/-! ### Infinity and not-a-number -/

theorem asciiLower_eq_iff (c d : Char) (hd : 97 ≤ d.toNat ∧ d.toNat ≤ 122) : asciiLower c = d ↔ c = d ∨ c.toNat + 32 = d.toNat := by
  unfold asciiLower
  split
  · next h =>
    have hv : (Char.ofNat (c.toNat + 32)).toNat = c.toNat + 32 := toNat_ofNat_valid (.inl (by omega))
    constructor
    · intro he
      right
      rw [← he, hv]
    · rintro (rfl | he)
      · omega
      · rw [he, Char.ofNat_toNat]
  · next h =>
    constructor
    · exact .inl
    · rintro (he | he)
      · exact he
      · omega

theorem sameLetters_iff (x y : Str) (hy : ∀ d ∈ y, 97 ≤ d.toNat ∧ d.toNat ≤ 122) : x.map asciiLower = y ↔ SameLetters x y := by
  unfold SameLetters
  induction x generalizing y with
  | nil => cases y <;> simp
  | cons c x ih =>
    cases y with
    | nil => simp
    | cons d y =>
      have h1 := ih y fun e he => hy e (by simp [he])
      simp only [List.map_cons, List.cons.injEq, h1, asciiLower_eq_iff c d (hy d (by simp)), List.length_cons, Nat.add_right_cancel_iff,
        List.zip_cons_cons, List.mem_cons, forall_eq_or_imp]
      tauto

theorem special_iff (x : Str) : x.map asciiLower ∈ [c!"inf", c!"infinity", c!"nan"] ↔ Special x := by
  simp only [List.mem_cons, List.not_mem_nil, or_false, Special]
  rw [sameLetters_iff _ (c!"inf") (by decide), sameLetters_iff _ (c!"infinity") (by decide), sameLetters_iff _ (c!"nan") (by decide)]

theorem special_chars {x : Str} (h : Special x) : x ≠ [] ∧ ∀ c ∈ x, du c = false ∧ c ≠ '+' ∧ c ≠ '-' ∧ cSpace c = false := by
  rw [← special_iff] at h
  have hall : ∀ y ∈ [c!"inf", c!"infinity", c!"nan"], y ≠ [] ∧ ∀ d ∈ y, 97 ≤ d.toNat := by decide
  refine ⟨?_, fun c hc => ?_⟩
  · rintro rfl; exact (hall _ h).1 rfl
  · have := (hall _ h).2 (asciiLower c) (List.mem_map.2 ⟨c, hc, rfl⟩)
    have hc' : 65 ≤ c.toNat := by
      unfold asciiLower at this
      split at this
      · next h => exact h.1
      · omega
    have hne : c ≠ '_' := by
      rintro rfl; exact absurd this (by decide)
    have hd : cDigit c = false := by simp [cDigit]; omega
    refine ⟨by simp [du, hd, hne], ?_, ?_, ?_⟩
    · rintro rfl; exact absurd hc' (by decide)
    · rintro rfl; exact absurd hc' (by decide)
    · simp [cSpace]; omega

theorem no_under (y : Str) (h : '_' ∉ y) : UOk y ∧ plain y = y := by
  constructor
  · unfold UOk
    have : ∀ p, p ≠ '_' → underscoresOk p y = true := by
      induction y with
      | nil => intro p hp; simp [underscoresOk, hp]
      | cons c y ih =>
        intro p hp
        have hc : c ≠ '_' := by rintro rfl; simp at h
        rw [underscoresOk, if_neg hc, ih (fun h' => h (by simp [h'])) c hc]
        simp [hp]
    exact this ' ' (by decide)
  · apply List.filter_eq_self.2
    intro c hc
    simp only [ne_eq, decide_eq_true_eq]
    rintro rfl; exact h hc

theorem under_digit (y : Str) (p : Char) (h : underscoresOk p y = true) (hu : '_' ∈ y) : ∃ d ∈ y, cDigit d = true := by
  induction y generalizing p with
  | nil => cases hu
  | cons c y ih =>
    rw [underscoresOk] at h
    by_cases hc : c = '_'
    · subst hc
      rw [if_pos rfl, Bool.and_eq_true] at h
      cases y with
      | nil => exact absurd h.2 (by decide)
      | cons d y =>
        have h2 := h.2
        rw [underscoresOk] at h2
        split at h2
        · exact absurd h2 (by rw [show cDigit '_' = false by decide]; simp)
        · refine ⟨d, by simp, ?_⟩
          simpa using (Bool.and_eq_true _ _ ▸ h2).1
    · rw [if_neg hc, Bool.and_eq_true] at h
      have : '_' ∈ y := by
        rcases List.mem_cons.1 hu with h' | h'
        · exact absurd h'.symm hc
        · exact h'
      obtain ⟨d, hd, hd'⟩ := ih c h.2 this
      exact ⟨d, by simp [hd], hd'⟩

/-! ### Floats in ASCII -/

/-- The text of a float without the blanks. -/
def FloatCore (P D : Char → Prop) (t : Str) : Prop :=
  ∃ s x, t = s ++ x ∧ Sign s ∧ (Special x ∨ ∃ m e, x = m ++ e ∧ Mantissa P D m ∧ Exponent D e)

theorem mantissa_head {m : Str} (h : Mantissa AP AD m) : ∃ c t, m = c :: t ∧ c ≠ '+' ∧ c ≠ '-' := by
  have hr : ∀ {r : Str} {n : Nat}, Run AD r n → ∃ c t, r = c :: t ∧ c ≠ '+' ∧ c ≠ '-' := by
    intro r n h
    obtain ⟨d, s, rfl, _⟩ := run_ne h
    have := run_head h d (by simp)
    exact ⟨d, s, rfl, this⟩
  cases h with
  | whole h => exact hr h
  | point h _ => obtain ⟨c, t, rfl, h'⟩ := hr h; exact ⟨c, _, rfl, h'⟩
  | both h _ _ => obtain ⟨c, t, rfl, h'⟩ := hr h; exact ⟨c, _, rfl, h'⟩
  | fraction hp _ => exact ⟨_, _, rfl, by rw [show _ = '.' from hp]; decide⟩

theorem floatCore_iff (x : Str) : (UOk x ∧ floatAscii (plain x) = true) ↔ FloatCore AP AD x := by
  constructor
  · rintro ⟨h1, h2⟩
    obtain ⟨h3, h4⟩ := skip_plain h1
    obtain ⟨g, hg, hg'⟩ := skipSign_split x
    unfold floatAscii at h2
    rw [h3, Bool.or_eq_true, decide_eq_true_eq] at h2
    refine ⟨g, skipSign x, hg', hg, ?_⟩
    rcases h2 with h2 | h2
    · exact .inr ((decimal_iff _).1 ⟨h4, h2⟩)
    · left
      have hsp := (special_iff _).1 h2
      have : '_' ∉ skipSign x := by
        intro hu
        obtain ⟨d, hd, hd'⟩ := under_digit _ _ h4 hu
        have := ((special_chars hsp).2 d (List.mem_filter.2 ⟨hd, by simpa using cDigit_ne hd' (by decide)⟩)).1
        rw [du, hd'] at this; cases this
      rwa [(no_under _ this).2] at hsp
  · rintro ⟨g, y, rfl, hg, hy⟩
    have key : UOk y ∧ (∀ c ∈ y.head?, c ≠ '+' ∧ c ≠ '-') ∧ (decimalOk (plain y) = true ∨ (plain y).map asciiLower ∈ [c!"inf", c!"infinity", c!"nan"]) := by
      rcases hy with hy | ⟨m, e, rfl, hm, he⟩
      · have hch := (special_chars hy).2
        have hnu : '_' ∉ y := fun h => absurd (hch _ h).1 (by decide)
        refine ⟨(no_under y hnu).1, fun c hc => ?_, .inr ?_⟩
        · have := hch c (List.mem_of_mem_head? hc)
          exact ⟨this.2.1, this.2.2.1⟩
        · rw [(no_under y hnu).2]; exact (special_iff _).2 hy
      · have := (decimal_iff (m ++ e)).2 ⟨m, e, rfl, hm, he⟩
        refine ⟨this.1, fun c hc => ?_, .inl this.2⟩
        obtain ⟨d, t, rfl, hd⟩ := mantissa_head hm
        simp at hc; subst hc; exact hd
    have hu := sign_uok hg key.1
    refine ⟨hu, ?_⟩
    unfold floatAscii
    rw [(skip_plain hu).1, skipSign_append g y hg key.2.1, Bool.or_eq_true, decide_eq_true_eq]
    exact key.2.2

theorem core_chars {t : Str} (h : FloatCore AP AD t) : t ≠ [] ∧ ∀ c ∈ t, cSpace c = false := by
  have hdu : ∀ c, du c = true → cSpace c = false := by
    intro c hc
    simp only [du, Bool.or_eq_true, beq_iff_eq] at hc
    rcases hc with hc | rfl
    · exact digit_not_space hc
    · decide
  have hs : ∀ {s : Str}, Sign s → ∀ c ∈ s, cSpace c = false := by
    intro s hs c hc
    rcases sign_chars hs c hc with rfl | rfl <;> decide
  obtain ⟨g, y, rfl, hg, hy⟩ := h
  have key : y ≠ [] ∧ ∀ c ∈ y, cSpace c = false := by
    rcases hy with hy | ⟨m, e, rfl, hm, he⟩
    · exact ⟨(special_chars hy).1, fun c hc => ((special_chars hy).2 c hc).2.2.2⟩
    · refine ⟨?_, fun c hc => ?_⟩
      · obtain ⟨d, t, rfl, _⟩ := mantissa_head hm; simp
      · rcases List.mem_append.1 hc with hc | hc
        · cases hm with
          | whole h => exact hdu c (run_du h c hc)
          | point h hp =>
            rcases List.mem_append.1 hc with hc | hc
            · exact hdu c (run_du h c hc)
            · simp at hc; subst hc; rw [show _ = '.' from hp]; decide
          | both h hp h' =>
            rcases List.mem_append.1 hc with hc | hc
            · exact hdu c (run_du h c hc)
            · rcases List.mem_cons.1 hc with rfl | hc
              · rw [show _ = '.' from hp]; decide
              · exact hdu c (run_du h' c hc)
          | fraction hp h' =>
            rcases List.mem_cons.1 hc with rfl | hc
            · rw [show _ = '.' from hp]; decide
            · exact hdu c (run_du h' c hc)
        · rcases he with rfl | ⟨x, s, r, n, rfl, hx, hsg, hr⟩
          · cases hc
          · rcases List.mem_cons.1 hc with rfl | hc
            · rcases hx with rfl | rfl <;> decide
            · rcases List.mem_append.1 hc with hc | hc
              · exact hs hsg c hc
              · exact hdu c (run_du hr c hc)
  refine ⟨by simp [key.1], fun c hc => ?_⟩
  rcases List.mem_append.1 hc with hc | hc
  · exact hs hg c hc
  · exact key.2 c hc

theorem strip_split (s : Str) : ∃ a b, s = a ++ strip s ++ b ∧ (∀ c ∈ a, cSpace c = true) ∧ ∀ c ∈ b, cSpace c = true := by
  obtain ⟨a, h1, h2, _⟩ := dropWhile_split cSpace s
  obtain ⟨b, h3, h4, _⟩ := dropWhile_split cSpace (s.dropWhile cSpace).reverse
  refine ⟨a, b.reverse, ?_, h2, fun c hc => h4 c (List.mem_reverse.1 hc)⟩
  have : s.dropWhile cSpace = strip s ++ b.reverse := by
    have := congrArg List.reverse h3
    rwa [List.reverse_reverse, List.reverse_append] at this
  rw [List.append_assoc, ← this]; exact h1

theorem strip_core {a t b : Str} (ha : ∀ c ∈ a, cSpace c = true) (hb : ∀ c ∈ b, cSpace c = true) (ht : t ≠ [] ∧ ∀ c ∈ t, cSpace c = false) :
    strip (a ++ t ++ b) = t := by
  unfold strip
  have h1 : (a ++ t ++ b).dropWhile cSpace = t ++ b := by
    rw [List.append_assoc]
    refine dropWhile_all _ _ _ ha fun c hc => ?_
    obtain ⟨d, t', rfl⟩ := List.exists_cons_of_ne_nil ht.1
    simp at hc; subst hc; exact ht.2 _ (by simp)
  have h2 : (t ++ b).reverse.dropWhile cSpace = t.reverse := by
    rw [List.reverse_append]
    refine dropWhile_all _ _ _ (fun c hc => hb c (List.mem_reverse.1 hc)) fun c hc => ?_
    exact ht.2 c (List.mem_reverse.1 (List.mem_of_mem_head? hc))
  rw [h1, h2, List.reverse_reverse]

/-- The float scanner on ASCII, declaratively. -/
theorem floatText_iff (s : Str) : (underscoresOk ' ' (strip s) && floatAscii ((strip s).filter (· ≠ '_'))) = true ↔ FloatText AB AP AD s := by
  rw [Bool.and_eq_true]
  constructor
  · intro h
    obtain ⟨g, x, h1, h2, h3⟩ := (floatCore_iff (strip s)).1 h
    obtain ⟨a, b, h4, h5, h6⟩ := strip_split s
    exact ⟨a, g, x, b, by rw [← h1]; exact h4, h5, h2, h3, h6⟩
  · rintro ⟨a, g, x, b, rfl, h5, h2, h3, h6⟩
    have hc : FloatCore AP AD (g ++ x) := ⟨g, x, rfl, h2, h3⟩
    rw [strip_core h5 h6 (core_chars hc)]
    exact (floatCore_iff _).2 hc

/-! ### Other scripts -/

/-- `f` translates a text to ASCII: blanks to blanks, digits to digits, points to `.`; signs, underscores and letters stay. -/
structure Sees (f : Char → Char) (B P D : Char → Prop) : Prop where
  blank : ∀ c, cSpace (f c) = true ↔ B c
  digit : ∀ c, cDigit (f c) = true ↔ D c
  point : ∀ c, f c = '.' ↔ P c
  other : ∀ x c, (x = '+' ∨ x = '-' ∨ x = '_' ∨ (65 ≤ x.toNat ∧ x.toNat ≤ 90) ∨ (97 ≤ x.toNat ∧ x.toNat ≤ 122)) → (f c = x ↔ c = x)

section
variable {f : Char → Char} {B P D : Char → Prop} (hf : Sees f B P D)
include hf

theorem run_map (s : Str) (n : Nat) : Run AD (s.map f) n ↔ Run D s n := by
  constructor
  · intro h
    generalize ht : s.map f = t at h
    induction h generalizing s with
    | one h =>
      obtain ⟨c, s', rfl, rfl, hs'⟩ := List.map_eq_cons_iff.1 ht
      rw [List.map_eq_nil_iff.1 hs']
      exact .one ((hf.digit c).1 h)
    | next h _ ih =>
      obtain ⟨c, s', rfl, rfl, hs'⟩ := List.map_eq_cons_iff.1 ht
      exact .next ((hf.digit c).1 h) (ih s' hs')
    | under h _ ih =>
      obtain ⟨c, s', rfl, rfl, hs'⟩ := List.map_eq_cons_iff.1 ht
      obtain ⟨u, s'', rfl, hu, hs''⟩ := List.map_eq_cons_iff.1 hs'
      rw [(hf.other '_' u (by simp)).1 hu]
      exact .under ((hf.digit c).1 h) (ih s'' hs'')
  · intro h
    induction h with
    | one h => exact .one ((hf.digit _).2 h)
    | next h _ ih => exact .next ((hf.digit _).2 h) ih
    | under h _ ih =>
      rw [List.map_cons, List.map_cons, (hf.other '_' '_' (by simp)).2 rfl]
      exact .under ((hf.digit _).2 h) ih

theorem sign_map (s : Str) : Sign (s.map f) ↔ Sign s := by
  have h1 := fun c => hf.other '+' c (by simp)
  have h2 := fun c => hf.other '-' c (by simp)
  unfold Sign
  cases s with
  | nil => simp
  | cons c s => simp [h1, h2]

theorem blanks_map (a : Str) : (∀ c ∈ a.map f, cSpace c = true) ↔ ∀ c ∈ a, B c := by
  simp only [List.mem_map, forall_exists_index, and_imp, forall_apply_eq_imp_iff₂, hf.blank]

theorem intText_map (w : Str) : IntText AB AD (w.map f) ↔ IntText B D w := by
  constructor
  · rintro ⟨a, s, r, b, n, h, h1, h2, h3, h4, h5⟩
    obtain ⟨x, b', rfl, hx, rfl⟩ := List.map_eq_append_iff.1 h
    obtain ⟨a', y, rfl, rfl, hy⟩ := List.map_eq_append_iff.1 hx
    obtain ⟨s', r', rfl, rfl, rfl⟩ := List.map_eq_append_iff.1 hy
    exact ⟨a', s', r', b', n, rfl, (blanks_map hf _).1 h1, (sign_map hf _).1 h2, (run_map hf _ _).1 h3, h4, (blanks_map hf _).1 h5⟩
  · rintro ⟨a, s, r, b, n, rfl, h1, h2, h3, h4, h5⟩
    exact ⟨a.map f, s.map f, r.map f, b.map f, n, by simp, (blanks_map hf _).2 h1, (sign_map hf _).2 h2, (run_map hf _ _).2 h3, h4,
      (blanks_map hf _).2 h5⟩

theorem mantissa_map (s : Str) : Mantissa AP AD (s.map f) ↔ Mantissa P D s := by
  constructor
  · intro h
    generalize ht : s.map f = t at h
    cases h with
    | whole h => subst ht; exact .whole ((run_map hf _ _).1 h)
    | point h hp =>
      obtain ⟨r, x, rfl, rfl, hx⟩ := List.map_eq_append_iff.1 ht
      obtain ⟨c, y, rfl, rfl, hy⟩ := List.map_eq_cons_iff.1 hx
      rw [List.map_eq_nil_iff.1 hy]
      exact .point ((run_map hf _ _).1 h) ((hf.point c).1 hp)
    | both h hp h' =>
      obtain ⟨r, x, rfl, rfl, hx⟩ := List.map_eq_append_iff.1 ht
      obtain ⟨c, y, rfl, rfl, rfl⟩ := List.map_eq_cons_iff.1 hx
      exact .both ((run_map hf _ _).1 h) ((hf.point c).1 hp) ((run_map hf _ _).1 h')
    | fraction hp h' =>
      obtain ⟨c, y, rfl, rfl, rfl⟩ := List.map_eq_cons_iff.1 ht
      exact .fraction ((hf.point c).1 hp) ((run_map hf _ _).1 h')
  · intro h
    cases h with
    | whole h => exact .whole ((run_map hf _ _).2 h)
    | point h hp =>
      rw [List.map_append]
      exact .point ((run_map hf _ _).2 h) ((hf.point _).2 hp)
    | both h hp h' =>
      rw [List.map_append]
      exact .both ((run_map hf _ _).2 h) ((hf.point _).2 hp) ((run_map hf _ _).2 h')
    | fraction hp h' => exact .fraction ((hf.point _).2 hp) ((run_map hf _ _).2 h')

theorem exponent_map (s : Str) : Exponent AD (s.map f) ↔ Exponent D s := by
  have h1 := fun c => hf.other 'e' c (by decide)
  have h2 := fun c => hf.other 'E' c (by decide)
  constructor
  · rintro (h | ⟨e, g, r, n, h, he, hg, hr⟩)
    · exact .inl (List.map_eq_nil_iff.1 h)
    · obtain ⟨c, y, rfl, rfl, hy⟩ := List.map_eq_cons_iff.1 h
      obtain ⟨g', r', rfl, rfl, rfl⟩ := List.map_eq_append_iff.1 hy
      exact .inr ⟨c, g', r', n, rfl, by rwa [h1, h2] at he, (sign_map hf _).1 hg, (run_map hf _ _).1 hr⟩
  · rintro (rfl | ⟨e, g, r, n, rfl, he, hg, hr⟩)
    · exact .inl rfl
    · exact .inr ⟨f e, g.map f, r.map f, n, by simp, by rwa [h1, h2], (sign_map hf _).2 hg, (run_map hf _ _).2 hr⟩

theorem lower_map (c d : Char) (hd : 97 ≤ d.toNat ∧ d.toNat ≤ 122) : asciiLower (f c) = d ↔ asciiLower c = d := by
  rw [asciiLower_eq_iff _ _ hd, asciiLower_eq_iff _ _ hd, hf.other d c (by simp [hd])]
  refine or_congr_right ?_
  have hup : ∀ x : Char, x.toNat + 32 = d.toNat → 65 ≤ x.toNat ∧ x.toNat ≤ 90 := by intro x hx; omega
  constructor
  · intro h
    have := (hf.other (f c) c (.inr (.inr (.inr (.inl (hup _ h)))))).1 rfl
    rw [this]; exact h
  · intro h
    have := (hf.other c c (.inr (.inr (.inr (.inl (hup _ h)))))).2 rfl
    rw [this]; exact h

theorem special_map (x : Str) : Special (x.map f) ↔ Special x := by
  have key : ∀ y : Str, (∀ d ∈ y, 97 ≤ d.toNat ∧ d.toNat ≤ 122) → ∀ x : Str, ((x.map f).map asciiLower = y ↔ x.map asciiLower = y) := by
    intro y hy x
    induction x generalizing y with
    | nil => rfl
    | cons c x ih =>
      cases y with
      | nil => simp
      | cons d y =>
        have := ih y fun e he => hy e (by simp [he])
        simp only [List.map_cons, List.cons.injEq, this, lower_map hf c d (hy d (by simp))]
  rw [← special_iff, ← special_iff]
  simp only [List.mem_cons, List.not_mem_nil, or_false]
  rw [key (c!"inf") (by decide), key (c!"infinity") (by decide), key (c!"nan") (by decide)]

theorem floatText_map (w : Str) : FloatText AB AP AD (w.map f) ↔ FloatText B P D w := by
  constructor
  · rintro ⟨a, s, x, b, h, h1, h2, h3, h5⟩
    obtain ⟨u, b', rfl, hu, rfl⟩ := List.map_eq_append_iff.1 h
    obtain ⟨a', y, rfl, rfl, hy⟩ := List.map_eq_append_iff.1 hu
    obtain ⟨s', x', rfl, rfl, rfl⟩ := List.map_eq_append_iff.1 hy
    refine ⟨a', s', x', b', rfl, (blanks_map hf _).1 h1, (sign_map hf _).1 h2, ?_, (blanks_map hf _).1 h5⟩
    rcases h3 with h3 | ⟨m, e, h3, hm, he⟩
    · exact .inl ((special_map hf _).1 h3)
    · obtain ⟨m', e', rfl, rfl, rfl⟩ := List.map_eq_append_iff.1 h3
      exact .inr ⟨m', e', rfl, (mantissa_map hf _).1 hm, (exponent_map hf _).1 he⟩
  · rintro ⟨a, s, x, b, rfl, h1, h2, h3, h5⟩
    refine ⟨a.map f, s.map f, x.map f, b.map f, by simp, (blanks_map hf _).2 h1, (sign_map hf _).2 h2, ?_, (blanks_map hf _).2 h5⟩
    rcases h3 with h3 | ⟨m, e, rfl, hm, he⟩
    · exact .inl ((special_map hf _).2 h3)
    · exact .inr ⟨m.map f, e.map f, by simp, (mantissa_map hf _).2 hm, (exponent_map hf _).2 he⟩

end

/-! ### Unicode -/

/-- Blanks around numbers: ASCII white space and the white space outside ASCII (but not the control characters U+001C to U+001F). -/
def Blank (c : Char) : Prop := c.toNat = 32 ∨ (9 ≤ c.toNat ∧ c.toNat ≤ 13) ∨ (128 ≤ c.toNat ∧ isSpace c = true)

/-- A decimal digit of any script. -/
def Decimal (c : Char) : Prop := ∃ z ∈ zeros, z ≤ c.toNat ∧ c.toNat ≤ z + 9

theorem decimal_tables : (zeros.all fun z => Nat.beq z 48 || (Nat.blt 127 z && spaceTable.all fun r => Nat.blt r.2 z || Nat.blt (z + 9) r.1)) = true ∧ 48 ∈ zeros := by
  decide +kernel

theorem decimal_not_space (c : Char) (h : Decimal c) : isSpace c = false := by
  obtain ⟨z, hz, h1, h2⟩ := h
  have := List.all_eq_true.1 decimal_tables.1 z hz
  simp only [Bool.or_eq_true, Bool.and_eq_true, Nat.blt_eq, List.all_eq_true] at this
  unfold isSpace inTable
  rw [List.any_eq_false]
  intro r hr hc
  simp only [Bool.and_eq_true, decide_eq_true_eq] at hc
  rcases this with h0 | ⟨_, h3⟩
  · have h0 := Nat.eq_of_beq_eq_true h0
    subst h0
    have hsp : spaceTable.all (fun r => Nat.blt r.2 48 || Nat.blt 57 r.1) = true := by decide +kernel
    have := List.all_eq_true.1 hsp r hr
    simp only [Bool.or_eq_true, Nat.blt_eq] at this
    omega
  · have := h3 r hr
    omega

/-- What a character becomes. -/
theorem asciiOf_cases (c : Char) : (c.toNat < 128 ∧ asciiOf c = c) ∨ (128 ≤ c.toNat ∧ isSpace c = true ∧ asciiOf c = ' ') ∨
    (128 ≤ c.toNat ∧ isSpace c = false ∧ Decimal c ∧ cDigit (asciiOf c) = true) ∨
    (128 ≤ c.toNat ∧ isSpace c = false ∧ ¬ Decimal c ∧ asciiOf c = '?') := by
  unfold asciiOf
  by_cases h : c.toNat < 128
  · exact .inl ⟨h, by rw [if_pos h]⟩
  · rw [if_neg h]
    cases hs : isSpace c with
    | true => exact .inr (.inl ⟨by omega, rfl, by simp⟩)
    | false =>
      right; right
      rw [if_neg (by simp)]
      cases hz : zeros.find? (fun z => z ≤ c.toNat && c.toNat < z + 10) with
      | some z =>
        left
        have hm := List.mem_of_find?_eq_some hz
        have hp := List.find?_some hz
        simp only [Bool.and_eq_true, decide_eq_true_eq] at hp
        refine ⟨by omega, rfl, ⟨z, hm, hp.1, by omega⟩, ?_⟩
        have : (Char.ofNat (48 + (c.toNat - z))).toNat = 48 + (c.toNat - z) := toNat_ofNat_valid (.inl (by omega))
        simp only [cDigit, this, Bool.and_eq_true, decide_eq_true_eq]
        omega
      | none =>
        right
        refine ⟨by omega, rfl, ?_, rfl⟩
        rintro ⟨z, hz', h1, h2⟩
        have := List.find?_eq_none.1 hz z hz'
        simp only [Bool.and_eq_true, decide_eq_true_eq] at this
        omega

theorem decimal_ascii (c : Char) (h : c.toNat < 128) : Decimal c ↔ 48 ≤ c.toNat ∧ c.toNat ≤ 57 := by
  constructor
  · rintro ⟨z, hz, h1, h2⟩
    have := List.all_eq_true.1 decimal_tables.1 z hz
    simp only [Bool.or_eq_true, Bool.and_eq_true, Nat.blt_eq] at this
    rcases this with h0 | ⟨h3, _⟩
    · have h0 := Nat.eq_of_beq_eq_true h0
      omega
    · omega
  · intro h
    exact ⟨48, decimal_tables.2, by omega, by omega⟩

theorem sees_asciiOf : Sees asciiOf Blank (· = '.') Decimal := by
  have hq : cSpace '?' = false ∧ cDigit '?' = false ∧ cSpace ' ' = true ∧ cDigit ' ' = false := by decide
  refine ⟨fun c => ?_, fun c => ?_, fun c => ?_, fun x c hx => ?_⟩
  · rcases asciiOf_cases c with ⟨h1, h2⟩ | ⟨h1, h2, h3⟩ | ⟨h1, h2, _, h3⟩ | ⟨h1, h2, _, h3⟩
    · rw [h2]
      simp only [cSpace, Blank, Bool.or_eq_true, beq_iff_eq, Bool.and_eq_true, decide_eq_true_eq]
      omega
    · simp [h3, hq, Blank, h1, h2]
    · simp [digit_not_space h3, Blank, h2]; omega
    · simp [h3, hq, Blank, h2]; omega
  · rcases asciiOf_cases c with ⟨h1, h2⟩ | ⟨h1, h2, h3⟩ | ⟨h1, h2, h3, h4⟩ | ⟨h1, h2, h3, h4⟩
    · rw [h2, decimal_ascii c h1]; simp [cDigit]
    · rw [h3]
      simp only [hq, Bool.false_eq_true, false_iff]
      intro hd
      rw [decimal_not_space c hd] at h2; cases h2
    · simp [h3, h4]
    · simp [h3, h4, hq]
  · rcases asciiOf_cases c with ⟨h1, h2⟩ | ⟨h1, h2, h3⟩ | ⟨h1, h2, _, h3⟩ | ⟨h1, h2, _, h3⟩
    · rw [h2]
    · rw [h3]
      have : c ≠ '.' := by rintro rfl; exact absurd h1 (by decide)
      simp [this]
    · have : c ≠ '.' := by rintro rfl; exact absurd h1 (by decide)
      simp only [this, iff_false]
      exact cDigit_ne h3 (by decide)
    · rw [h3]
      have : c ≠ '.' := by rintro rfl; exact absurd h1 (by decide)
      simp [this]
  · have hx1 : x.toNat < 128 ∧ cDigit x = false ∧ x ≠ ' ' ∧ x ≠ '?' := by
      rcases hx with rfl | rfl | rfl | hx | hx
      · decide
      · decide
      · decide
      · refine ⟨by omega, by simp [cDigit]; omega, ?_, ?_⟩ <;> (rintro rfl; exact absurd hx (by decide))
      · refine ⟨by omega, by simp [cDigit]; omega, ?_, ?_⟩ <;> (rintro rfl; exact absurd hx (by decide))
    have hne : 128 ≤ c.toNat → c ≠ x := by rintro h rfl; omega
    rcases asciiOf_cases c with ⟨h1, h2⟩ | ⟨h1, h2, h3⟩ | ⟨h1, h2, _, h3⟩ | ⟨h1, h2, _, h3⟩
    · rw [h2]
    · rw [h3]; simp [hne h1, Ne.symm hx1.2.2.1]
    · simp only [hne h1, iff_false]; exact cDigit_ne h3 hx1.2.1
    · rw [h3]; simp [hne h1, Ne.symm hx1.2.2.2]

theorem sees_comma : Sees (fun c => asciiOf (if c = ',' then '.' else c)) Blank (fun c => c = '.' ∨ c = ',') Decimal := by
  have hs := sees_asciiOf
  have hb : ¬ Blank ',' ∧ ¬ Blank '.' := by
    rw [← hs.blank, ← hs.blank]; decide +kernel
  have hd : ¬ Decimal ',' ∧ ¬ Decimal '.' := by
    rw [← hs.digit, ← hs.digit]; decide +kernel
  refine ⟨fun c => ?_, fun c => ?_, fun c => ?_, fun x c hx => ?_⟩
  · rw [hs.blank]
    split
    · next h => subst h; simp [hb]
    · rfl
  · rw [hs.digit]
    split
    · next h => subst h; simp [hd]
    · rfl
  · rw [hs.point]
    split
    · next h => subst h; simp
    · next h => simp [h]
  · rw [hs.other x _ hx]
    split
    · next h =>
      subst h
      have h1 : ('.' : Char) ≠ x := by rintro rfl; revert hx; decide
      have h2 : (',' : Char) ≠ x := by rintro rfl; revert hx; decide
      simp [h1, h2]
    · rfl

/-- **C81.** `int(w)` succeeds exactly for the integers of the grammar: at most 4300 decimal digits of any script, single underscores between digits, a sign,
blanks around. -/
theorem c81_int (w : Str) : cpython.isInt w = true ↔ IntText Blank Decimal w := by
  show intAscii (w.map asciiOf) = true ↔ _
  rw [intAscii_iff, intText_map sees_asciiOf]

/-- `float(w)` succeeds exactly for decimal numbers with an optional exponent and for `inf`, `infinity`, `nan`. -/
theorem c81_float (w : Str) : cpython.isFloat w = true ↔ FloatText Blank (· = '.') Decimal w := by
  show isFloat w = true ↔ _
  unfold isFloat
  dsimp only
  rw [floatText_iff, floatText_map sees_asciiOf]

/-- What the library tests, where a comma may be the point. -/
theorem c81_real (w : Str) : SaysFloat cpython w ↔ FloatText Blank (fun c => c = '.' ∨ c = ',') Decimal w := by
  show isFloat _ = true ↔ _
  unfold isFloat
  dsimp only
  rw [floatText_iff, List.map_map]
  exact floatText_map sees_comma w

/-- The number rule: an integer, or a number with a point or comma. -/
abbrev RealText : Str → Prop := FloatText Blank (fun c => c = '.' ∨ c = ',') Decimal

theorem number_rule {S : Type} [Score S] (m : Morph S) (he : m.env = cpython) (D : RuleData) (w : Str) :
    Rule.applies m D w .number ↔ IntText Blank Decimal w ∨ RealText w := by
  show (m.env.isInt w = true ∨ SaysFloat m.env w) ↔ _
  rw [he, c81_int, c81_real]

/-- **C81, the analyzers.** On CPython an unknown word that is not an initial (and, in Ukrainian, neither a Roman number nor Latin) is tagged `NUMB,intg` if it
is an integer of the grammar, otherwise `NUMB,real` if it is a number of the grammar; that is its only analysis. -/
theorem c81_analysis {S : Type} [Score S] (m : Morph S) (he : m.env = cpython) (w : Str) (ps : List (Parse S)) (h : m.parse w = .ok ps)
    (hm : (IsRu m ∧ ¬ Rule.applies m ruData w .word) ∨ (IsUk m ∧ ¬ Rule.applies m ukData w .wordOrForeign)) :
    (IntText Blank Decimal w → Only m w (c!"NUMB,intg") ps) ∧
    (RealText w → ¬ IntText Blank Decimal w → Only m w (c!"NUMB,real") ps) := by
  have hlow : m.env.LowerStable := he ▸ c80_lower_stable
  have hint : m.env.isInt w = true ↔ IntText Blank Decimal w := by rw [he]; exact c81_int w
  have hfin : ∀ D, Rule.answers m D w ps .number → (IntText Blank Decimal w → Only m w (c!"NUMB,intg") ps) ∧
      (RealText w → ¬ IntText Blank Decimal w → Only m w (c!"NUMB,real") ps) := by
    rintro D ⟨h1, h2⟩
    refine ⟨fun hi => h1 (hint.2 hi), fun _ hn => h2 ?_⟩
    rw [← Bool.not_eq_true, hint]; exact hn
  have key : ∀ D, (Rule.applies m D w .number → Rule.answers m D w ps .number) → _ := fun D hD => by
    refine (⟨fun hi => ?_, fun hr hn => ?_⟩ : (IntText Blank Decimal w → Only m w (c!"NUMB,intg") ps) ∧
      (RealText w → ¬ IntText Blank Decimal w → Only m w (c!"NUMB,real") ps))
    · exact (hfin D (hD ((number_rule m he D w).2 (.inl hi)))).1 hi
    · exact (hfin D (hD ((number_rule m he D w).2 (.inr hr)))).2 hr hn
  rcases hm with ⟨hm, hw⟩ | ⟨hm, hw⟩
  · refine key ruData fun ha => (c71_ru m hm hlow w ps h [.word] .number _ rfl ?_ ha).2
    intro σ hσ; simp at hσ; subst hσ; exact hw
  · refine key ukData fun ha => (c71_uk m hm hlow w ps h [.wordOrForeign] .number _ rfl ?_ ha).2
    intro σ hσ; simp at hσ; subst hσ; exact hw

/-- More than 4300 digits are no integer for Python, but a float. -/
theorem c81_long (r : Str) (n : Nat) (hr : Run Decimal r n) (hn : 4300 < n) : ¬ IntText Blank Decimal r ∧ RealText r := by
  constructor
  · intro hi
    have h := (c81_int r).2 hi
    have hr' := (run_map sees_asciiOf r n).2 hr
    have h' : intAscii (r.map asciiOf) = true := h
    obtain ⟨d, s, hd, hd'⟩ := run_ne hr'
    have h1 : (r.map asciiOf).dropWhile cSpace = r.map asciiOf := by
      rw [hd, List.dropWhile_cons, if_neg (by simp [digit_not_space hd'])]
    have h2 : skipSign (r.map asciiOf) = r.map asciiOf := by
      simpa using skipSign_append [] (r.map asciiOf) (.inl rfl) (run_head hr')
    have h3 := scan_run hr' [] (by simp) '_' 0
    rw [List.append_nil] at h3
    unfold intAscii at h'
    rw [h1, h2, h3] at h'
    simp [maxDigits] at h'
    omega
  · exact ⟨[], [], r, [], by simp, by simp, .inl rfl, .inr ⟨r, [], by simp, .whole hr, .inl rfl⟩, by simp⟩

/-- `inf`, `infinity` and `nan` in any case are real numbers, not integers. -/
theorem c81_special (w : Str) (h : Special w) : ¬ IntText Blank Decimal w ∧ RealText w := by
  constructor
  · rintro ⟨a, s, r, b, n, rfl, _, _, hr, _⟩
    obtain ⟨d, r', rfl, hd⟩ := run_ne hr
    have hch := ((special_chars h).2 d (by simp)).1
    have hlow : d.toNat < 128 := by
      rw [← special_iff] at h
      have hall : ∀ y ∈ [c!"inf", c!"infinity", c!"nan"], ∀ d ∈ y, d.toNat < 128 := by decide
      have := hall _ h (asciiLower d) (List.mem_map.2 ⟨d, by simp, rfl⟩)
      unfold asciiLower at this
      split at this <;> omega
    rw [decimal_ascii d hlow] at hd
    simp [du, cDigit] at hch
    omega
  · exact ⟨[], [], w, [], by simp, by simp, .inl rfl, .inl h, by simp⟩

/-! ### Non-vacuity -/

theorem run_replicate (d : Char) (hd : Decimal d) (n : Nat) : Run Decimal (List.replicate (n + 1) d) (n + 1) := by
  induction n with
  | zero => exact .one hd
  | succ n ih => exact .next hd ih

/-- Integers in Arabic digits, with underscores, with blanks; a comma; not-a-number; 5000 digits. -/
example : IntText Blank Decimal (c!"1_000") ∧ IntText Blank Decimal (c!"\u00a0-٣٤\n") ∧ ¬ IntText Blank Decimal (c!"1__0") ∧ ¬ IntText Blank Decimal (c!"\u001c1") ∧
    RealText (c!"1,5e-1_0") ∧ ¬ RealText (c!"1,5,") ∧ RealText (c!".5") ∧ ¬ RealText (c!".") ∧ ¬ RealText (c!"1_.5") ∧
    Special (c!"NaN") ∧ ¬ IntText Blank Decimal (List.replicate 5000 '7') ∧ RealText (List.replicate 5000 '7') := by
  have h7 : Decimal '7' := (decimal_ascii '7' (by decide)).2 (by decide)
  refine ⟨?_, ?_, ?_, ?_, ?_, ?_, ?_, ?_, ?_, ?_, (c81_long _ _ (run_replicate '7' h7 4999) (by omega)).1, (c81_long _ _ (run_replicate '7' h7 4999) (by omega)).2⟩
  · rw [← c81_int]; decide +kernel
  · rw [← c81_int]; decide +kernel
  · rw [← c81_int]; decide +kernel
  · rw [← c81_int]; decide +kernel
  · rw [RealText, ← c81_real]; unfold SaysFloat; decide +kernel
  · rw [RealText, ← c81_real]; unfold SaysFloat; decide +kernel
  · rw [RealText, ← c81_real]; unfold SaysFloat; decide +kernel
  · rw [RealText, ← c81_real]; unfold SaysFloat; decide +kernel
  · rw [RealText, ← c81_real]; unfold SaysFloat; decide +kernel
  · rw [← special_iff]; decide

/-- The word NaN: the Russian analyzer's only answer is that it is a real number. -/
example : ∃ ps, Demo.morphC.parse (c!"NaN") = .ok ps ∧ Only Demo.morphC (c!"NaN") (c!"NUMB,real") ps := by
  have hsp : Special (c!"NaN") := by rw [← special_iff]; decide
  obtain ⟨⟨ps, h1, _⟩, _⟩ := c80_total Demo.morphC (.inl Demo.morphC_isRu) rfl Demo.dict_wf (by decide +kernel)
    (by intro dawg h; simp [Demo.morphC, Demo.morph] at h) (c!"NaN") (by decide)
  refine ⟨ps, h1, (c81_analysis Demo.morphC rfl _ ps h1 (.inl ⟨Demo.morphC_isRu, ?_⟩)).2 (c81_special _ hsp).2 (c81_special _ hsp).1⟩
  rintro (h | h)
  · exact absurd h (by decide +kernel)
  · exact absurd ((ruInitial_iff _).1 h) (by decide)

end Verif
