/-
What the case tables of CPython 3.11 say, checked by the kernel entry by entry.
-/
import Verif.Model.CpythonCase
import Verif.Props.C80

namespace Verif

open Cpython Unicode

/-! ### Windows: only the ranges near an interval matter -/

def near (lo hi : Nat) (T : List (Nat × Nat × Nat × Nat)) : List (Nat × Nat × Nat × Nat) := T.filter fun r => Nat.ble r.1 hi && Nat.ble lo r.2.1
def near2 (lo hi : Nat) (T : List (Nat × Nat)) : List (Nat × Nat) := T.filter fun r => Nat.ble r.1 hi && Nat.ble lo r.2
def nearS (lo hi : Nat) (T : List (Nat × List Nat)) : List (Nat × List Nat) := T.filter fun r => Nat.ble r.1 hi && Nat.ble lo r.1

def hits (n : Nat) (r : Nat × Nat × Nat × Nat) : Bool := Nat.ble r.1 n && Nat.ble n r.2.1 && Nat.beq ((n - r.1) % r.2.2.1) 0
def noHit (T : List (Nat × Nat × Nat × Nat)) (n : Nat) : Bool := T.all fun r => !hits n r
def imgIn (T : List (Nat × Nat × Nat × Nat)) (n : Nat) : Nat :=
  match T.find? (hits n) with
  | some r => r.2.2.2 + (n - r.1)
  | none => n
def inTab (T : List (Nat × Nat)) (n : Nat) : Bool := T.any fun r => Nat.ble r.1 n && Nat.ble n r.2
def keyIn (T : List (Nat × List Nat)) (n : Nat) : Bool := T.any fun r => Nat.beq r.1 n

theorem hits_iff (n : Nat) (r : Nat × Nat × Nat × Nat) : hits n r = (decide (r.1 ≤ n) && decide (n ≤ r.2.1) && ((n - r.1) % r.2.2.1 == 0)) := by
  rw [Bool.eq_iff_iff]
  simp only [hits, Bool.and_eq_true, Nat.ble_eq, decide_eq_true_eq, beq_iff_eq]
  refine and_congr_right fun _ => ⟨fun h => Nat.eq_of_beq_eq_true h, fun h => by rw [h]; rfl⟩

theorem upperNat_eq (n : Nat) : upperNat n = imgIn upperTable n := by
  unfold upperNat imgIn
  rw [show (fun r : Nat × Nat × Nat × Nat => decide (r.1 ≤ n) && decide (n ≤ r.2.1) && (n - r.1) % r.2.2.1 == 0) = hits n from funext fun r => (hits_iff n r).symm]
  rfl

theorem lowerNat_eq (n : Nat) : lowerNat n = imgIn lowerTable n := by
  unfold lowerNat imgIn
  rw [show (fun r : Nat × Nat × Nat × Nat => decide (r.1 ≤ n) && decide (n ≤ r.2.1) && (n - r.1) % r.2.2.1 == 0) = hits n from funext fun r => (hits_iff n r).symm]
  rfl

theorem hits_near {lo hi n : Nat} (h1 : lo ≤ n) (h2 : n ≤ hi) (r : Nat × Nat × Nat × Nat) (h : hits n r = true) :
    (Nat.ble r.1 hi && Nat.ble lo r.2.1) = true := by
  rw [hits_iff] at h
  simp only [Bool.and_eq_true, decide_eq_true_eq] at h
  simp only [Bool.and_eq_true, Nat.ble_eq]
  omega

theorem find?_filter_of {α : Type} (p q : α → Bool) (h : ∀ a, q a = true → p a = true) (l : List α) : (l.filter p).find? q = l.find? q := by
  induction l with
  | nil => rfl
  | cons a l ih =>
    by_cases hp : p a = true
    · rw [List.filter_cons_of_pos hp, List.find?_cons, List.find?_cons, ih]
    · rw [List.filter_cons_of_neg hp, List.find?_cons, ih]
      have : q a = false := by
        cases hq : q a with
        | false => rfl
        | true => exact absurd (h a hq) hp
      rw [this]

theorem imgIn_near {lo hi n : Nat} (h1 : lo ≤ n) (h2 : n ≤ hi) (T : List (Nat × Nat × Nat × Nat)) : imgIn (near lo hi T) n = imgIn T n := by
  unfold imgIn near
  rw [find?_filter_of _ _ fun r h => hits_near h1 h2 r h]

theorem noHit_near {lo hi n : Nat} (h1 : lo ≤ n) (h2 : n ≤ hi) (T : List (Nat × Nat × Nat × Nat)) : noHit (near lo hi T) n = noHit T n := by
  unfold noHit near
  rw [List.all_filter]
  congr 1
  funext r
  cases h : hits n r with
  | false => simp
  | true => simp [hits_near h1 h2 r h]

theorem inTab_near {lo hi n : Nat} (h1 : lo ≤ n) (h2 : n ≤ hi) (T : List (Nat × Nat)) : inTab (near2 lo hi T) n = inTab T n := by
  unfold inTab near2
  rw [List.any_filter]
  congr 1
  funext r
  cases h : (Nat.ble r.1 n && Nat.ble n r.2) with
  | false => simp
  | true =>
    simp only [Bool.and_eq_true, Nat.ble_eq] at h
    simp only [Bool.and_true, Bool.and_eq_true, Nat.ble_eq]
    omega

theorem keyIn_near {lo hi n : Nat} (h1 : lo ≤ n) (h2 : n ≤ hi) (T : List (Nat × List Nat)) : keyIn (nearS lo hi T) n = keyIn T n := by
  unfold keyIn nearS
  rw [List.any_filter]
  congr 1
  funext r
  cases h : Nat.beq r.1 n with
  | false => simp
  | true =>
    have := Nat.eq_of_beq_eq_true h
    simp only [Bool.and_true, Bool.and_eq_true, Nat.ble_eq]
    omega

theorem inTab_iff (T : List (Nat × Nat)) (c : Char) : inTable T c = inTab T c.toNat := by
  unfold inTable inTab
  congr 1
  funext r
  rw [Bool.eq_iff_iff]
  simp only [Bool.and_eq_true, decide_eq_true_eq, Nat.ble_eq]

theorem imgIn_noHit {T : List (Nat × Nat × Nat × Nat)} {n : Nat} (h : noHit T n = true) : imgIn T n = n := by
  unfold imgIn
  have : T.find? (hits n) = none := by
    rw [List.find?_eq_none]
    intro r hr hh
    have := List.all_eq_true.1 h r hr
    rw [hh] at this; cases this
  rw [this]

/-- A range, and the entry it stands for. -/
theorem imgIn_cases (T : List (Nat × Nat × Nat × Nat)) (n : Nat) :
    (noHit T n = true ∧ imgIn T n = n) ∨
    ∃ r ∈ T, r.1 ≤ n ∧ n ≤ r.2.1 ∧ (n - r.1) % r.2.2.1 = 0 ∧ imgIn T n = r.2.2.2 + (n - r.1) := by
  cases h : T.find? (hits n) with
  | none =>
    left
    have : noHit T n = true := by
      unfold noHit
      rw [List.all_eq_true]
      intro r hr
      have := List.find?_eq_none.1 h r hr
      simpa using this
    exact ⟨this, imgIn_noHit this⟩
  | some r =>
    right
    have hm := List.mem_of_find?_eq_some h
    have hp := List.find?_some h
    rw [hits_iff] at hp
    simp only [Bool.and_eq_true, decide_eq_true_eq, beq_iff_eq] at hp
    exact ⟨r, hm, hp.1.1, hp.1.2, hp.2, by unfold imgIn; rw [h]⟩

/-- All entries of a table satisfy a test. -/
def everyEntry (T : List (Nat × Nat × Nat × Nat)) (P : Nat → Nat → Nat → Nat → Nat → Nat → Bool) : Bool :=
  T.all fun r => (List.range (r.2.1 - r.1 + 1)).all fun k =>
    !Nat.beq (k % r.2.2.1) 0 || P r.1 r.2.1 r.2.2.2 (r.2.2.2 + (r.2.1 - r.1)) (r.1 + k) (r.2.2.2 + k)

theorem everyEntry_spec {T : List (Nat × Nat × Nat × Nat)} {P : Nat → Nat → Nat → Nat → Nat → Nat → Bool} (h : everyEntry T P = true) (n : Nat) :
    (noHit T n = true ∧ imgIn T n = n) ∨
    ∃ lo hi tlo thi t, P lo hi tlo thi n t = true ∧ lo ≤ n ∧ n ≤ hi ∧ tlo ≤ t ∧ t ≤ thi ∧ imgIn T n = t := by
  rcases imgIn_cases T n with h0 | ⟨r, hr, h1, h2, h3, h4⟩
  · exact .inl h0
  · right
    have := List.all_eq_true.1 (List.all_eq_true.1 h r hr) (n - r.1) (List.mem_range.2 (by omega))
    rw [h3] at this
    rw [show Nat.beq 0 0 = true from rfl, Bool.not_true, Bool.false_or] at this
    rw [show r.1 + (n - r.1) = n by omega] at this
    exact ⟨_, _, _, _, _, this, h1, h2, by omega, by omega, h4⟩

/-! ### The checks -/

def validNat (n : Nat) : Bool := Nat.blt n 0xD800 || (Nat.blt 0xDFFF n && Nat.blt n 0x110000)

/-- Lower case in code points, of a character by itself. -/
def lowNats (n : Nat) : List Nat := if Nat.beq n 0x3A3 then [0x3C3] else if Nat.beq n 0x130 then [0x69, 0x307] else [imgIn lowerTable n]

/-- Upper case of the lower case. -/
def foldNats (n : Nat) : List Nat := (lowNats n).flatMap upperNats

/-- The same as `foldNats`, with a window. -/
def upNear (lo hi n : Nat) : Bool := noHit (near lo hi upperTable) n && !keyIn (nearS lo hi upperSpecial) n

/-- Upper case of one character: valid, not changed again, upper case itself; what has an upper case is lower or title case, and title-cased only with a title table
entry. -/
def upperEntry (lo hi tlo thi n t : Nat) : Bool :=
  validNat t && upNear tlo thi t && (!keyIn (nearS tlo thi titleTable) t || keyIn (nearS lo hi titleTable) n) &&
  inTab (near2 tlo thi isupperTable) t &&
  (inTab (near2 lo hi islowerTable) n || inTab (near2 lo hi istitleTable) n) &&
  ((!inTab (near2 lo hi isupperTable) n && !inTab (near2 lo hi istitleTable) n) || keyIn (nearS lo hi titleTable) n) && !Nat.beq n 45 && !Nat.beq t 45

theorem upperTable_ok : everyEntry upperTable upperEntry = true := by decide +kernel

/-- Lower case and upper case agree: going up and down again returns, or at least upper case of the lower case is the same. -/
def foldEntry (lo hi tlo thi n t : Nat) : Bool :=
  (!Nat.beq n 0x3A3 && !Nat.beq n 0x130 && noHit (near lo hi lowerTable) n && !Nat.beq t 0x3A3 && !Nat.beq t 0x130 && Nat.beq (imgIn (near tlo thi lowerTable) t) n) ||
  (foldNats t == foldNats n)

theorem foldTable_ok : everyEntry upperTable foldEntry = true := by decide +kernel

/-- Lower case of one character: it was upper or title case, becomes lower case. -/
def lowerEntry (lo hi tlo thi n t : Nat) : Bool :=
  (inTab (near2 lo hi isupperTable) n || inTab (near2 lo hi istitleTable) n) && inTab (near2 tlo thi islowerTable) t && !Nat.beq n 45 && !Nat.beq t 45

theorem lowerEntries_ok : everyEntry lowerTable lowerEntry = true := by decide +kernel

/-- Cased code points. -/
def casedNat (n : Nat) : Bool := inTab islowerTable n || inTab isupperTable n || inTab istitleTable n

/-- `str.title` leaves the text alone, `p` telling whether a cased character precedes; the result tells whether the last character is cased. -/
def stays : Bool → List Nat → Option Bool
  | p, [] => some p
  | p, n :: l => if (if p then lowNats n == [n] else titleNats n == [n]) then stays (casedNat n) l else none

/-- Characters that `str.title` takes apart in such a way that the next letter becomes the first of a word the next time: the capital İ, ǰ, ẖ, ẗ, ẘ, ẙ, ẚ and Greek letters
with two accents. -/
def fragileNats : List Nat :=
  [0x130, 0x1f0, 0x390, 0x3b0, 0x1e96, 0x1e97, 0x1e98, 0x1e99, 0x1e9a, 0x1f50, 0x1f52, 0x1f54, 0x1f56, 0x1fb6, 0x1fb7, 0x1fc6, 0x1fc7, 0x1fd2, 0x1fd3, 0x1fd6,
   0x1fd7, 0x1fe2, 0x1fe3, 0x1fe4, 0x1fe6, 0x1fe7, 0x1ff6, 0x1ff7]

/-- The capital digraphs Ǆ, Ǉ, Ǌ, Ǳ. -/
def digraphNats : List Nat := [0x1c4, 0x1c7, 0x1ca, 0x1f1]

def upStable (t : Nat) : Bool := noHit upperTable t && !keyIn upperSpecial t

def notUT (n : Nat) : Bool := !inTab isupperTable n && !inTab istitleTable n

/-- The characters whose upper case is longer. -/
def specialEntry (r : Nat × List Nat) : Bool :=
  r.2.all (fun t => validNat t && (upStable t && !Nat.beq t 45)) && ((r.2.flatMap foldNats == foldNats r.1) && ((inTab islowerTable r.1 || inTab istitleTable r.1) &&
  (!Nat.beq r.1 45 && (keyIn titleTable r.1 || (notUT r.1 && (fragileNats.contains r.1 || stays false r.2 == some (casedNat r.1)))))))

theorem upperSpecial_ok : upperSpecial.all specialEntry = true := by decide +kernel

/-- The characters whose title case is not the upper case. -/
def titleEntry (r : Nat × List Nat) : Bool :=
  r.2.all (fun t => validNat t && !Nat.beq t 45) && ((r.2.flatMap foldNats == foldNats r.1) && (casedNat r.1 &&
  (!Nat.beq r.1 45 && ((notUT r.1 || (r.2 == [r.1] || digraphNats.contains r.1)) && (fragileNats.contains r.1 || stays false r.2 == some (casedNat r.1))))))

theorem titleTable_ok : titleTable.all titleEntry = true := by decide +kernel

/-! ### What they mean -/

theorem keyIn_find {T : List (Nat × List Nat)} {n : Nat} (h : keyIn T n = false) : T.find? (fun r => r.1 == n) = none := by
  rw [List.find?_eq_none]
  intro r hr hh
  have := List.any_eq_false.1 h r hr
  rw [beq_iff_eq.1 hh] at this
  exact this (Nat.beq_refl n)

theorem find_key {T : List (Nat × List Nat)} {n : Nat} : (keyIn T n = false ∧ T.find? (fun r => r.1 == n) = none) ∨
    (keyIn T n = true ∧ ∃ out, (n, out) ∈ T ∧ T.find? (fun r => r.1 == n) = some (n, out)) := by
  cases h : T.find? (fun r => r.1 == n) with
  | none =>
    left
    refine ⟨?_, rfl⟩
    unfold keyIn
    rw [List.any_eq_false]
    intro r hr hh
    have := List.find?_eq_none.1 h r hr
    rw [Nat.eq_of_beq_eq_true hh] at this
    simp at this
  | some r =>
    right
    have hm := List.mem_of_find?_eq_some h
    have hp := List.find?_some h
    obtain ⟨a, out⟩ := r
    simp only [beq_iff_eq] at hp
    subst hp
    refine ⟨?_, out, hm, rfl⟩
    unfold keyIn
    rw [List.any_eq_true]
    exact ⟨_, hm, Nat.beq_refl a⟩

theorem upStable_spec {t : Nat} (h : upStable t = true) : upperNats t = [t] := by
  simp only [upStable, Bool.and_eq_true, Bool.not_eq_true'] at h
  unfold upperNats
  rw [keyIn_find h.2, upperNat_eq, imgIn_noHit h.1]

theorem upNear_spec {lo hi t : Nat} (h1 : lo ≤ t) (h2 : t ≤ hi) (h : upNear lo hi t = true) : upStable t = true := by
  unfold upNear at h
  rw [noHit_near h1 h2, keyIn_near h1 h2] at h
  exact h

/-- Everything about the upper case of one character. -/
structure UpFacts (n : Nat) : Prop where
  valid : ∀ t ∈ upperNats n, validNat t = true
  stable : ∀ t ∈ upperNats n, upperNats t = [t]
  fold : (upperNats n).flatMap foldNats = foldNats n
  hyphen : ∀ t ∈ upperNats n, t ≠ 45
  lower : inTab islowerTable n = true ∨ inTab istitleTable n = true
  title : keyIn titleTable n = true ∨ (notUT n = true ∧ (n ∈ fragileNats ∨ stays false (upperNats n) = some (casedNat n)))
  notHyphen : n ≠ 45

theorem upFacts (n : Nat) : upperNats n = [n] ∨ UpFacts n := by
  have hbeq : ∀ a b : Nat, (!Nat.beq a b) = true → a ≠ b := by
    rintro a b h rfl
    rw [Nat.beq_refl] at h; cases h
  rcases find_key (T := upperSpecial) (n := n) with ⟨h1, h2⟩ | ⟨h1, out, hm, h2⟩
  · have hn : upperNats n = [imgIn upperTable n] := by unfold upperNats; rw [h2, upperNat_eq]
    rcases everyEntry_spec upperTable_ok n with ⟨_, h3⟩ | ⟨lo, hi, tlo, thi, t, he, e1, e2, e3, e4, e5⟩
    · left; rw [hn, h3]
    · right
      rw [e5] at hn
      simp only [upperEntry, Bool.and_eq_true, Bool.or_eq_true, Bool.not_eq_true', inTab_near e1 e2, inTab_near e3 e4, keyIn_near e1 e2, keyIn_near e3 e4] at he
      obtain ⟨⟨⟨⟨⟨⟨⟨hv, hs⟩, ht⟩, hu⟩, hl⟩, hut⟩, h45⟩, ht45⟩ := he
      have hst := upNear_spec e3 e4 hs
      have hfold : foldNats t = foldNats n := by
        rcases everyEntry_spec foldTable_ok n with ⟨h3, h4⟩ | ⟨lo', hi', tlo', thi', t', he', e1', e2', e3', e4', e5'⟩
        · rw [e5] at h4; rw [h4]
        · rw [e5] at e5'; subst e5'
          unfold foldEntry at he'
          rw [Bool.or_eq_true] at he'
          rcases he' with he' | he'
          · simp only [Bool.and_eq_true] at he'
            obtain ⟨⟨⟨⟨⟨a1, a2⟩, a3⟩, a4⟩, a5⟩, a6⟩ := he'
            rw [noHit_near e1' e2'] at a3
            rw [imgIn_near e3' e4'] at a6
            have hb : ∀ x y : Nat, (!Nat.beq x y) = true → Nat.beq x y = false := fun x y h => by simpa using h
            unfold foldNats lowNats
            rw [hb _ _ a1, hb _ _ a2, hb _ _ a4, hb _ _ a5, imgIn_noHit a3, Nat.eq_of_beq_eq_true a6]
          · exact beq_iff_eq.1 he'
      refine ⟨?_, ?_, ?_, ?_, hl, ?_, hbeq _ _ (by simpa using h45)⟩
      · rw [hn]; simpa using hv
      · rw [hn]; simpa using upStable_spec hst
      · rw [hn]; simpa using hfold
      · rw [hn]; simpa using hbeq _ _ (by simpa using ht45)
      · cases hk : keyIn titleTable n with
        | true => exact .inl rfl
        | false =>
          right
          rw [hk] at hut ht
          refine ⟨?_, .inr ?_⟩
          · rcases hut with hut | hut
            · simp [notUT, hut.1, hut.2]
            · cases hut
          · have htk : keyIn titleTable t = false := by
              rcases ht with ht | ht
              · exact ht
              · cases ht
            have hcn : casedNat n = true := by
              rcases hl with hl | hl <;> simp [casedNat, hl]
            have hct : casedNat t = true := by simp [casedNat, hu]
            have htt : titleNats t = [t] := by unfold titleNats; rw [keyIn_find htk]; exact upStable_spec hst
            rw [hn, hcn]
            simp [stays, htt, hct]
  · right
    have hn : upperNats n = out := by unfold upperNats; rw [h2]
    have he := List.all_eq_true.1 upperSpecial_ok _ hm
    simp only [specialEntry, Bool.and_eq_true, Bool.or_eq_true, List.all_eq_true, beq_iff_eq] at he
    obtain ⟨ha, hf, hl, h45, ht⟩ := he
    refine ⟨?_, ?_, by rw [hn]; exact hf, ?_, hl, ?_, hbeq _ _ h45⟩
    · rw [hn]; exact fun t h => (ha t h).1
    · rw [hn]; exact fun t h => upStable_spec (ha t h).2.1
    · rw [hn]; exact fun t h => hbeq _ _ (ha t h).2.2
    · rcases ht with ht | ⟨ht1, ht2⟩
      · exact .inl ht
      · right
        refine ⟨ht1, ?_⟩
        rcases ht2 with h | h
        · left; simpa using h
        · right; rw [hn]; exact h

/-- Everything about the title case of one character. -/
structure TitleFacts (n : Nat) : Prop where
  valid : ∀ t ∈ titleNats n, validNat t = true
  fold : (titleNats n).flatMap foldNats = foldNats n
  hyphen : ∀ t ∈ titleNats n, t ≠ 45
  cased : casedNat n = true
  title : notUT n = true ∨ n ∈ digraphNats ∨ titleNats n = [n]
  again : n ∈ fragileNats ∨ stays false (titleNats n) = some (casedNat n)
  notHyphen : n ≠ 45

theorem titleFacts (n : Nat) : titleNats n = [n] ∨ TitleFacts n := by
  have hbeq : ∀ a b : Nat, (!Nat.beq a b) = true → a ≠ b := by
    rintro a b h rfl
    rw [Nat.beq_refl] at h; cases h
  rcases find_key (T := titleTable) (n := n) with ⟨h1, h2⟩ | ⟨h1, out, hm, h2⟩
  · have hn : titleNats n = upperNats n := by unfold titleNats; rw [h2]
    rcases upFacts n with h | h
    · left; rw [hn, h]
    · right
      obtain ⟨hu1, hu2⟩ := h.title.resolve_left (by rw [h1]; simp)
      refine ⟨hn ▸ h.valid, hn ▸ h.fold, hn ▸ h.hyphen, ?_, .inl hu1, hn ▸ hu2, h.notHyphen⟩
      rcases h.lower with hl | hl <;> simp [casedNat, hl]
  · right
    have hn : titleNats n = out := by unfold titleNats; rw [h2]
    have he := List.all_eq_true.1 titleTable_ok _ hm
    simp only [titleEntry, Bool.and_eq_true, Bool.or_eq_true, List.all_eq_true, beq_iff_eq] at he
    obtain ⟨ha, hf, hc, h45, ht, hs⟩ := he
    refine ⟨?_, by rw [hn]; exact hf, ?_, hc, ?_, ?_, hbeq _ _ h45⟩
    · rw [hn]; exact fun t h => (ha t h).1
    · rw [hn]; exact fun t h => hbeq _ _ (ha t h).2
    · rcases ht with h | h | h
      · exact .inl h
      · exact .inr (.inr (by rw [hn]; exact h))
      · exact .inr (.inl (by simpa using h))
    · rcases hs with h | h
      · left; simpa using h
      · right; rw [hn]; exact h

end Verif
