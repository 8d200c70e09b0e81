/-
C107 — agreement with fractional numbers.
-/
import Verif.Model.Numeral
import Verif.Lemmas.Binary64
import Verif.Props.C20

set_option linter.unusedSectionVars false

namespace Verif

variable {S : Type} [Score S]

/-! ### Remainders -/

theorem ratMod_bounds (q : Rat) (n : Nat) (hn : 0 < n) : 0 ≤ ratMod q n ∧ ratMod q n < n := by
  have hn' : (0 : Rat) < n := by exact_mod_cast hn
  unfold ratMod
  have h1 := Int.floor_le (q / n)
  have h2 := Int.lt_floor_add_one (q / n)
  rw [le_div_iff₀ hn'] at h1
  rw [div_lt_iff₀ hn'] at h2
  constructor <;> nlinarith

/-- `q mod n` is the remainder of the whole part and the fractional part. -/
theorem ratMod_eq (q : Rat) (n : Nat) (hn : 0 < n) : ratMod q n = ((⌊q⌋ % (n : Int) : Int) : Rat) + Int.fract q := by
  have hn' : (0 : Rat) < n := by exact_mod_cast hn
  have hf : ⌊q / n⌋ = ⌊q⌋ / (n : Int) := Int.floor_div_natCast q n
  unfold ratMod
  rw [hf]
  have h := Int.emod_add_mul_ediv ⌊q⌋ (n : Int)
  have h' : ((⌊q⌋ % (n : Int) : Int) : Rat) + n * ((⌊q⌋ / (n : Int) : Int) : Rat) = (⌊q⌋ : Rat) := by exact_mod_cast h
  have h3 := Int.floor_add_fract q
  linarith

/-! ### Fractions -/

theorem numeralIndexQ_int (n : Int) : numeralIndexQ n = numeralIndex n := by
  have e : ∀ k : Nat, 0 < k → ratMod (n : Rat) k = ((n % (k : Int) : Int) : Rat) := by
    intro k hk
    rw [ratMod_eq _ _ hk]
    simp
  unfold numeralIndexQ numeralIndex
  rw [e 10 (by decide), e 100 (by decide)]
  have h1 : (((n % ((10 : Nat) : Int) : Int) : Rat) = 1) ↔ n % 10 = 1 := by norm_cast
  have h2 : (((n % ((100 : Nat) : Int) : Int) : Rat) = 11) ↔ n % 100 = 11 := by norm_cast
  have h3 : (((n % ((10 : Nat) : Int) : Int) : Rat) ≥ 2) ↔ n % 10 ≥ 2 := by norm_cast
  have h4 : (((n % ((10 : Nat) : Int) : Int) : Rat) ≤ 4) ↔ n % 10 ≤ 4 := by norm_cast
  have h5 : (((n % ((100 : Nat) : Int) : Int) : Rat) < 10) ↔ n % 100 < 10 := by norm_cast
  have h6 : (((n % ((100 : Nat) : Int) : Int) : Rat) ≥ 20) ↔ n % 100 ≥ 20 := by norm_cast
  simp only [ne_eq, h1, h2, h3, h4, h5, h6]

/-- A number that is not whole is treated as 2 if its whole part ends in 2 or 3, but not in 12 or 13, and else as 5. -/
theorem numeralIndexQ_frac (q : Rat) (h : ∀ n : Int, q ≠ n) :
    numeralIndexQ q = if (⌊q⌋ % 10 = 2 ∨ ⌊q⌋ % 10 = 3) ∧ ⌊q⌋ % 100 ≠ 12 ∧ ⌊q⌋ % 100 ≠ 13 then 1 else 2 := by
  have h0 : 0 < Int.fract q := by
    rcases (Int.fract_nonneg q).lt_or_eq with h' | h'
    · exact h'
    · exact absurd (by have := Int.floor_add_fract q; rw [← h', add_zero] at this; exact this.symm) (h ⌊q⌋)
  have h1 := Int.fract_lt_one q
  have lt : ∀ (a : Int) (k : Nat), (((a : Int) : Rat) + Int.fract q < (k : Rat)) ↔ a < k := by
    intro a k
    constructor
    · intro hh
      have : ((a : Int) : Rat) < ((k : Int) : Rat) := by push_cast; linarith
      exact_mod_cast this
    · intro hh
      have : a + 1 ≤ (k : Int) := hh
      have : ((a : Int) : Rat) + 1 ≤ (k : Rat) := by exact_mod_cast this
      linarith
  have ge : ∀ (a : Int) (k : Nat), ((k : Rat) ≤ ((a : Int) : Rat) + Int.fract q) ↔ (k : Int) ≤ a := by
    intro a k
    have := not_congr (lt a k)
    rwa [not_lt, not_lt] at this
  have ne : ∀ (a : Int) (k : Nat), (((a : Int) : Rat) + Int.fract q ≠ (k : Rat)) := by
    intro a k hh
    have e1 := (lt a (k + 1)).1 (by push_cast; linarith)
    have e2 := (ge a k).1 hh.ge
    push_cast at e1
    have e3 : a = k := by omega
    rw [e3] at hh
    simp at hh
    linarith
  have le : ∀ (a : Int) (k : Nat), (((a : Int) : Rat) + Int.fract q ≤ (k : Rat)) ↔ a < k := by
    intro a k
    rw [le_iff_lt_or_eq, lt]
    simp [ne a k]
  unfold numeralIndexQ
  rw [ratMod_eq _ _ (by decide : 0 < 10), ratMod_eq _ _ (by decide : 0 < 100)]
  have n1 := ne (⌊q⌋ % 10) 1
  have g2 := ge (⌊q⌋ % 10) 2
  have l4 := le (⌊q⌋ % 10) 4
  have l10 := lt (⌊q⌋ % 100) 10
  have g20 := ge (⌊q⌋ % 100) 20
  push_cast at n1 g2 l4 l10 g20 ⊢
  rw [if_neg (fun hh => n1 hh.1)]
  simp only [ge_iff_le, g2, l4, l10, g20]
  by_cases hc : (⌊q⌋ % 10 = 2 ∨ ⌊q⌋ % 10 = 3) ∧ ⌊q⌋ % 100 ≠ 12 ∧ ⌊q⌋ % 100 ≠ 13
  · rw [if_pos hc, if_pos (by omega)]
  · rw [if_neg hc, if_neg (by omega)]

/-! ### Floats -/

/-- A double of size at least 5 is a multiple of a power of two, with at most 53 bits. -/
theorem double_grid (v : Rat) (hv : B64.round v = .fin v) (h5 : 5 ≤ |v|) : ∃ (n k : Int), v = n * 2 ^ k ∧ |n| ≤ 2 ^ 53 ∧ -50 ≤ k := by
  have h0 : v ≠ 0 := by rintro rfl; norm_num at h5
  have hk : -50 ≤ ulpExp v := by
    have := lt_log v
    by_contra hlt
    have h2 : (2 : Rat) ^ (ulpExp v + 53) ≤ 2 ^ (2 : Int) := zpow_le_zpow_right₀ (by norm_num) (by omega)
    have : |v| < 2 ^ (2 : Int) := lt_of_lt_of_le this h2
    norm_num at this
    linarith
  have hu : B64.ulp v = ulpExp v := by unfold B64.ulp; omega
  unfold B64.round at hv
  simp only [if_neg h0, hu] at hv
  split at hv
  · have e : (rne (v / 2 ^ ulpExp v) : Rat) * 2 ^ ulpExp v = v := by simpa using hv
    refine ⟨rne (v / 2 ^ ulpExp v), ulpExp v, e.symm, ?_, hk⟩
    have hlt := lt_log v
    rw [← e, abs_mul, abs_of_pos (two_zpow_pos _), e] at hlt
    rw [zpow_add₀ (by norm_num), mul_comm ((2 : Rat) ^ ulpExp v)] at hlt
    have := lt_of_mul_lt_mul_right hlt (two_zpow_pos (ulpExp v)).le
    have e53 : (2 : Rat) ^ (53 : Int) = 9007199254740992 := by norm_num
    rw [e53] at this
    have h53 : |rne (v / 2 ^ ulpExp v)| < 9007199254740992 := by exact_mod_cast this
    have : (2 : Int) ^ 53 = 9007199254740992 := by norm_num
    omega
  · simp at hv

theorem ratMod_fract (q : Rat) (n : Nat) (hn : 0 < n) : ratMod q n = n * Int.fract (q / n) := by
  have hn' : (n : Rat) ≠ 0 := by exact_mod_cast hn.ne'
  unfold ratMod Int.fract
  rw [mul_sub, mul_div_cancel₀ _ hn']

theorem ratMod_neg (q : Rat) (n : Nat) (hn : 0 < n) : ratMod (-q) n = if ratMod q n = 0 then 0 else n - ratMod q n := by
  have hn' : (n : Rat) ≠ 0 := by exact_mod_cast hn.ne'
  rw [ratMod_fract _ _ hn, ratMod_fract _ _ hn, neg_div]
  by_cases h : Int.fract (q / n) = 0
  · simp [h, Int.fract_neg_eq_zero.2 h]
  · rw [if_neg (by simp [hn', h]), Int.fract_neg h]
    ring

/-- The rounding in `%` is exact, or the remainder is in the upper half, before and after rounding. -/
theorem floatMod_cases (v : Rat) (hv : B64.round v = .fin v) (w h : Nat) (hw : w = 2 * h) (h5 : 5 ≤ h) (h100 : h ≤ 50) :
    floatMod (.fin v) w = .fin (ratMod v w) ∨ ((h : Rat) ≤ ratMod v w ∧ ∃ r : Rat, floatMod (.fin v) w = .fin r ∧ (h : Rat) ≤ r) := by
  have hwp : 0 < w := by omega
  obtain ⟨b1, b2⟩ := ratMod_bounds v w hwp
  obtain ⟨c1, c2⟩ := ratMod_bounds (-v) w hwp
  have hwr : (w : Rat) = 2 * h := by exact_mod_cast hw
  have h5r : (5 : Rat) ≤ h := by exact_mod_cast h5
  have h100r : (h : Rat) ≤ 50 := by exact_mod_cast h100
  simp only [floatMod]
  by_cases hneg : v < 0
  · have hf : fmod v w = - ratMod (-v) w := by simp [fmod, hneg]
    rw [hf]
    by_cases hz : ratMod (-v) w = 0
    · left
      have : ratMod v w = 0 := by
        have := ratMod_neg (-v) w hwp
        rw [neg_neg, if_pos hz] at this
        exact this
      simp [hz, this]
    · have hr : ratMod v w = w - ratMod (-v) w := by
        have := ratMod_neg (-v) w hwp
        rw [neg_neg, if_neg hz] at this
        exact this
      have hpos : 0 < ratMod (-v) w := lt_of_le_of_ne c1 (Ne.symm hz)
      rw [if_pos (by linarith)]
      have e : -ratMod (-v) w + (w : Rat) = ratMod v w := by rw [hr]; ring
      rw [e]
      have hrp : 0 < ratMod v w := by rw [hr]; linarith
      have hbig : |ratMod v w| ≤ 2 ^ (1023 : Int) := by
        rw [abs_of_pos hrp]
        have h7 : (2 : Rat) ^ (7 : Int) = 128 := by norm_num
        have : ((2 : Rat) ^ (7 : Int)) ≤ 2 ^ (1023 : Int) := zpow_le_zpow_right₀ (by norm_num) (by norm_num)
        rw [h7] at this
        generalize (2 : Rat) ^ (1023 : Int) = B at this ⊢
        linarith
      by_cases hhalf : (h : Rat) ≤ ratMod v w
      · right
        refine ⟨hhalf, fl (ratMod v w), ?_, ?_⟩
        · refine round_normal (.inr ?_) hbig
          rw [abs_of_pos hrp]
          have h1 : (2 : Rat) ^ (-1022 : Int) ≤ 1 := zpow_neg_le_one 1022
          generalize (2 : Rat) ^ (-1022 : Int) = B at h1 ⊢
          linarith
        · have := fl_mono hhalf
          rwa [fl_natCast h (by omega)] at this
      · left
        rw [not_le] at hhalf
        have hvbig : (h : Rat) < -v := by
          have : ratMod (-v) w ≤ -v := by
            unfold ratMod
            have : (0 : Int) ≤ ⌊-v / (w : Rat)⌋ := Int.floor_nonneg.2 (div_nonneg (by linarith) (by positivity))
            have : (0 : Rat) ≤ (⌊-v / (w : Rat)⌋ : Rat) := by exact_mod_cast this
            have : (0 : Rat) ≤ w * (⌊-v / (w : Rat)⌋ : Rat) := by positivity
            linarith
          linarith
        obtain ⟨n, k, hnk, hn, hk⟩ := double_grid v hv (by rw [abs_of_neg hneg]; linarith)
        have key : ∃ j : Int, ratMod v w = j * 2 ^ (min k 0) ∧ |j| ≤ 2 ^ 53 := by
          rcases le_total 0 k with hk0 | hk0
          · obtain ⟨a, rfl⟩ := Int.eq_ofNat_of_zero_le hk0
            refine ⟨n * 2 ^ a - w * ⌊v / w⌋, ?_, ?_⟩
            · rw [min_eq_right hk0]
              unfold ratMod
              push_cast
              rw [hnk]
              simp
            · have hj : ratMod v w = ((n * 2 ^ a - w * ⌊v / w⌋ : Int) : Rat) := by
                unfold ratMod
                push_cast
                rw [hnk]
                simp
              have l1 : (0 : Rat) < ((n * 2 ^ a - w * ⌊v / w⌋ : Int) : Rat) := by rw [← hj]; exact hrp
              have l2 : ((n * 2 ^ a - w * ⌊v / w⌋ : Int) : Rat) < ((50 : Int) : Rat) := by rw [← hj]; push_cast; linarith
              have l1 : 0 < n * 2 ^ a - w * ⌊v / w⌋ := by exact_mod_cast l1
              have l2 : n * 2 ^ a - w * ⌊v / w⌋ < 50 := by exact_mod_cast l2
              rw [abs_of_pos l1]
              have : (2 : Int) ^ 53 = 9007199254740992 := by norm_num
              omega
          · obtain ⟨a, ha⟩ := Int.eq_ofNat_of_zero_le (a := -k) (by omega)
            have hp : (2 : Rat) ^ k * 2 ^ a = 1 := by
              have : k = -(a : Int) := by omega
              rw [this, zpow_neg, zpow_natCast]
              exact inv_mul_cancel₀ (by positivity)
            have hj : ratMod v w = ((n - w * ⌊v / w⌋ * 2 ^ a : Int) : Rat) * 2 ^ k := by
              unfold ratMod
              push_cast
              rw [sub_mul, ← hnk, mul_assoc ((w : Rat) * _), mul_comm ((2 : Rat) ^ a), hp, mul_one]
            refine ⟨n - w * ⌊v / w⌋ * 2 ^ a, ?_, ?_⟩
            · rw [min_eq_left hk0]; exact hj
            · have l1 : |((n - w * ⌊v / w⌋ * 2 ^ a : Int) : Rat) * 2 ^ k| < |(n : Rat) * 2 ^ k| := by
                rw [← hj, ← hnk, abs_of_pos hrp, abs_of_neg hneg]
                linarith
              rw [abs_mul, abs_mul] at l1
              have l2 := lt_of_mul_lt_mul_right l1 (abs_nonneg _)
              have l3 : |n - w * ⌊v / w⌋ * 2 ^ a| < |n| := by exact_mod_cast l2
              omega
        obtain ⟨j, hj, hj53⟩ := key
        have hfl : fl (ratMod v w) = ratMod v w := by rw [hj]; exact fl_grid j _ hj53
        have hj1 : 1 ≤ j := by
          have : 0 < (j : Rat) * 2 ^ (min k 0) := by rw [← hj]; exact hrp
          have : 0 < (j : Rat) := (pos_iff_pos_of_mul_pos this).2 (two_zpow_pos _)
          have : 0 < j := by exact_mod_cast this
          omega
        rw [round_normal (.inr ?_) hbig, hfl]
        rw [abs_of_pos hrp, hj]
        have h1 : (2 : Rat) ^ (-1022 : Int) ≤ 2 ^ (min k 0) := zpow_le_zpow_right₀ (by norm_num) (by omega)
        have h2 : (1 : Rat) ≤ j := by exact_mod_cast hj1
        have h3 := two_zpow_pos (min k 0)
        nlinarith
  · left
    have hf : fmod v w = ratMod v w := by simp [fmod, hneg]
    rw [hf, if_neg (by linarith)]

theorem numeralIndexF_eq (v : Rat) (hv : B64.round v = .fin v) : numeralIndexF (.fin v) = numeralIndexQ v := by
  have k10 : (floatMod (.fin v) 10 = .fin 1 ↔ ratMod v 10 = 1) ∧ (B64.le (.fin 2) (floatMod (.fin v) 10) = true ↔ 2 ≤ ratMod v 10) ∧
      (B64.le (floatMod (.fin v) 10) (.fin 4) = true ↔ ratMod v 10 ≤ 4) := by
    rcases floatMod_cases v hv 10 5 rfl le_rfl (by norm_num) with h | ⟨h1, r, h2, h3⟩
    · rw [h]; simp [B64.le]
    · rw [h2]
      push_cast at h1 h3
      simp only [B64.fin.injEq, B64.le, decide_eq_true_eq]
      refine ⟨⟨fun h => ?_, fun h => ?_⟩, ⟨fun _ => ?_, fun _ => ?_⟩, ⟨fun h => ?_, fun h => ?_⟩⟩ <;> linarith
  have k100 : (floatMod (.fin v) 100 = .fin 11 ↔ ratMod v 100 = 11) ∧ (B64.lt (floatMod (.fin v) 100) (.fin 10) = true ↔ ratMod v 100 < 10) ∧
      (B64.le (.fin 20) (floatMod (.fin v) 100) = true ↔ 20 ≤ ratMod v 100) := by
    rcases floatMod_cases v hv 100 50 rfl (by norm_num) le_rfl with h | ⟨h1, r, h2, h3⟩
    · rw [h]; simp [B64.le, B64.lt]
    · rw [h2]
      push_cast at h1 h3
      simp only [B64.fin.injEq, B64.le, B64.lt, decide_eq_true_eq]
      refine ⟨⟨fun h => ?_, fun h => ?_⟩, ⟨fun h => ?_, fun h => ?_⟩, ⟨fun _ => ?_, fun _ => ?_⟩⟩ <;> linarith
  unfold numeralIndexF numeralIndexQ
  simp only [ne_eq, k10.1, k10.2.1, k10.2.2, k100.1, k100.2.1, k100.2.2, ge_iff_le]

theorem agree_congr (m : Morph S) (sim : Sim) (pick : Grams → Option Str) (p : Parse S) (x : PyNum) (n : Int) (h : x.index = numeralIndex n) :
    m.makeAgreeN sim pick p x = m.makeAgree sim pick p n := by
  have : numeralAgreementI pick p.tag x.index = numeralAgreement pick p.tag n := by
    unfold numeralAgreementI numeralAgreement
    rw [h]
  unfold Morph.makeAgreeN Morph.makeAgreeI Morph.makeAgree
  rw [this]
  cases allSome (numeralAgreement pick p.tag n) <;> rfl

/-! ### C107 -/

/-- Ends in 2 or 3, but not in 12 or 13. -/
def EndsTwoThree (n : Int) : Prop := (∃ k : Int, n = 10 * k + 2 ∨ n = 10 * k + 3) ∧ ¬ ∃ k : Int, n = 100 * k + 12 ∨ n = 100 * k + 13

/-- The exact value of a number (none for infinities and NaN). -/
def PyNum.value : PyNum → Option Rat
  | .int n => some n
  | .frac q => some q
  | .float (.fin v) => some v
  | .float _ => none

/-- The value of a float has at most 53 significant bits (and is in the range of the format). -/
def PyNum.Valid : PyNum → Prop
  | .float (.fin v) => B64.round v = .fin v
  | _ => True

theorem PyNum.index_value (x : PyNum) (hx : x.Valid) (q : Rat) (h : x.value = some q) : x.index = numeralIndexQ q := by
  rcases x with n | q' | v | b | _
  · simp only [PyNum.value, Option.some.injEq] at h
    subst h
    exact (numeralIndexQ_int n).symm
  · simp only [PyNum.value, Option.some.injEq] at h
    subst h
    rfl
  · simp only [PyNum.value, Option.some.injEq] at h
    subst h
    exact numeralIndexF_eq v hx
  · simp [PyNum.value] at h
  · simp [PyNum.value] at h

/-- **C107.** Only the exact value of the number matters, not whether it is an int, a fraction or a float; whole floats and fractions agree as the int does. -/
theorem c107_whole (m : Morph S) (sim : Sim) (pick : Grams → Option Str) (p : Parse S) (x : PyNum) (hx : x.Valid) (n : Int) (h : x.value = some (n : Rat)) :
    m.makeAgreeN sim pick p x = m.makeAgree sim pick p n :=
  agree_congr m sim pick p x n (by rw [x.index_value hx _ h, numeralIndexQ_int])

theorem c107_value (m : Morph S) (sim : Sim) (pick : Grams → Option Str) (p : Parse S) (x y : PyNum) (hx : x.Valid) (hy : y.Valid) (q : Rat)
    (h : x.value = some q) (h' : y.value = some q) : m.makeAgreeN sim pick p x = m.makeAgreeN sim pick p y := by
  have : x.index = y.index := by rw [x.index_value hx _ h, y.index_value hy _ h']
  unfold Morph.makeAgreeN
  rw [this]

/-- A number between the whole numbers `n` and `n + 1` is treated as 2 if `n` ends in 2 or 3 (but not in 12 or 13), and as 5 otherwise. -/
theorem c107_fraction (m : Morph S) (sim : Sim) (pick : Grams → Option Str) (p : Parse S) (x : PyNum) (hx : x.Valid) (q : Rat) (h : x.value = some q)
    (n : Int) (hn : (n : Rat) < q) (hn1 : q < n + 1) :
    (EndsTwoThree n → m.makeAgreeN sim pick p x = m.makeAgree sim pick p 2) ∧ (¬ EndsTwoThree n → m.makeAgreeN sim pick p x = m.makeAgree sim pick p 5) := by
  have hq : ∀ k : Int, q ≠ k := by
    rintro k rfl
    have h1 : n < k := by exact_mod_cast hn
    have h2 : k < n + 1 := by exact_mod_cast hn1
    omega
  have hf : ⌊q⌋ = n := Int.floor_eq_iff.2 ⟨hn.le, hn1⟩
  have hi := x.index_value hx q h
  rw [numeralIndexQ_frac q hq, hf] at hi
  have e : EndsTwoThree n ↔ (n % 10 = 2 ∨ n % 10 = 3) ∧ n % 100 ≠ 12 ∧ n % 100 ≠ 13 := by
    unfold EndsTwoThree
    constructor
    · rintro ⟨⟨k, hk⟩, h2⟩
      refine ⟨by omega, fun hh => h2 ⟨n / 100, by omega⟩, fun hh => h2 ⟨n / 100, by omega⟩⟩
    · rintro ⟨h1, h2, h3⟩
      refine ⟨⟨n / 10, by omega⟩, ?_⟩
      rintro ⟨k, hk⟩
      omega
  constructor
  · intro h'
    rw [if_pos (e.1 h')] at hi
    exact agree_congr m sim pick p x 2 hi
  · intro h'
    rw [if_neg (fun hh => h' (e.2 hh))] at hi
    exact agree_congr m sim pick p x 5 hi

/-- Infinities and NaN are treated as 5. -/
theorem c107_special (m : Morph S) (sim : Sim) (pick : Grams → Option Str) (p : Parse S) (x : B64) (hx : ∀ v, x ≠ .fin v) :
    m.makeAgreeN sim pick p (.float x) = m.makeAgree sim pick p 5 := by
  refine agree_congr m sim pick p _ 5 ?_
  rcases x with v | b | _
  · exact absurd rfl (hx v)
  · rfl
  · rfl

/-- Russian has the genitive singular after every fraction ("полтора метра, 1.5 метра, 5.5 метра"); here a noun gets it after 2.5, but the genitive plural
after 1.5 and 5.5. -/
theorem c107_genitive (pick : Grams → Option Str) (hp : Picks pick) (t : Tag) (c : Str) (hpos : HasPos t (c!"NOUN")) (hcase : HasCase t c)
    (hc : c = c!"nomn" ∨ c = c!"accs") :
    numeralAgreementN pick t (.float (.fin (5 / 2))) = [some (c!"sing"), some (c!"gent")] ∧
    numeralAgreementN pick t (.float (.fin (3 / 2))) = [some (c!"plur"), some (c!"gent")] ∧
    numeralAgreementN pick t (.float (.fin (11 / 2))) = [some (c!"plur"), some (c!"gent")] := by
  have i1 : PyNum.index (.float (.fin (5 / 2))) = 1 := by decide +kernel
  have i2 : PyNum.index (.float (.fin (3 / 2))) = 2 := by decide +kernel
  have i3 : PyNum.index (.float (.fin (11 / 2))) = 2 := by decide +kernel
  unfold numeralAgreementN numeralAgreementI
  rw [category_unique hp hpos, category_unique hp hcase, i1, i2, i3]
  rcases hc with rfl | rfl <;> simp

/-! ### Decimals -/

/-- Numbers of up to 28 digits are not rounded. -/
theorem decFix_exact (c : Nat) (k : Int) (hc : c < 10 ^ 28) : decFix (c * 10 ^ k) = c * 10 ^ k := by
  have h10 : ∀ j : Int, (0 : Rat) < 10 ^ j := fun j => zpow_pos (by norm_num) j
  unfold decFix
  by_cases h0 : (c : Rat) * 10 ^ k = 0
  · rw [if_pos h0, h0]
  · rw [if_neg h0]
    have hpos : 0 < (c : Rat) * 10 ^ k := lt_of_le_of_ne (mul_nonneg (Nat.cast_nonneg c) (h10 k).le) (Ne.symm h0)
    rw [abs_of_pos hpos]
    have hl := Int.zpow_log_le_self (b := 10) (by norm_num) hpos
    have hlog : Int.log 10 ((c : Rat) * 10 ^ k) - 27 ≤ k := by
      by_contra hlt
      have h1 : ((10 : Nat) : Rat) ^ (28 + k) ≤ ((10 : Nat) : Rat) ^ Int.log 10 ((c : Rat) * 10 ^ k) :=
        zpow_le_zpow_right₀ (by norm_num) (by omega)
      have h2 := h1.trans hl
      push_cast at h2
      rw [zpow_add₀ (by norm_num)] at h2
      have h3 := le_of_mul_le_mul_right h2 (h10 k)
      have h4 : (c : Rat) < 10 ^ 28 := by exact_mod_cast hc
      have h5 : (10 : Rat) ^ (28 : Int) = 10 ^ 28 := by norm_num
      rw [h5] at h3
      linarith
    generalize Int.log 10 ((c : Rat) * 10 ^ k) - 27 = e at hlog
    obtain ⟨a, ha⟩ := Int.eq_ofNat_of_zero_le (a := k - e) (by omega)
    have hk : (10 : Rat) ^ k = 10 ^ a * 10 ^ e := by
      rw [← zpow_natCast, ← zpow_add₀ (by norm_num)]
      congr 1
      omega
    have hd : (c : Rat) * 10 ^ k / 10 ^ e = ((c * 10 ^ a : Nat) : Int) := by
      rw [hk, ← mul_assoc, mul_div_assoc, div_self (h10 e).ne']
      push_cast
      ring
    rw [hd, rne_int]
    push_cast
    rw [hk]
    ring

theorem decFix_nonpos (r : Rat) (h : r ≤ 0) : decFix r ≤ 0 := by
  unfold decFix
  split
  · exact le_rfl
  · have h10 : (0 : Rat) < 10 ^ (Int.log 10 |r| - 27) := zpow_pos (by norm_num) _
    have h1 : r / 10 ^ (Int.log 10 |r| - 27) ≤ ((0 : Int) : Rat) := by
      rw [Int.cast_zero]
      exact div_nonpos_of_nonpos_of_nonneg h h10.le
    have h2 := rne_mono h1
    rw [rne_int] at h2
    have h3 : (rne (r / 10 ^ (Int.log 10 |r| - 27)) : Rat) ≤ 0 := by exact_mod_cast h2
    exact mul_nonpos_of_nonpos_of_nonneg h3 h10.le

/-- The remainder of a decimal has no more digits than the decimal. -/
theorem decMod_exact (c : Nat) (k : Int) (hc : c < 10 ^ 28) (n : Nat) (hn : 0 < n) (hn' : n ≤ 100) (hv : (c : Rat) * 10 ^ k < 10 ^ 28 * n) :
    decMod (c * 10 ^ k) n = some (ratMod (c * 10 ^ k) n) := by
  have hpos : 0 ≤ (c : Rat) * 10 ^ k := mul_nonneg (Nat.cast_nonneg c) (zpow_nonneg (by norm_num) k)
  have hnr : (0 : Rat) < n := by exact_mod_cast hn
  have hf : fmod (c * 10 ^ k) n = ratMod (c * 10 ^ k) n := by rw [fmod, if_neg (not_lt.2 hpos)]
  obtain ⟨b1, b2⟩ := ratMod_bounds ((c : Rat) * 10 ^ k) n hn
  have hq : (0 : Int) ≤ ⌊(c : Rat) * 10 ^ k / n⌋ := Int.floor_nonneg.2 (div_nonneg hpos hnr.le)
  have hsub : (c : Rat) * 10 ^ k - ratMod (c * 10 ^ k) n = n * ⌊(c : Rat) * 10 ^ k / n⌋ := by unfold ratMod; ring
  have hqr : (0 : Rat) ≤ n * ⌊(c : Rat) * 10 ^ k / n⌋ := mul_nonneg hnr.le (by exact_mod_cast hq)
  unfold decMod
  rw [hf, if_neg]
  · congr 1
    -- the remainder as a decimal
    have key : ∃ (d : Nat) (j : Int), ratMod ((c : Rat) * 10 ^ k) n = d * 10 ^ j ∧ d < 10 ^ 28 := by
      obtain ⟨Q, hQ⟩ := Int.eq_ofNat_of_zero_le hq
      rcases le_total 0 k with hk | hk
      · obtain ⟨a, rfl⟩ := Int.eq_ofNat_of_zero_le hk
        have e : ratMod ((c : Rat) * 10 ^ (a : Int)) n = ((c * 10 ^ a - n * Q : Int) : Rat) := by
          unfold ratMod
          rw [hQ]
          push_cast
          rw [zpow_natCast]
        have l1 : (0 : Int) ≤ c * 10 ^ a - n * Q := by
          have : (0 : Rat) ≤ ((c * 10 ^ a - n * Q : Int) : Rat) := e ▸ b1
          exact_mod_cast this
        have l2 : (c * 10 ^ a - n * Q : Int) < n := by
          have : ((c * 10 ^ a - n * Q : Int) : Rat) < ((n : Int) : Rat) := by rw [← e]; exact_mod_cast b2
          exact_mod_cast this
        obtain ⟨d, hd⟩ := Int.eq_ofNat_of_zero_le l1
        refine ⟨d, 0, ?_, ?_⟩
        · rw [e, hd]; simp
        · have : d < n := by omega
          omega
      · obtain ⟨a, ha⟩ := Int.eq_ofNat_of_zero_le (a := -k) (by omega)
        have hp : (10 : Rat) ^ k * 10 ^ a = 1 := by
          have : k = -(a : Int) := by omega
          rw [this, zpow_neg, zpow_natCast]
          exact inv_mul_cancel₀ (by positivity)
        have e : ratMod ((c : Rat) * 10 ^ k) n = ((c - n * Q * 10 ^ a : Int) : Rat) * 10 ^ k := by
          unfold ratMod
          rw [hQ]
          push_cast
          rw [sub_mul, mul_assoc ((n : Rat) * Q), mul_comm ((10 : Rat) ^ a), hp, mul_one]
        have h10 : (0 : Rat) < 10 ^ k := zpow_pos (by norm_num) k
        have l1 : (0 : Int) ≤ c - n * Q * 10 ^ a := by
          have : (0 : Rat) ≤ ((c - n * Q * 10 ^ a : Int) : Rat) := by
            by_contra hlt
            have := mul_neg_of_neg_of_pos (not_le.1 hlt) h10
            rw [← e] at this
            linarith
          exact_mod_cast this
        obtain ⟨d, hd⟩ := Int.eq_ofNat_of_zero_le l1
        refine ⟨d, k, ?_, ?_⟩
        · rw [e, hd]; simp
        · have : (0 : Int) ≤ n * Q * 10 ^ a := by positivity
          have : d ≤ c := by omega
          omega
    obtain ⟨d, j, hd, hd'⟩ := key
    rw [hd]
    exact decFix_exact d j hd'
  · rw [hsub, abs_of_nonneg hqr, not_le, mul_comm, mul_div_assoc, div_self hnr.ne', mul_one]
    have h1 := Int.floor_le ((c : Rat) * 10 ^ k / n)
    have h2 : (c : Rat) * 10 ^ k / n < 10 ^ 28 := by rw [div_lt_iff₀ hnr]; exact hv
    linarith

/-- A decimal of at most 28 digits that is not negative, and below 10^29, agrees as the fraction of the same value. -/
theorem c107_decimal (m : Morph S) (sim : Sim) (pick : Grams → Option Str) (p : Parse S) (c : Nat) (k : Int) (hc : c < 10 ^ 28)
    (hv : (c : Rat) * 10 ^ k < 10 ^ 29) :
    m.makeAgreeD sim pick p (.fin false c k) = some (m.makeAgreeN sim pick p (.frac (c * 10 ^ k))) := by
  have e : Dec.value (.fin false c k) = some ((c : Rat) * 10 ^ k) := by simp [Dec.value]
  have h1 := decMod_exact c k hc 10 (by norm_num) (by norm_num) (by norm_num at hv ⊢; linarith)
  have h2 := decMod_exact c k hc 100 (by norm_num) (by norm_num) (by norm_num at hv ⊢; linarith)
  unfold Morph.makeAgreeD numeralIndexD
  rw [e]
  simp only [Option.bind_eq_bind, Option.bind_some, h1, h2, Option.pure_def, Option.map_some]
  rfl

/-- A negative decimal agrees as 5 does, whatever its digits: unlike -1, -1.0 or `Fraction(-9)`. -/
theorem c107_decimal_negative (m : Morph S) (sim : Sim) (pick : Grams → Option Str) (p : Parse S) (c : Nat) (k : Int) (h0 : 0 < c)
    (hv : (c : Rat) * 10 ^ k < 10 ^ 29) :
    m.makeAgreeD sim pick p (.fin true c k) = some (m.makeAgree sim pick p 5) := by
  have hpos : 0 < (c : Rat) * 10 ^ k := mul_pos (by exact_mod_cast h0) (zpow_pos (by norm_num) k)
  have e : Dec.value (.fin true c k) = some (-((c : Rat) * 10 ^ k)) := by simp [Dec.value]
  have hm : ∀ n : Nat, 10 ≤ n → ∃ r, decMod (-((c : Rat) * 10 ^ k)) n = some r ∧ r ≤ 0 := by
    intro n hn
    have hnr : (10 : Rat) ≤ n := by exact_mod_cast hn
    obtain ⟨b1, b2⟩ := ratMod_bounds ((c : Rat) * 10 ^ k) n (by omega)
    have hf : fmod (-((c : Rat) * 10 ^ k)) n = -ratMod (c * 10 ^ k) n := by rw [fmod, if_pos (by linarith), neg_neg]
    refine ⟨decFix (-ratMod (c * 10 ^ k) n), ?_, decFix_nonpos _ (by linarith)⟩
    unfold decMod
    rw [hf, if_neg]
    rw [not_le, div_lt_iff₀ (by linarith)]
    have hle : ratMod ((c : Rat) * 10 ^ k) n ≤ c * 10 ^ k := by
      unfold ratMod
      have hq : (0 : Int) ≤ ⌊(c : Rat) * 10 ^ k / n⌋ := Int.floor_nonneg.2 (by positivity)
      have hq : (0 : Rat) ≤ (⌊(c : Rat) * 10 ^ k / n⌋ : Rat) := by exact_mod_cast hq
      have : (0 : Rat) ≤ n * (⌊(c : Rat) * 10 ^ k / n⌋ : Rat) := by positivity
      linarith
    rw [abs_of_nonpos (by linarith)]
    norm_num at hv ⊢
    linarith
  obtain ⟨a, ha, ha0⟩ := hm 10 le_rfl
  obtain ⟨b, hb, hb0⟩ := hm 100 (by norm_num)
  have hi : numeralIndexD (.fin true c k) = some 2 := by
    unfold numeralIndexD
    rw [e]
    simp only [Option.bind_eq_bind, Option.bind_some, ha, hb, Option.pure_def]
    rw [if_neg (by rintro ⟨rfl, -⟩; norm_num at ha0), if_neg (by rintro ⟨h2, -⟩; linarith)]
  unfold Morph.makeAgreeD
  rw [hi, Option.map_some]
  exact congrArg some (agree_congr m sim pick p (.int 5) 5 rfl)

/-- `decimal.InvalidOperation` is raised for infinities, for NaN, and for decimals of size 10^29 and more; for no other. -/
theorem c107_decimal_invalid (m : Morph S) (sim : Sim) (pick : Grams → Option Str) (p : Parse S) (x : Dec) :
    m.makeAgreeD sim pick p x = none ↔ ∀ v, x.value = some v → 10 ^ 29 ≤ |v| := by
  have hmod : ∀ (v : Rat) (n : Nat), 0 < n → (decMod v n = none ↔ 10 ^ 28 * (n : Rat) ≤ |v|) := by
    intro v n hn
    have hnr : (0 : Rat) < n := by exact_mod_cast hn
    have hnn : (n : Rat) ≠ 0 := hnr.ne'
    -- the quotient
    have hq : |v - fmod v n| = n * ((⌊|v| / n⌋ : Int) : Rat) := by
      have h0 : ∀ u : Rat, 0 ≤ u → |u - ratMod u n| = n * ((⌊u / n⌋ : Int) : Rat) := by
        intro u hu
        have hf : (0 : Int) ≤ ⌊u / n⌋ := Int.floor_nonneg.2 (by positivity)
        have hf : (0 : Rat) ≤ (⌊u / n⌋ : Rat) := by exact_mod_cast hf
        have : u - ratMod u n = n * (⌊u / n⌋ : Rat) := by unfold ratMod; ring
        rw [this, abs_of_nonneg (by positivity)]
      by_cases hneg : v < 0
      · have := h0 (-v) (by linarith)
        rw [fmod, if_pos hneg, abs_of_neg hneg, ← this, ← abs_neg]
        congr 1
        ring
      · rw [fmod, if_neg hneg, abs_of_nonneg (not_lt.1 hneg)]
        exact h0 v (not_lt.1 hneg)
    unfold decMod
    rw [hq, mul_comm (n : Rat), mul_div_assoc, div_self hnn, mul_one]
    have : ((10 : Rat) ^ 28 ≤ ((⌊|v| / n⌋ : Int) : Rat)) ↔ 10 ^ 28 * (n : Rat) ≤ |v| := by
      have e : (10 : Rat) ^ 28 = ((10 ^ 28 : Int) : Rat) := by norm_num
      rw [← le_div_iff₀ hnr, e, Int.cast_le, Int.le_floor]
    rw [← this]
    split <;> simp_all
  unfold Morph.makeAgreeD
  rw [Option.map_eq_none_iff]
  unfold numeralIndexD
  cases hx : x.value with
  | none => simp
  | some v =>
    simp only [Option.bind_eq_bind, Option.bind_some, Option.some.injEq, forall_eq']
    have h10 := hmod v 10 (by norm_num)
    have h100 := hmod v 100 (by norm_num)
    cases ha : decMod v 10 with
    | none =>
      have := h10.1 ha
      simp only [Option.bind_none, true_iff]
      norm_num at this ⊢
      exact this
    | some a =>
      have hlt : ¬ (10 : Rat) ^ 29 ≤ |v| := by
        intro hh
        have := h10.2 (by norm_num at hh ⊢; exact hh)
        rw [ha] at this
        simp at this
      cases hb : decMod v 100 with
      | none =>
        exfalso
        have := h100.1 hb
        norm_num at this hlt
        linarith
      | some b => simp [hlt]

/-- So -8 as an int agrees as 2 and as a decimal as 5; and with more than 28 digits a number next to 1 agrees as 1 (`Fraction` does not). -/
theorem c107_decimal_differs : numeralIndex (-8) = 1 ∧ numeralIndexD (.fin true 8 0) = some 2 ∧
    numeralIndexD (.fin false (10 ^ 40 + 1) (-40)) = some 0 ∧ numeralIndexQ ((10 ^ 40 + 1 : Nat) * 10 ^ (-40 : Int)) = 2 := by decide +kernel

/-! ### Non-vacuity -/

/-- Decimals: `2.50`, `-8`, `1E+29`. -/
example : ((250 : Nat) : Rat) * 10 ^ (-2 : Int) < 10 ^ 29 ∧ numeralIndexD (.fin false 250 (-2)) = some 1 ∧ numeralIndexD (.fin false 1 29) = none ∧
    numeralIndexD (.fin false 999 26) = some 2 ∧ numeralIndexD (.fin false 2100 (-2)) = some 0 := by decide +kernel

/-- Floats: `2.5`, `-7.5` (which leaves 2.5), `12.5`, `21.0`. -/
example : PyNum.Valid (.float (.fin (5 / 2))) ∧ PyNum.Valid (.float (.fin (-15 / 2))) ∧ PyNum.Valid (.float (.fin 21)) := by
  unfold PyNum.Valid
  decide +kernel

/-- The rounding in `%` is real: for a tiny negative float the remainder is 10 itself. -/
example : PyNum.Valid (.float (.fin (-1 / 2 ^ 70))) ∧ floatMod (.fin (-1 / 2 ^ 70)) 10 = .fin 10 ∧ ratMod (-1 / 2 ^ 70) 10 ≠ 10 := by
  unfold PyNum.Valid
  decide +kernel

example : EndsTwoThree 2 ∧ EndsTwoThree (-8) ∧ ¬ EndsTwoThree 12 ∧ ¬ EndsTwoThree 4 := by
  unfold EndsTwoThree
  refine ⟨⟨⟨0, by omega⟩, by rintro ⟨k, hk⟩; omega⟩, ⟨⟨-1, by omega⟩, by rintro ⟨k, hk⟩; omega⟩, ?_, ?_⟩
  · rintro ⟨-, h⟩; exact h ⟨0, by omega⟩
  · rintro ⟨⟨k, hk⟩, -⟩; omega

end Verif
