/-
Facts about rounding to double precision.
-/
import Verif.Model.Double
import Mathlib.Tactic.Positivity
import Mathlib.Tactic.Linarith
import Mathlib.Tactic.NormNum
import Mathlib.Tactic.FieldSimp
import Mathlib.Tactic.Ring
import Mathlib.Algebra.Order.Floor.Ring

namespace Verif

theorem floor_facts (x : Rat) : (⌊x⌋ : Rat) ≤ x ∧ x < ⌊x⌋ + 1 := ⟨Int.floor_le x, Int.lt_floor_add_one x⟩

theorem rne_cases (x : Rat) : rne x = ⌊x⌋ ∨ rne x = ⌊x⌋ + 1 := by
  unfold rne; split
  · exact .inl rfl
  · split
    · exact .inr rfl
    · split
      · exact .inl rfl
      · exact .inr rfl

theorem rne_err (x : Rat) : |(rne x : Rat) - x| ≤ 1 / 2 := by
  obtain ⟨h1, h2⟩ := floor_facts x
  rw [abs_le]
  unfold rne
  split
  · constructor <;> linarith
  · split
    · push_cast; constructor <;> linarith
    · split
      · constructor <;> linarith
      · push_cast; constructor <;> linarith

theorem rne_int (n : Int) : rne (n : Rat) = n := by
  simp [rne]

theorem rne_mono {x y : Rat} (h : x ≤ y) : rne x ≤ rne y := by
  have hf : ⌊x⌋ ≤ ⌊y⌋ := Int.floor_le_floor h
  rcases lt_or_eq_of_le hf with hlt | heq
  · rcases rne_cases x with hx | hx <;> rcases rne_cases y with hy | hy <;> omega
  · unfold rne
    rw [← heq]
    have h2 : x - (⌊x⌋ : Rat) ≤ y - (⌊x⌋ : Rat) := by linarith
    by_cases a1 : x - (⌊x⌋ : Rat) < 1 / 2
    · rw [if_pos a1]; split
      · omega
      · split
        · omega
        · split <;> omega
    · have b1 : ¬ y - (⌊x⌋ : Rat) < 1 / 2 := fun h => a1 (by linarith)
      rw [if_neg a1, if_neg b1]
      by_cases a2 : 1 / 2 < x - (⌊x⌋ : Rat)
      · rw [if_pos a2, if_pos (by linarith)]
      · rw [if_neg a2]
        split
        · split <;> omega
        · split <;> omega

theorem rne_neg (x : Rat) : rne (-x) = - rne x := by
  by_cases hi : (⌊x⌋ : Rat) = x
  · rw [← hi, rne_int, ← Int.cast_neg, rne_int]
  · obtain ⟨h1, h2⟩ := floor_facts x
    have h1 : (⌊x⌋ : Rat) < x := lt_of_le_of_ne h1 hi
    have hf : ⌊-x⌋ = -⌊x⌋ - 1 := by
      rw [Int.floor_eq_iff]; push_cast; constructor <;> linarith
    unfold rne
    rw [hf]
    push_cast
    by_cases a1 : x - (⌊x⌋ : Rat) < 1 / 2
    · rw [if_pos a1, if_neg (by linarith), if_pos (by linarith)]; omega
    · rw [if_neg a1]
      by_cases a2 : 1 / 2 < x - (⌊x⌋ : Rat)
      · rw [if_pos a2, if_pos (by linarith)]; omega
      · rw [if_neg a2, if_neg (by linarith), if_neg (by linarith)]
        split <;> split <;> omega

theorem fl_zero : fl 0 = 0 := by simp [fl]

theorem two_zpow_pos (q : Int) : (0 : Rat) < 2 ^ q := zpow_pos (by norm_num) q

theorem fl_neg (x : Rat) : fl (-x) = - fl x := by
  unfold fl
  by_cases h : x = 0
  · simp [h]
  · rw [if_neg h, if_neg (by simpa using h)]
    have : ulpExp (-x) = ulpExp x := by simp [ulpExp]
    rw [this, neg_div, rne_neg]; push_cast; ring

theorem log_le (x : Rat) (h : x ≠ 0) : (2 : Rat) ^ (ulpExp x + 52) ≤ |x| := by
  have := Int.zpow_log_le_self (b := 2) (r := |x|) (by norm_num) (abs_pos.2 h)
  simpa [ulpExp] using this

theorem lt_log (x : Rat) : |x| < (2 : Rat) ^ (ulpExp x + 53) := by
  have := Int.lt_zpow_succ_log_self (b := 2) (by norm_num) |x|
  have e : ulpExp x + 53 = Int.log 2 |x| + 1 := by unfold ulpExp; omega
  rw [e]; simpa using this

/-- Half a unit in the last place: the relative error of one rounding. -/
theorem fl_err (x : Rat) : |fl x - x| ≤ |x| / 2 ^ 53 := by
  by_cases h : x = 0
  · simp [h, fl_zero]
  · unfold fl
    rw [if_neg h]
    have hp := two_zpow_pos (ulpExp x)
    have h1 := rne_err (x / 2 ^ ulpExp x)
    have h2 := log_le x h
    rw [zpow_add₀ (by norm_num)] at h2
    have e : (rne (x / 2 ^ ulpExp x) : Rat) * 2 ^ ulpExp x - x =
        ((rne (x / 2 ^ ulpExp x) : Rat) - x / 2 ^ ulpExp x) * 2 ^ ulpExp x := by
      field_simp
    rw [e, abs_mul, abs_of_pos hp]
    have : |(rne (x / 2 ^ ulpExp x) : Rat) - x / 2 ^ ulpExp x| * 2 ^ ulpExp x ≤ 1 / 2 * 2 ^ ulpExp x :=
      mul_le_mul_of_nonneg_right h1 hp.le
    norm_num at h2 ⊢
    linarith

/-- Numbers with at most 53 significant bits are represented exactly. -/
theorem fl_grid (n : Int) (k : Int) (h : |n| ≤ 2 ^ 53) : fl (n * 2 ^ k) = n * 2 ^ k := by
  by_cases hn : n = 0
  · simp [hn, fl_zero]
  · have hx : (n : Rat) * 2 ^ k ≠ 0 := mul_ne_zero (by exact_mod_cast hn) (two_zpow_pos k).ne'
    unfold fl
    rw [if_neg hx]
    -- the grid of the result refines `2 ^ k`, or the number is a power of two
    have key : ∃ z : Int, (n : Rat) * 2 ^ k / 2 ^ ulpExp (n * 2 ^ k) = z := by
      have h1 := log_le _ hx
      generalize ulpExp ((n : Rat) * 2 ^ k) = q at h1
      have hnabs : |(n : Rat)| ≤ 2 ^ (53 : Int) := by
        have : ((|n| : Int) : Rat) ≤ ((2 ^ 53 : Int) : Rat) := by exact_mod_cast h
        push_cast at this; norm_num at this ⊢; exact this
      rw [abs_mul, abs_of_pos (two_zpow_pos k)] at h1
      have hq : q + 52 ≤ 53 + k := by
        by_contra hc
        have : (2 : Rat) ^ (53 + k) < 2 ^ (q + 52) := zpow_lt_zpow_right₀ (by norm_num) (by omega)
        rw [zpow_add₀ (by norm_num)] at this
        have := mul_le_mul_of_nonneg_right hnabs (two_zpow_pos k).le
        linarith
      rcases Int.lt_or_le k q with hlt | hle
      · have hqk : q = k + 1 := by omega
        have heq : |(n : Rat)| = 2 ^ (53 : Int) := by
          apply le_antisymm hnabs
          rw [hqk, show k + 1 + 52 = 53 + k by omega, zpow_add₀ (by norm_num)] at h1
          exact le_of_mul_le_mul_right h1 (two_zpow_pos k)
        rcases abs_choice (n : Rat) with ha | ha
        · refine ⟨2 ^ 52, ?_⟩
          rw [ha] at heq
          rw [heq, hqk, zpow_add₀ (by norm_num)]
          push_cast
          field_simp
          norm_num
        · refine ⟨-2 ^ 52, ?_⟩
          rw [ha] at heq
          have : (n : Rat) = - 2 ^ (53 : Int) := by linarith
          rw [this, hqk, zpow_add₀ (by norm_num)]
          push_cast
          field_simp
          norm_num
      · obtain ⟨d, hd⟩ := Int.eq_ofNat_of_zero_le (a := k - q) (by omega)
        refine ⟨n * 2 ^ d, ?_⟩
        rw [show k = q + d by omega, zpow_add₀ (by norm_num)]
        push_cast
        field_simp
        simp
    obtain ⟨z, hz⟩ := key
    rw [hz, rne_int, ← hz]
    field_simp

theorem fl_pow (k : Int) : fl (2 ^ k) = 2 ^ k := by
  simpa using fl_grid 1 k (by norm_num)

theorem fl_natCast (n : Nat) (h : n ≤ 2 ^ 53) : fl n = n := by
  have := fl_grid n 0 (by rw [abs_of_nonneg (by omega)]; exact_mod_cast h)
  simpa using this

theorem fl_one : fl 1 = 1 := by simpa using fl_natCast 1 (by norm_num)

/-- Rounding to a double twice is rounding once. -/
theorem fl_idem (x : Rat) : fl (fl x) = fl x := by
  by_cases h : x = 0
  · simp [h, fl_zero]
  · have e : fl x = rne (x / 2 ^ ulpExp x) * 2 ^ ulpExp x := by rw [fl, if_neg h]
    rw [e]
    apply fl_grid
    have hp := two_zpow_pos (ulpExp x)
    have h2 := lt_log x
    rw [zpow_add₀ (by norm_num)] at h2
    have h3 : |x / 2 ^ ulpExp x| < ((2 ^ 53 : Int) : Rat) := by
      rw [abs_div, abs_of_pos hp, div_lt_iff₀ hp]
      push_cast; norm_num at h2 ⊢; linarith
    rw [abs_lt] at h3
    have l1 := rne_mono h3.1.le
    have l2 := rne_mono h3.2.le
    rw [← Int.cast_neg, rne_int] at l1
    rw [rne_int] at l2
    rw [abs_le]
    exact ⟨l1, l2⟩

theorem fl_nonneg {x : Rat} (h : 0 ≤ x) : 0 ≤ fl x := by
  have := fl_err x
  rw [abs_of_nonneg h] at this
  have := (abs_le.1 this).1
  norm_num at this
  linarith

theorem fl_pos {x : Rat} (h : 0 < x) : 0 < fl x := by
  have := fl_err x
  rw [abs_of_nonneg h.le] at this
  have := (abs_le.1 this).1
  norm_num at this
  linarith

theorem fl_eq_zero {x : Rat} : fl x = 0 ↔ x = 0 := by
  constructor
  · intro h
    by_contra hx
    rcases lt_or_gt_of_ne hx with hx | hx
    · have := fl_pos (x := -x) (by linarith)
      rw [fl_neg, h] at this; simp at this
    · have := fl_pos hx
      rw [h] at this; exact lt_irrefl _ this
  · rintro rfl; exact fl_zero

theorem fl_mono_nonneg {x y : Rat} (hx : 0 ≤ x) (h : x ≤ y) : fl x ≤ fl y := by
  rcases eq_or_lt_of_le hx with rfl | hx
  · rw [fl_zero]; exact fl_nonneg h
  · have hy : 0 < y := lt_of_lt_of_le hx h
    have hq : ulpExp x ≤ ulpExp y := by
      unfold ulpExp
      rw [abs_of_pos hx, abs_of_pos hy]
      have := Int.log_mono_right (b := 2) hx h
      omega
    rcases lt_or_eq_of_le hq with hlt | heq
    · -- a power of two lies between
      have e1 : fl x ≤ 2 ^ (ulpExp x + 53) := by
        have hb := lt_log x
        rw [abs_of_pos hx] at hb
        unfold fl
        rw [if_neg hx.ne', zpow_add₀ (by norm_num), mul_comm]
        apply mul_le_mul_of_nonneg_left _ (two_zpow_pos _).le
        have : x / 2 ^ ulpExp x ≤ ((2 ^ 53 : Int) : Rat) := by
          rw [div_le_iff₀ (two_zpow_pos _)]
          rw [zpow_add₀ (by norm_num)] at hb
          push_cast; norm_num at hb ⊢; linarith
        have := rne_mono this
        rw [rne_int] at this
        exact_mod_cast this
      have e2 : 2 ^ (ulpExp y + 52) ≤ fl y := by
        have hb := log_le y hy.ne'
        rw [abs_of_pos hy] at hb
        unfold fl
        rw [if_neg hy.ne', zpow_add₀ (by norm_num), mul_comm ((2 : Rat) ^ ulpExp y)]
        apply mul_le_mul_of_nonneg_right _ (two_zpow_pos _).le
        have : ((2 ^ 52 : Int) : Rat) ≤ y / 2 ^ ulpExp y := by
          rw [le_div_iff₀ (two_zpow_pos _)]
          rw [zpow_add₀ (by norm_num)] at hb
          push_cast; norm_num at hb ⊢; linarith
        have := rne_mono this
        rw [rne_int] at this
        exact_mod_cast this
      refine e1.trans (le_trans ?_ e2)
      exact zpow_le_zpow_right₀ (by norm_num) (by omega)
    · unfold fl
      rw [if_neg hx.ne', if_neg hy.ne', ← heq]
      apply mul_le_mul_of_nonneg_right _ (two_zpow_pos _).le
      have := rne_mono (div_le_div_of_nonneg_right h (two_zpow_pos (ulpExp x)).le)
      exact_mod_cast this

/-- Rounding is monotone. -/
theorem fl_mono {x y : Rat} (h : x ≤ y) : fl x ≤ fl y := by
  rcases le_total 0 x with hx | hx
  · exact fl_mono_nonneg hx h
  · rcases le_total 0 y with hy | hy
    · have h1 : 0 ≤ - fl x := by rw [← fl_neg]; exact fl_nonneg (by linarith)
      have h2 := fl_nonneg hy
      linarith
    · have := fl_mono_nonneg (x := -y) (y := -x) (by linarith) (by linarith)
      rw [fl_neg, fl_neg] at this; linarith

/-- One plus half a unit in the last place is rounded to one (ties go to the even neighbour). -/
theorem fl_one_half_ulp : fl (1 + 1 / 2 ^ 53) = 1 := by
  have hl : ulpExp (1 + 1 / 2 ^ 53) = -52 := by
    unfold ulpExp
    rw [abs_of_pos (by norm_num), Int.log_of_one_le_right 2 (by norm_num)]
    have : ⌊(1 + 1 / 2 ^ 53 : Rat)⌋₊ = 1 := by
      rw [Nat.floor_eq_iff (by norm_num)]; norm_num
    rw [this]; norm_num
  unfold fl
  rw [if_neg (by norm_num), hl]
  have e : (1 + 1 / 2 ^ 53 : Rat) / 2 ^ (-52 : Int) = (2 ^ 52 : Int) + 1 / 2 := by norm_num
  have hr : rne ((1 + 1 / 2 ^ 53 : Rat) / 2 ^ (-52 : Int)) = 2 ^ 52 := by
    rw [e]
    have hf : ⌊((2 ^ 52 : Int) : Rat) + 1 / 2⌋ = 2 ^ 52 := by
      rw [Int.floor_eq_iff]; push_cast; norm_num
    unfold rne
    rw [hf]
    norm_num
  rw [hr]; norm_num

theorem fl_le_one {x : Rat} (h : x ≤ 1 + 1 / 2 ^ 53) : fl x ≤ 1 := by
  have := fl_mono h
  rwa [fl_one_half_ulp] at this

theorem fl_upper {x : Rat} (h : 0 ≤ x) : fl x ≤ x * (1 + 1 / 2 ^ 53) := by
  have := (abs_le.1 (fl_err x)).2
  rw [abs_of_nonneg h] at this
  linarith

theorem fl_lower {x : Rat} (h : 0 ≤ x) : x * (1 - 1 / 2 ^ 53) ≤ fl x := by
  have := (abs_le.1 (fl_err x)).1
  rw [abs_of_nonneg h] at this
  linarith

end Verif
