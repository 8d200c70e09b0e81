/-
Binary64 arithmetic agrees with `Dbl` as long as the results stay in the normal range.
-/
import Verif.Model.Binary64
import Verif.Props.C73

set_option linter.unusedSectionVars false

namespace Verif

theorem zpow_neg_le_one (k : Nat) : (2 : Rat) ^ (-(k : Int)) ≤ 1 := by
  rw [zpow_neg]
  apply inv_le_one_of_one_le₀
  rw [zpow_natCast]
  exact one_le_pow₀ (by norm_num)

theorem zpow_neg_anti {k j : Nat} (h : k ≤ j) : (2 : Rat) ^ (-(j : Int)) ≤ 2 ^ (-(k : Int)) :=
  zpow_le_zpow_right₀ (by norm_num) (by omega)

theorem round_normal {x : Rat} (h0 : x = 0 ∨ (2 : Rat) ^ (-1022 : Int) ≤ |x|) (h1 : |x| ≤ 2 ^ (1023 : Int)) :
    B64.round x = .fin (fl x) := by
  have he : (if x = 0 then (0 : Rat) else rne (x / 2 ^ B64.ulp x) * 2 ^ B64.ulp x) = fl x := by
    unfold fl
    by_cases hx : x = 0
    · rw [if_pos hx, if_pos hx]
    · rw [if_neg hx, if_neg hx]
      have hb : (2 : Rat) ^ (-1022 : Int) ≤ |x| := h0.resolve_left hx
      have hu : B64.ulp x = ulpExp x := by
        unfold B64.ulp
        apply max_eq_left
        by_contra hc
        have h2 := lt_log x
        have : (2 : Rat) ^ (ulpExp x + 53) ≤ 2 ^ (-1022 : Int) := zpow_le_zpow_right₀ (by norm_num) (by omega)
        linarith
      rw [hu]
  unfold B64.round
  dsimp only
  rw [he]
  have hlt : |fl x| < 2 ^ (1024 : Int) := by
    have hb : |fl x| ≤ 2 ^ (1023 : Int) := by
      rw [abs_le] at h1 ⊢
      have u := fl_mono h1.2
      have l := fl_mono h1.1
      rw [fl_neg] at l
      rw [fl_pow] at u l
      exact ⟨l, u⟩
    exact lt_of_le_of_lt hb (zpow_lt_zpow_right₀ (by norm_num) (by norm_num))
  rw [if_pos hlt]

/-- The binary64 number is the double; it is between 0 and `2 ^ u`, and is 0 or at least `2 ^ -k`. -/
structure BRange (k u : Nat) (x : Dbl) (y : B64) : Prop where
  eq : y = .fin x.val
  nonneg : 0 ≤ x.val
  low : x.val = 0 ∨ (2 : Rat) ^ (-(k : Int)) ≤ x.val
  up : x.val ≤ 2 ^ (u : Int)

/-- The binary64 number is the double; it is between 0 and 1, and is 0 or at least `2 ^ -k`. -/
abbrev BRel (k : Nat) (x : Dbl) (y : B64) : Prop := BRange k 0 x y

theorem BRange.mono {k k' u u' : Nat} {x : Dbl} {y : B64} (h : BRange k u x y) (hk : k ≤ k') (hu : u ≤ u') : BRange k' u' x y :=
  ⟨h.eq, h.nonneg, h.low.imp id fun h => (zpow_neg_anti hk).trans h,
    h.up.trans (zpow_le_zpow_right₀ (by norm_num) (by omega))⟩

theorem BRel.mono {k k' : Nat} {x : Dbl} {y : B64} (h : BRel k x y) (hk : k ≤ k') : BRel k' x y := BRange.mono h hk le_rfl

/-- An operation whose exact result is in range. -/
theorem BRange.of_exact {k u : Nat} {z : Rat} (h0 : 0 ≤ z) (hl : z = 0 ∨ (2 : Rat) ^ (-(k : Int)) ≤ z) (hu : z ≤ 2 ^ (u : Int))
    (hk : k ≤ 1022) (hu' : u ≤ 1023) : BRange k u (toDbl z) (B64.round z) := by
  refine ⟨?_, fl_nonneg h0, ?_, ?_⟩
  · refine round_normal (hl.imp id fun h => ?_) ?_
    · rw [abs_of_nonneg h0]
      exact (zpow_le_zpow_right₀ (by norm_num) (by omega)).trans h
    · rw [abs_of_nonneg h0]
      exact hu.trans (zpow_le_zpow_right₀ (by norm_num) (by omega))
  · rcases hl with rfl | h
    · left; exact fl_zero
    · right
      have := fl_mono h
      rwa [fl_pow] at this
  · have := fl_mono hu
    rwa [fl_pow] at this

theorem BRange.mul {k j u v : Nat} {a b : Dbl} {x y : B64} (h1 : BRange k u a x) (h2 : BRange j v b y) (hk : k + j ≤ 1022)
    (hu : u + v ≤ 1023) : BRange (k + j) (u + v) (Score.mul a b) (Score.mul x y) := by
  have e : (Score.mul x y : B64) = B64.round (a.val * b.val) := by rw [h1.eq, h2.eq]; rfl
  rw [e]
  refine BRange.of_exact (mul_nonneg h1.nonneg h2.nonneg) ?_ ?_ hk hu
  · rcases h1.low with h | h
    · left; rw [h, zero_mul]
    · rcases h2.low with h' | h'
      · left; rw [h', mul_zero]
      · right
        have e : (2 : Rat) ^ (-((k + j : Nat) : Int)) = 2 ^ (-(k : Int)) * 2 ^ (-(j : Int)) := by
          rw [← zpow_add₀ (by norm_num)]; congr 1; push_cast; ring
        rw [e]
        exact mul_le_mul h h' (two_zpow_pos _).le h1.nonneg
  · have e : (2 : Rat) ^ (((u + v : Nat) : Int)) = 2 ^ (u : Int) * 2 ^ (v : Int) := by
      rw [← zpow_add₀ (by norm_num)]; congr 1
    rw [e]
    exact mul_le_mul h1.up h2.up h2.nonneg (two_zpow_pos _).le

theorem BRel.mul {k j : Nat} {a b : Dbl} {x y : B64} (h1 : BRel k a x) (h2 : BRel j b y) (hk : k + j ≤ 1022) :
    BRel (k + j) (Score.mul a b) (Score.mul x y) := BRange.mul h1 h2 hk (by norm_num)

theorem BRel.one : BRel 0 (Score.one : Dbl) (Score.one : B64) := by
  have h : (Score.one : Dbl).val = 1 := fl_one
  refine ⟨?_, ?_, ?_, ?_⟩
  · rw [h]; rfl
  · rw [h]; norm_num
  · rw [h]; norm_num
  · rw [h]; norm_num

theorem BRange.nat (n u : Nat) (hn : n ≤ 2 ^ u) (hu : u ≤ 1023) : BRange 0 u (Score.ofNat n : Dbl) (Score.ofNat n : B64) := by
  show BRange 0 u (toDbl n) (B64.round n)
  refine BRange.of_exact (by positivity) ?_ ?_ (by norm_num) hu
  · rcases Nat.eq_zero_or_pos n with rfl | h
    · left; norm_num
    · right
      have : (1 : Rat) ≤ n := by exact_mod_cast h
      simpa using this
  · rw [zpow_natCast]; exact_mod_cast hn

/-- The quotient of two counts. -/
theorem BRel.quot {c n k : Nat} (h : c ≤ n) (hn : 1 ≤ n) (hb : n ≤ 2 ^ k) (hk : k ≤ 53) :
    BRel k (Score.div (Score.ofNat c) (Score.ofNat n) : Dbl) (Score.div (Score.ofNat c) (Score.ofNat n) : B64) := by
  have hk' : 2 ^ k ≤ 2 ^ 53 := Nat.pow_le_pow_right (by norm_num) hk
  have e1 := (BRange.nat c k (h.trans hb) (by omega)).eq
  have e2 := (BRange.nat n k hb (by omega)).eq
  have v1 : (Score.ofNat c : Dbl).val = c := fl_natCast _ (by omega)
  have v2 : (Score.ofNat n : Dbl).val = n := fl_natCast _ (by omega)
  have hn0 : (0 : Rat) < n := by exact_mod_cast hn
  have ed : (Score.div (Score.ofNat c) (Score.ofNat n) : Dbl) = toDbl ((c : Rat) / n) := by
    show toDbl ((Score.ofNat c : Dbl).val / (Score.ofNat n : Dbl).val) = _
    rw [v1, v2]
  have eb : (Score.div (Score.ofNat c) (Score.ofNat n) : B64) = B64.round ((c : Rat) / n) := by
    rw [e1, e2, v1, v2]
    show (if (n : Rat) = 0 then B64.nan else _) = _
    rw [if_neg hn0.ne']
  rw [ed, eb]
  refine BRange.of_exact (by positivity) ?_ ?_ (by omega) (by norm_num)
  · rcases Nat.eq_zero_or_pos c with rfl | hc
    · left; norm_num
    · right
      rw [le_div_iff₀ hn0, zpow_neg, zpow_natCast]
      have h1 : (n : Rat) ≤ 2 ^ k := by exact_mod_cast hb
      have h2 : (1 : Rat) ≤ c := by exact_mod_cast hc
      have h3 : (0 : Rat) < 2 ^ k := by positivity
      refine le_trans ?_ h2
      rw [inv_mul_le_iff₀ h3, mul_one]; exact h1
  · have : (c : Rat) ≤ n := by exact_mod_cast h
    simpa using (div_le_one hn0).2 this

theorem BRange.le_iff {k u k' u' : Nat} {a b : Dbl} {x y : B64} (h1 : BRange k u a x) (h2 : BRange k' u' b y) :
    (Score.le a b : Bool) = Score.le x y := by
  rw [h1.eq, h2.eq]; rfl

theorem BRange.isZero {k u : Nat} {a : Dbl} {x : B64} (h1 : BRange k u a x) : Score.isZero a = Score.isZero x := by
  rw [h1.eq]
  show decide (a.val = 0) = decide (B64.fin a.val = .fin 0)
  simp

/-- A sum of `n` numbers between 0 and 1. -/
theorem BRange.sumS {k u : Nat} (hk : k ≤ 1022) (hu : u ≤ 53) {xs : List Dbl} {ys : List B64} (h : List.Forall₂ (BRel k) xs ys)
    (hn : xs.length ≤ 2 ^ u) : BRange k u (sumS xs) (sumS ys) := by
  have key : ∀ (xs : List Dbl) (ys : List B64), List.Forall₂ (BRel k) xs ys → ∀ (n : Nat) (a : Dbl) (b : B64),
      b = .fin a.val → 0 ≤ a.val → (a.val = 0 ∨ (2 : Rat) ^ (-(k : Int)) ≤ a.val) → a.val ≤ n → n + xs.length ≤ 2 ^ u →
      BRange k u (xs.foldl Score.add a) (ys.foldl Score.add b) := by
    intro xs ys h
    induction h with
    | nil =>
      intro n a b e h0 hl hup hn
      refine ⟨e, h0, hl, hup.trans ?_⟩
      rw [zpow_natCast]; exact_mod_cast (by simpa using hn : n ≤ 2 ^ u)
    | cons hxy _ ih =>
      rename_i x y xs ys _
      intro n a b e h0 hl hup hn
      simp only [List.length_cons] at hn
      have hx1 : x.val ≤ 1 := by simpa using hxy.up
      have hr : BRange k u (toDbl (a.val + x.val)) (B64.round (a.val + x.val)) := by
        refine BRange.of_exact (add_nonneg h0 hxy.nonneg) ?_ ?_ hk (by omega)
        · rcases hl with hl | hl
          · rw [hl, zero_add]; exact hxy.low
          · right; linarith [hxy.nonneg]
        · have : ((n + 1 : Nat) : Rat) ≤ ((2 ^ u : Nat) : Rat) := by exact_mod_cast (by omega : n + 1 ≤ 2 ^ u)
          push_cast at this
          rw [zpow_natCast]
          linarith
      refine ih (n + 1) _ _ ?_ hr.nonneg hr.low ?_ (by omega)
      · rw [e, hxy.eq]; exact hr.eq
      · have h2 : 2 ^ u ≤ 2 ^ 53 := Nat.pow_le_pow_right (by norm_num) hu
        show fl (a.val + x.val) ≤ _
        rw [← fl_natCast (n + 1) (by omega)]
        apply fl_mono
        push_cast
        linarith
  refine key xs ys h 0 _ _ ?_ ?_ ?_ ?_ (by omega)
  · show B64.fin 0 = .fin (fl 0); rw [fl_zero]
  · show 0 ≤ fl 0; rw [fl_zero]
  · left; exact fl_zero
  · show fl 0 ≤ _; rw [fl_zero]; simp

/-- The reciprocal of a total. -/
theorem BRange.recip {k u : Nat} (hk : k ≤ 1022) (hu : u ≤ 1022) {a : Dbl} {x : B64} (h : BRange k u a x) (hz : a.val ≠ 0) :
    BRange u k (Score.div Score.one a) (Score.div Score.one x) := by
  have h1 : (Score.one : Dbl).val = 1 := fl_one
  have ed : (Score.div Score.one a : Dbl) = toDbl (1 / a.val) := by
    show toDbl ((Score.one : Dbl).val / a.val) = _
    rw [h1]
  have eb : (Score.div Score.one x : B64) = B64.round (1 / a.val) := by
    rw [h.eq]
    show (if a.val = 0 then B64.nan else _) = _
    rw [if_neg hz]
  have hpos : 0 < a.val := lt_of_le_of_ne h.nonneg (Ne.symm hz)
  rw [ed, eb]
  refine BRange.of_exact (by positivity) (.inr ?_) ?_ hu (by omega)
  · rw [zpow_neg, inv_eq_one_div]
    exact one_div_le_one_div_of_le hpos h.up
  · have hl := h.low.resolve_left hz
    rw [zpow_neg] at hl
    rw [div_le_iff₀ hpos]
    have hp := two_zpow_pos (k : Int)
    rwa [inv_le_iff_one_le_mul₀ hp, mul_comm] at hl

end Verif
