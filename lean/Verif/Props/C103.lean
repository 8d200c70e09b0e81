/-
C103: how accurate scores are, and the score that is printed.
-/
import Verif.Lemmas.Accuracy
import Verif.Model.Format
import Verif.Props.C73
import Verif.Props.C100
import Mathlib.Data.Nat.Digits.Defs

set_option linter.unusedSectionVars false

namespace Verif

/-! ### Specification -/

/-- The number a text of decimal digits stands for. -/
def digitsValue (s : Str) : Nat := s.foldl (fun n c => 10 * n + (c.toNat - 48)) 0

/-- The text is digits, a point and three digits, without needless zeros in front; `v` is the number it stands for. -/
def Shows (s : Str) (v : Rat) : Prop :=
  ∃ a b, s = a ++ '.' :: b ∧ a ≠ [] ∧ (∀ c ∈ a ++ b, c.isDigit = true) ∧ b.length = 3 ∧ (a.head? = some '0' → a = ['0']) ∧
    v = digitsValue a + (digitsValue b : Rat) / 1000

/-- The bound on the relative error of a score: `n` is the number of letters of the word, `N` the largest number of analyses of the
word or of a piece of it. -/
def scoreError (N n : Nat) : Rat := (N + 9) * 2 ^ (n + 2) / 2 ^ 52

/-! ### Powers of the rounding factor -/

theorem gPow_le (K : Nat) (h : K ≤ 2 ^ 51) : gRound ^ K ≤ 1 + 2 * K / 2 ^ 52 := by
  induction K with
  | zero => simp
  | succ K ih =>
    have := ih (by omega)
    rw [pow_succ]
    refine (mul_le_mul_of_nonneg_right this gRound_pos.le).trans ?_
    have hK : (K : Rat) ≤ 2251799813685248 := by
      have : K ≤ 2251799813685248 := le_trans (Nat.le_succ K) (le_trans h (by norm_num))
      exact_mod_cast this
    have hK0 : (0 : Rat) ≤ K := by positivity
    unfold gRound
    push_cast
    norm_num
    nlinarith

theorem Near.abs {K : Nat} {s : Rat} {t : Dbl} (h : Near K s t) (hK : K ≤ 2 ^ 51) : |t.val - s| ≤ s * (2 * K / 2 ^ 52) := by
  have hg := gPow_le K hK
  have h1 := h.down.trans (mul_le_mul_of_nonneg_left hg h.sim.1)
  have h2 := h.up.trans (mul_le_mul_of_nonneg_left hg h.sim.2.1)
  have he : (0 : Rat) ≤ 2 * K / 2 ^ 52 := by positivity
  have hs := h.sim.1
  have ht := h.sim.2.1
  generalize (2 * K / 2 ^ 52 : Rat) = ε at *
  rw [abs_le]
  constructor
  · -- s ≤ t (1 + ε), so t ≥ s (1 - ε)
    by_contra hc
    have hc := not_le.1 hc
    have : t.val < s - s * ε := by linarith
    have := mul_lt_mul_of_pos_right this (show (0 : Rat) < 1 + ε by linarith)
    nlinarith [mul_nonneg hs (mul_nonneg he he)]
  · linarith

theorem roundings_true (N n : Nat) : roundings true N n + N + 6 = 2 ^ n * (N + 9) := by
  induction n with
  | zero => unfold roundings; omega
  | succ n ih =>
    unfold roundings
    rw [if_pos rfl, pow_succ]
    have : 2 ^ n * 2 * (N + 9) = 2 * (2 ^ n * (N + 9)) := by ring
    rw [this, ← ih]
    omega

theorem roundings_false (N n : Nat) : roundings false N n = 3 + 2 * n := by
  induction n with
  | zero => rfl
  | succ n ih => unfold roundings; rw [if_neg (by simp), ih]; omega

theorem roundings_le (e : Bool) (N n : Nat) : roundings e N n + N ≤ (N + 9) * 2 ^ n := by
  cases e with
  | true => have := roundings_true N n; rw [mul_comm]; omega
  | false =>
    rw [roundings_false]
    have h1 : n + 1 ≤ 2 ^ n := Nat.lt_two_pow_self
    have h2 : (N + 9) * (n + 1) ≤ (N + 9) * 2 ^ n := Nat.mul_le_mul_left _ h1
    nlinarith

/-! ### C103 -/

/-- The scores of the two analyzers, for a word of moderate size. -/
theorem near_parse (m : Morph Rat) (d : Morph Dbl) (h : SameCall m d) (hlow : m.env.LowerStable) (hc : m.dict.SmallCounts m.sub)
    (hd : ∀ dawg, m.est = some dawg → ∀ e ∈ dawg, e.2 < 2 ^ 50) (w : Str) (N : Nat)
    (few : ∀ x, x = w ∨ x <:+: m.env.lower w → ∀ ps, m.parse x = .ok ps → ps.length ≤ N) :
    ERel (List.Forall₂ (PNear (roundings m.est.isSome N ((m.env.lower w).length + 1)))) (m.parse w) (d.parse w) := by
  rw [h.eq]
  exact parse_near m ⟨default_posScores m h.default, hc, hd⟩ hlow (default_properPrefixes m h.default) N _ w (by omega) fun _ => few

/-- **C103.** Scores are accurate: the analyses of `parse` in double precision are those in exact arithmetic, and each score differs from
the exact one by at most the relative error `scoreError`.  Conditions: those of C73, and no piece of the word has more than `N`
analyses. -/
theorem c103_accuracy (m : Morph Rat) (d : Morph Dbl) (h : SameCall m d) (hlow : m.env.LowerStable) (hc : m.dict.SmallCounts m.sub)
    (hd : ∀ dawg, m.est = some dawg → ∀ e ∈ dawg, e.2 < 2 ^ 50) (w : Str) (N : Nat)
    (few : ∀ x, x = w ∨ x <:+: m.env.lower w → ∀ ps, m.parse x = .ok ps → ps.length ≤ N)
    (hsize : (N + 9) * 2 ^ ((m.env.lower w).length + 1) ≤ 2 ^ 51) (ps : List (Parse Rat)) (hps : m.parse w = .ok ps) :
    ∃ qs, d.parse w = .ok qs ∧ List.Forall₂ (fun p q => p.core = q.core ∧
      |q.score.val - p.score| ≤ p.score * scoreError N (m.env.lower w).length) ps qs := by
  have hn := near_parse m d h hlow hc hd w N few
  rw [hps] at hn
  generalize hq : d.parse w = y at hn ⊢
  cases hn with
  | ok hab =>
    rename_i qs
    refine ⟨qs, rfl, hab.imp fun p q hpq => ⟨hpq.psim.core, ?_⟩⟩
    have hr := roundings_le m.est.isSome N ((m.env.lower w).length + 1)
    have := (hpq.score.mono (k := (N + 9) * 2 ^ ((m.env.lower w).length + 1)) (by omega)).abs hsize
    refine this.trans (mul_le_mul_of_nonneg_left (le_of_eq ?_) hpq.score.sim.1)
    unfold scoreError
    push_cast
    rw [pow_succ 2 ((m.env.lower w).length + 1)]
    ring

/-- **C103**, without P(t|w) data: the error grows with the length of the word only, two roundings for each letter. -/
theorem c103_no_data (m : Morph Rat) (d : Morph Dbl) (h : SameCall m d) (hlow : m.env.LowerStable) (hc : m.dict.SmallCounts m.sub)
    (hest : m.est = none) (w : Str) (hsize : (m.env.lower w).length ≤ 2 ^ 49) (ps : List (Parse Rat)) (hps : m.parse w = .ok ps) :
    ∃ qs, d.parse w = .ok qs ∧ List.Forall₂ (fun p q => p.core = q.core ∧
      |q.score.val - p.score| ≤ p.score * (((4 * (m.env.lower w).length + 10 : Nat) : Rat) / 2 ^ 52)) ps qs := by
  have hd : ∀ dawg, m.est = some dawg → ∀ e ∈ dawg, e.2 < 2 ^ 50 := by rw [hest]; simp
  have hn := parse_near m ⟨default_posScores m h.default, hc, hd⟩ hlow (default_properPrefixes m h.default) 0
    ((m.env.lower w).length + 1) w (by omega) fun he => absurd hest he
  rw [hps, ← h.eq] at hn
  generalize hq : d.parse w = y at hn ⊢
  cases hn with
  | ok hab =>
    rename_i qs
    refine ⟨qs, rfl, hab.imp fun p q hpq => ⟨hpq.psim.core, ?_⟩⟩
    have hr : roundings m.est.isSome 0 ((m.env.lower w).length + 1) = 2 * (m.env.lower w).length + 5 := by
      rw [hest]; show roundings false 0 _ = _; rw [roundings_false]; omega
    have hs := hpq.score
    rw [hr] at hs
    have := hs.abs (by norm_num at hsize ⊢; omega)
    refine this.trans (mul_le_mul_of_nonneg_left (le_of_eq ?_) hs.sim.1)
    push_cast
    ring

/-- **C103** for the floats of the machine: the scores `parse` computes in IEEE binary64 arithmetic are finite numbers with this
accuracy. -/
theorem c103_binary64 (m : Morph Rat) (d : Morph Dbl) (b : Morph B64) (h : SameCall m d) (h' : SameCall64 d b) (hlow : m.env.LowerStable)
    (hc : m.dict.SmallCounts m.sub) (hd : ∀ dawg, m.est = some dawg → ∀ e ∈ dawg, e.2 ≤ 1000000) (w : Str) (hw : Moderate d w) (N : Nat)
    (few : ∀ x, x = w ∨ x <:+: m.env.lower w → ∀ ps, m.parse x = .ok ps → ps.length ≤ N)
    (hsize : (N + 9) * 2 ^ ((m.env.lower w).length + 1) ≤ 2 ^ 51) (ps : List (Parse Rat)) (hps : m.parse w = .ok ps) :
    ∃ rs, b.parse w = .ok rs ∧ List.Forall₂ (fun p r => p.core = r.core ∧ ∃ v : Rat, r.score = .fin v ∧
      |v - p.score| ≤ p.score * scoreError N (m.env.lower w).length) ps rs := by
  obtain ⟨qs, hq, hpq⟩ := c103_accuracy m d h hlow hc (fun dawg hdg e he => lt_of_le_of_lt (hd dawg hdg e he) (by norm_num)) w N few hsize ps hps
  have e := h.eq
  have e64 := (c100_same d b h' (by rw [e]; exact hlow) (by rw [e]; exact hc) (by rw [e]; exact hd) w hw).1
  rw [hq] at e64
  generalize hb : b.parse w = y at e64 ⊢
  cases y with
  | error x => simp [Except.map] at e64
  | ok rs =>
    refine ⟨rs, rfl, ?_⟩
    replace e64 : rs.map (fun p => (p.core, p.score)) = qs.map fun p => (p.core, B64.fin p.score.val) := by
      simpa [Except.map] using e64
    clear hps hq hb few
    induction hpq generalizing rs with
    | nil =>
      cases rs with
      | nil => exact .nil
      | cons r rs => simp at e64
    | cons hab _ ih =>
      cases rs with
      | nil => simp at e64
      | cons r rs =>
        simp only [List.map_cons, List.cons.injEq, Prod.mk.injEq] at e64
        exact .cons ⟨hab.1.trans e64.1.1.symm, _, e64.1.2, hab.2⟩ (ih rs e64.2)

/-! ### The printed number -/

theorem digitChar_toNat {d : Nat} (h : d < 10) : (Nat.digitChar d).toNat = 48 + d ∧ (Nat.digitChar d).isDigit = true := by
  have : d = 0 ∨ d = 1 ∨ d = 2 ∨ d = 3 ∨ d = 4 ∨ d = 5 ∨ d = 6 ∨ d = 7 ∨ d = 8 ∨ d = 9 := by omega
  rcases this with rfl | rfl | rfl | rfl | rfl | rfl | rfl | rfl | rfl | rfl <;> decide

theorem digitsValue_append (s : Str) (c : Char) : digitsValue (s ++ [c]) = 10 * digitsValue s + (c.toNat - 48) := by
  simp [digitsValue, List.foldl_append]

theorem toDigits_facts (n : Nat) : digitsValue (Nat.toDigits 10 n) = n ∧ Nat.toDigits 10 n ≠ [] ∧ (∀ c ∈ Nat.toDigits 10 n, c.isDigit = true) ∧
    ((Nat.toDigits 10 n).head? = some '0' → n = 0) := by
  induction n using Nat.strongRecOn with
  | _ n ih =>
  by_cases hn : n < 10
  · rw [Nat.toDigits_of_lt_base hn]
    obtain ⟨h1, h2⟩ := digitChar_toNat hn
    refine ⟨by simp [digitsValue, h1], by simp, by simpa using h2, ?_⟩
    intro h
    simp only [List.head?_cons, Option.some.injEq] at h
    rw [h] at h1
    have : ('0' : Char).toNat = 48 := rfl
    omega
  · rw [Nat.toDigits_of_base_le (by omega) (by omega)]
    obtain ⟨h1, h2, h3, h4⟩ := ih (n / 10) (by omega)
    obtain ⟨k1, k2⟩ := digitChar_toNat (show n % 10 < 10 by omega)
    refine ⟨?_, by simp, ?_, ?_⟩
    · rw [digitsValue_append, h1, k1]; omega
    · intro c hc
      rcases List.mem_append.1 hc with hc | hc
      · exact h3 c hc
      · simp at hc; subst hc; exact k2
    · intro h
      rw [List.head?_append_of_ne_nil _ h2] at h
      have := h4 h
      omega

theorem thousandths_shows (n : Nat) : Shows (thousandths n) (n / 1000) := by
  obtain ⟨h1, h2, h3, h4⟩ := toDigits_facts (n / 1000)
  obtain ⟨a1, a2⟩ := digitChar_toNat (show n / 100 % 10 < 10 by omega)
  obtain ⟨b1, b2⟩ := digitChar_toNat (show n / 10 % 10 < 10 by omega)
  obtain ⟨c1, c2⟩ := digitChar_toNat (show n % 10 < 10 by omega)
  refine ⟨_, threeDigits n, rfl, h2, ?_, rfl, ?_, ?_⟩
  · intro c hc
    rcases List.mem_append.1 hc with hc | hc
    · exact h3 c hc
    · simp only [threeDigits, List.mem_cons, List.not_mem_nil, or_false] at hc
      rcases hc with rfl | rfl | rfl
      · exact a2
      · exact b2
      · exact c2
  · intro h
    rw [h4 h]; rfl
  · rw [h1]
    have hv : digitsValue (threeDigits n) = n % 1000 := by
      simp only [digitsValue, threeDigits, List.foldl_cons, List.foldl_nil, a1, b1, c1]
      omega
    rw [hv]
    have : n = 1000 * (n / 1000) + n % 1000 := (Nat.div_add_mod n 1000).symm
    have e : (n : Rat) = 1000 * ((n / 1000 : Nat) : Rat) + ((n % 1000 : Nat) : Rat) := by exact_mod_cast this
    rw [e]
    ring

theorem rne_nonneg {x : Rat} (h : 0 ≤ x) : 0 ≤ rne x := by
  have := rne_mono h
  have h0 := rne_int 0
  norm_num at h0
  rwa [h0] at this

/-- **C103.** What `%0.3f` prints for a score: three digits after the point, and no other such number is nearer to the score. -/
theorem c103_format (x : Rat) (hx : 0 ≤ x) :
    ∃ v, Shows (fmtScore x) v ∧ |v - x| ≤ 1 / 2000 ∧ ∀ n : Nat, |v - x| ≤ |(n : Rat) / 1000 - x| := by
  have h0 := rne_nonneg (show 0 ≤ x * 1000 by positivity)
  obtain ⟨n, hn⟩ := Int.eq_ofNat_of_zero_le h0
  have he := rne_err (x * 1000)
  rw [hn] at he
  have hf : fmtScore x = thousandths n := by
    unfold fmtScore
    rw [if_neg (not_lt.2 hx), hn]
    rfl
  have hv : |(n : Rat) / 1000 - x| ≤ 1 / 2000 := by
    have he : |(n : Rat) - x * 1000| ≤ 1 / 2 := by simpa using he
    rw [abs_le] at he ⊢
    constructor <;> linarith
  refine ⟨n / 1000, hf ▸ thousandths_shows n, hv, fun k => ?_⟩
  rcases Nat.lt_trichotomy k n with h | h | h
  · have h' : (k : Rat) + 1 ≤ n := by exact_mod_cast h
    refine hv.trans ?_
    rw [abs_le] at hv
    rw [le_abs]; right; linarith
  · rw [h]
  · have h' : (n : Rat) + 1 ≤ k := by exact_mod_cast h
    refine hv.trans ?_
    rw [abs_le] at hv
    rw [le_abs]; left; linarith

/-- **C103.** A negative number is printed with a sign. -/
theorem c103_negative (x : Rat) (hx : x < 0) : fmtScore x = '-' :: fmtScore (-x) := by
  have h : ¬ -x < 0 := by linarith
  unfold fmtScore
  rw [if_pos hx, if_neg h]

/-- **C103.** A larger score is never printed as a smaller number. -/
theorem c103_format_mono (x y : Rat) (hx : 0 ≤ x) (h : x ≤ y) (v w : Rat) (hv : Shows (fmtScore x) v) (hw : Shows (fmtScore y) w) : v ≤ w := by
  have key : ∀ (x v : Rat), 0 ≤ x → Shows (fmtScore x) v → v = (rne (x * 1000) : Rat) / 1000 := by
    intro x v hx hv
    have h0 := rne_nonneg (show 0 ≤ x * 1000 by positivity)
    obtain ⟨n, hn⟩ := Int.eq_ofNat_of_zero_le h0
    have hf : fmtScore x = thousandths n := by
      unfold fmtScore
      rw [if_neg (not_lt.2 hx), hn]
      rfl
    obtain ⟨a, b, e1, -, hd, -, -, rfl⟩ := hv
    obtain ⟨a', b', e2, -, hd', -, -, e3⟩ := thousandths_shows n
    rw [hf, e2] at e1
    have hpt : ∀ (p q r s : Str), p ++ '.' :: q = r ++ '.' :: s → (∀ c ∈ p, c.isDigit = true) → (∀ c ∈ r, c.isDigit = true) → p = r ∧ q = s := by
      intro p
      induction p with
      | nil =>
        intro q r s h _ hr
        cases r with
        | nil => simpa using h
        | cons c r =>
          simp only [List.nil_append, List.cons_append, List.cons.injEq] at h
          have := hr c (by simp)
          rw [← h.1] at this
          exact absurd this (by decide)
      | cons c p ih =>
        intro q r s h hp hr
        cases r with
        | nil =>
          simp only [List.nil_append, List.cons_append, List.cons.injEq] at h
          have := hp c (by simp)
          rw [h.1] at this
          exact absurd this (by decide)
        | cons c' r =>
          simp only [List.cons_append, List.cons.injEq] at h
          obtain ⟨rfl, rfl⟩ := ih q r s h.2 (fun c hc => hp c (by simp [hc])) (fun c hc => hr c (by simp [hc]))
          exact ⟨by rw [h.1], rfl⟩
    obtain ⟨rfl, rfl⟩ := hpt _ _ _ _ e1 (fun c hc => hd' c (by simp [hc])) (fun c hc => hd c (by simp [hc]))
    rw [← e3, hn]
    simp
  rw [key x v hx hv, key y w (hx.trans h) hw]
  have := rne_mono (show x * 1000 ≤ y * 1000 by linarith)
  have : (rne (x * 1000) : Rat) ≤ rne (y * 1000) := by exact_mod_cast this
  linarith

/-- **C103.** The printed score is right: it differs from the exact score by at most half a unit of the third digit, plus the
rounding error of `c103_accuracy`. -/
theorem c103_printed (m : Morph Rat) (d : Morph Dbl) (h : SameCall m d) (hlow : m.env.LowerStable) (hc : m.dict.SmallCounts m.sub)
    (hd : ∀ dawg, m.est = some dawg → ∀ e ∈ dawg, e.2 < 2 ^ 50) (w : Str) (N : Nat)
    (few : ∀ x, x = w ∨ x <:+: m.env.lower w → ∀ ps, m.parse x = .ok ps → ps.length ≤ N)
    (hsize : (N + 9) * 2 ^ ((m.env.lower w).length + 1) ≤ 2 ^ 51) (ps : List (Parse Rat)) (hps : m.parse w = .ok ps) :
    ∃ qs, d.parse w = .ok qs ∧ List.Forall₂ (fun p q => p.core = q.core ∧ ∃ v, Shows (fmtScore q.score.val) v ∧
      |v - p.score| ≤ 1 / 2000 + p.score * scoreError N (m.env.lower w).length) ps qs := by
  have hn := near_parse m d h hlow hc hd w N few
  obtain ⟨qs, hq, hpq⟩ := c103_accuracy m d h hlow hc hd w N few hsize ps hps
  refine ⟨qs, hq, ?_⟩
  rw [hps, hq] at hn
  cases hn with
  | ok hab =>
    clear hps hq
    induction hpq with
    | nil => exact .nil
    | cons h1 _ ih =>
      cases hab with
      | cons h2 h3 =>
        refine .cons ⟨h1.1, ?_⟩ (ih h3)
        obtain ⟨v, hv, he, -⟩ := c103_format _ h2.score.sim.2.1
        refine ⟨v, hv, ?_⟩
        have h1' := h1.2
        rw [abs_le] at he h1' ⊢
        constructor <;> linarith

/-- **C103.** For words of at most 28 letters, no piece of which has more than 1000 analyses, the printed score is within a thousandth of
the exact score. -/
theorem c103_thousandth (m : Morph Rat) (d : Morph Dbl) (h : SameCall m d) (hlow : m.env.LowerStable) (hc : m.dict.SmallCounts m.sub)
    (hd : ∀ dawg, m.est = some dawg → ∀ e ∈ dawg, e.2 ≤ 1000000) (w : Str) (hw : (m.env.lower w).length ≤ 28)
    (few : ∀ x, x = w ∨ x <:+: m.env.lower w → ∀ ps, m.parse x = .ok ps → ps.length ≤ 1000) (ps : List (Parse Rat)) (hps : m.parse w = .ok ps) :
    ∃ qs, d.parse w = .ok qs ∧ List.Forall₂ (fun p q => p.core = q.core ∧ ∃ v, Shows (fmtScore q.score.val) v ∧ |v - p.score| < 1 / 1000) ps qs := by
  have h2 : 2 ^ ((m.env.lower w).length + 1) ≤ 2 ^ 29 := Nat.pow_le_pow_right (by norm_num) (by omega)
  obtain ⟨qs, hq, hpq⟩ := c103_printed m d h hlow hc (fun dawg hdg e he => lt_of_le_of_lt (hd dawg hdg e he) (by norm_num)) w 1000 few
    (by norm_num at h2 ⊢; omega) ps hps
  refine ⟨qs, hq, ?_⟩
  have h1 := c12_between_0_and_1 m h.default hd w ps hps
  have he : scoreError 1000 (m.env.lower w).length < 1 / 2000 := by
    unfold scoreError
    have : (2 : Rat) ^ ((m.env.lower w).length + 2) ≤ 2 ^ 30 := pow_le_pow_right₀ (by norm_num) (by omega)
    norm_num at this ⊢
    linarith
  have he0 : 0 ≤ scoreError 1000 (m.env.lower w).length := by unfold scoreError; positivity
  clear hps hq few
  generalize scoreError 1000 (m.env.lower w).length = ε at *
  induction hpq with
  | nil => exact .nil
  | cons hab _ ih =>
    rename_i p q _ _ _
    refine .cons ⟨hab.1, ?_⟩ (ih fun p hp => h1 p (by simp [hp]))
    obtain ⟨v, hv, hb⟩ := hab.2
    refine ⟨v, hv, lt_of_le_of_lt hb ?_⟩
    have hp := (h1 p (by simp)).2
    have := mul_le_mul_of_nonneg_right hp he0
    linarith

/-- Non-vacuity: a word with three analyses of score 1/3, printed 0.333. -/
example : SameCall Demo.morph3 Demo.morph3.toDbl ∧ Demo.morph3.env.LowerStable ∧ Demo.morph3.dict.SmallCounts Demo.morph3.sub ∧
    (∀ x, x = (c!"кош") ∨ x <:+: Demo.morph3.env.lower (c!"кош") → ∀ ps, Demo.morph3.parse x = .ok ps → ps.length ≤ 1000) ∧
    (Demo.morph3.parse (c!"кош")).toOption.map (fun ps => ps.map Parse.score) = some [1 / 3, 1 / 3, 1 / 3] ∧
    (Demo.morph3.toDbl.parse (c!"кош")).toOption.map (fun ps => ps.map fun p => fmtScore p.score.val) = some [c!"0.333", c!"0.333", c!"0.333"] := by
  refine ⟨SameCall.exists _ (.inl Demo.morph3_isRu), demoEnv_lowerStable, c73_condition _ _ c05_default_targets.2.2.1 (by decide +kernel), ?_,
    by decide +kernel, by decide +kernel⟩
  have key : ∀ x ∈ [] :: (c!"кош") :: pieces (Demo.morph3.env.lower (c!"кош")),
      ((Demo.morph3.parse x).toOption.map fun ps => decide (ps.length ≤ 1000)) ≠ some false := by decide +kernel
  intro x hx ps hps
  have hm : x ∈ [] :: (c!"кош") :: pieces (Demo.morph3.env.lower (c!"кош")) := by
    rcases hx with rfl | hx
    · simp
    · by_cases hn : x = []
      · simp [hn]
      · simp [mem_pieces _ _ hx hn]
  have := key x hm
  rw [hps] at this
  simpa [Except.toOption] using this

/-- The error is real: the double nearest to a third is not a third. -/
example : (Demo.morph3.toDbl.parse (c!"кош")).toOption.map (fun ps => ps.map fun p => decide (p.score.val = 1 / 3)) = some [false, false, false] := by
  decide +kernel

/-- Ties are rounded to even, as CPython does: 0.0625 is printed 0.062, 0.1875 is printed 0.188. -/
example : fmtScore (1 / 16) = c!"0.062" ∧ fmtScore (3 / 16) = c!"0.188" ∧ fmtScore 1 = c!"1.000" ∧ fmtScore (9996 / 10000) = c!"1.000" ∧
    fmtScore (-1 / 4) = c!"-0.250" ∧ fmtScore (12345 / 10) = c!"1234.500" := by decide +kernel

end Verif
