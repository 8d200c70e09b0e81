/-
An analyzer in double precision does what the analyzer in exact arithmetic does: same analyses, same order, same errors.
-/
import Verif.Model.Dbl
import Verif.Lemmas.Total
import Verif.Props.C11

set_option linter.unusedSectionVars false

namespace Verif

/-! ### Related outcomes -/

/-- Both succeed with related values, or both raise the same exception. -/
inductive ERel {α β : Type} (R : α → β → Prop) : Except PyErr α → Except PyErr β → Prop
  | ok {a : α} {b : β} (h : R a b) : ERel R (.ok a) (.ok b)
  | err (e : PyErr) : ERel R (.error e) (.error e)

theorem ERel.bind {α β γ δ : Type} {R : α → β → Prop} {Q : γ → δ → Prop} {x : Except PyErr α} {y : Except PyErr β}
    {f : α → Except PyErr γ} {g : β → Except PyErr δ} (h : ERel R x y) (hf : ∀ a b, R a b → ERel Q (f a) (g b)) :
    ERel Q (x >>= f) (y >>= g) := by
  cases h with
  | ok h => exact hf _ _ h
  | err e => exact .err e

theorem ERel.of_eq {α β : Type} {R : α → α → Prop} {x : Except PyErr α} (h : ∀ a, R a a) : ERel R x x := by
  cases x with
  | ok a => exact .ok (h a)
  | error e => exact .err e

/-- The same computation first, related continuations. -/
theorem ERel.bind_same {α γ δ : Type} {Q : γ → δ → Prop} {x : Except PyErr α}
    {f : α → Except PyErr γ} {g : α → Except PyErr δ} (hf : ∀ a, ERel Q (f a) (g a)) : ERel Q (x >>= f) (x >>= g) := by
  cases x with
  | ok a => exact hf a
  | error e => exact .err e

theorem ERel.mapE {α β α' β' : Type} {R : α → α' → Prop} {Q : β → β' → Prop} {f : α → Except PyErr β} {g : α' → Except PyErr β'}
    {l : List α} {l' : List α'} (hl : List.Forall₂ R l l') (h : ∀ a b, a ∈ l → R a b → ERel Q (f a) (g b)) :
    ERel (List.Forall₂ Q) (Verif.mapE f l) (Verif.mapE g l') := by
  induction hl with
  | nil => exact .ok .nil
  | cons hab _ ih =>
    rename_i a b l l' _
    simp only [Verif.mapE]
    refine ERel.bind (h _ _ (by simp) hab) fun c d hcd => ?_
    refine ERel.bind (ih fun a b ha => h a b (by simp [ha])) fun cs ds hcs => ?_
    exact .ok (.cons hcd hcs)

theorem forall₂_same {α : Type} (l : List α) : List.Forall₂ (fun a b => a = b) l l := by
  induction l with
  | nil => exact .nil
  | cons a l ih => exact .cons rfl ih

theorem forall₂_append' {α β : Type} {R : α → β → Prop} {a c : List α} {b d : List β} (h1 : List.Forall₂ R a b)
    (h2 : List.Forall₂ R c d) : List.Forall₂ R (a ++ c) (b ++ d) := by
  induction h1 with
  | nil => exact h2
  | cons h _ ih => exact .cons h ih

theorem forall₂_map₂ {α β γ δ : Type} {R : α → β → Prop} {Q : γ → δ → Prop} {l : List α} {l' : List β} (h : List.Forall₂ R l l')
    (f : α → γ) (g : β → δ) (hf : ∀ a b, R a b → Q (f a) (g b)) : List.Forall₂ Q (l.map f) (l'.map g) := by
  induction h with
  | nil => exact .nil
  | cons h _ ih => exact .cons (hf _ _ h) ih

theorem forall₂_map_eq {α β γ : Type} {R : α → β → Prop} {l : List α} {l' : List β} (h : List.Forall₂ R l l')
    (f : α → γ) (g : β → γ) (hf : ∀ a b, R a b → f a = g b) : l.map f = l'.map g := by
  induction h with
  | nil => rfl
  | cons h _ ih => rw [List.map_cons, List.map_cons, hf _ _ h, ih]

theorem forall₂_filter {α β : Type} {R : α → β → Prop} {l : List α} {l' : List β} (h : List.Forall₂ R l l')
    (f : α → Bool) (g : β → Bool) (hf : ∀ a b, R a b → f a = g b) : List.Forall₂ R (l.filter f) (l'.filter g) := by
  induction h with
  | nil => exact .nil
  | cons h _ ih =>
    rw [List.filter_cons, List.filter_cons, hf _ _ h]
    split
    · exact .cons h ih
    · exact ih

theorem forall₂_flatten {α β : Type} {R : α → β → Prop} {l : List (List α)} {l' : List (List β)}
    (h : List.Forall₂ (List.Forall₂ R) l l') : List.Forall₂ R l.flatten l'.flatten := by
  induction h with
  | nil => exact .nil
  | cons h _ ih => exact forall₂_append' h ih

theorem forall₂_nil_iff {α β : Type} {R : α → β → Prop} {l : List α} {l' : List β} (h : List.Forall₂ R l l') : l = [] ↔ l' = [] := by
  cases h <;> simp

theorem forall₂_orderedInsert {α β : Type} {R : α → β → Prop} {r : α → α → Prop} {s : β → β → Prop} [DecidableRel r]
    [DecidableRel s] (hrs : ∀ a b a' b', R a b → R a' b' → (r a a' ↔ s b b')) {a : α} {b : β} (hab : R a b) {l : List α}
    {l' : List β} (h : List.Forall₂ R l l') : List.Forall₂ R (l.orderedInsert r a) (l'.orderedInsert s b) := by
  induction h with
  | nil => exact .cons hab .nil
  | cons h ht ih =>
    rename_i x y _ _
    rw [List.orderedInsert, List.orderedInsert]
    by_cases hr : r a x
    · rw [if_pos hr, if_pos ((hrs _ _ _ _ hab h).1 hr)]
      exact .cons hab (.cons h ht)
    · rw [if_neg hr, if_neg (fun hs => hr ((hrs _ _ _ _ hab h).2 hs))]
      exact .cons h ih

/-- Sorting two related lists by orders that agree on related elements. -/
theorem forall₂_insertionSort {α β : Type} {R : α → β → Prop} {r : α → α → Prop} {s : β → β → Prop} [DecidableRel r]
    [DecidableRel s] (hrs : ∀ a b a' b', R a b → R a' b' → (r a a' ↔ s b b')) {l : List α}
    {l' : List β} (h : List.Forall₂ R l l') : List.Forall₂ R (l.insertionSort r) (l'.insertionSort s) := by
  induction h with
  | nil => exact .nil
  | cons h _ ih => exact forall₂_orderedInsert hrs h ih

/-! ### Related scores and parses -/

/-- An exact score and its double: both non-negative, and zero together. -/
def SSim (s : Rat) (t : Dbl) : Prop := 0 ≤ s ∧ 0 ≤ t.val ∧ (s = 0 ↔ t.val = 0)

/-- Parses that differ in their scores only. -/
structure PSim (a : Parse Rat) (b : Parse Dbl) : Prop where
  word : a.word = b.word
  tag : a.tag = b.tag
  nf : a.nf = b.nf
  stack : a.stack = b.stack
  score : SSim a.score b.score

theorem SSim.pos {x : Rat} (h : 0 < x) : SSim x (toDbl x) :=
  ⟨h.le, (fl_pos h).le, by simp [toDbl, fl_eq_zero]⟩

theorem SSim.one : SSim (Score.one : Rat) (Score.one : Dbl) := SSim.pos (x := 1) (by norm_num)

theorem SSim.mul {a b : Rat} {x y : Dbl} (h1 : SSim a x) (h2 : SSim b y) : SSim (Score.mul a b) (Score.mul x y) := by
  refine ⟨mul_nonneg h1.1 h2.1, fl_nonneg (mul_nonneg h1.2.1 h2.2.1), ?_⟩
  show a * b = 0 ↔ fl (x.val * y.val) = 0
  rw [fl_eq_zero, mul_eq_zero, mul_eq_zero, h1.2.2, h2.2.2]

theorem SSim.add {a b : Rat} {x y : Dbl} (h1 : SSim a x) (h2 : SSim b y) : SSim (Score.add a b) (Score.add x y) := by
  refine ⟨add_nonneg h1.1 h2.1, fl_nonneg (add_nonneg h1.2.1 h2.2.1), ?_⟩
  show a + b = 0 ↔ fl (x.val + y.val) = 0
  rw [fl_eq_zero, add_eq_zero_iff_of_nonneg h1.1 h2.1, add_eq_zero_iff_of_nonneg h1.2.1 h2.2.1, h1.2.2, h2.2.2]

theorem SSim.div {a b : Rat} {x y : Dbl} (h1 : SSim a x) (h2 : SSim b y) : SSim (Score.div a b) (Score.div x y) := by
  refine ⟨div_nonneg h1.1 h2.1, fl_nonneg (div_nonneg h1.2.1 h2.2.1), ?_⟩
  show a / b = 0 ↔ fl (x.val / y.val) = 0
  rw [fl_eq_zero, div_eq_zero_iff, div_eq_zero_iff, h1.2.2, h2.2.2]

theorem SSim.ofNat (n : Nat) : SSim (Score.ofNat n : Rat) (Score.ofNat n : Dbl) := by
  refine ⟨?_, fl_nonneg ?_, ?_⟩
  · show (0 : Rat) ≤ n; positivity
  · show (0 : Rat) ≤ n; positivity
  · show (n : Rat) = 0 ↔ fl n = 0
    rw [fl_eq_zero]

theorem SSim.zero : SSim (Score.zero : Rat) (Score.zero : Dbl) := by
  refine ⟨le_rfl, fl_nonneg le_rfl, ?_⟩
  show (0 : Rat) = 0 ↔ fl 0 = 0
  simp [fl_zero]

theorem SSim.isZero {s : Rat} {t : Dbl} (h : SSim s t) : Score.isZero s = Score.isZero t := by
  simp only [Score.isZero, h.2.2]

theorem SSim.sumS {xs : List Rat} {ys : List Dbl} (h : List.Forall₂ SSim xs ys) : SSim (sumS xs) (sumS ys) := by
  unfold Verif.sumS
  have : ∀ (a : Rat) (b : Dbl), SSim a b → SSim (xs.foldl Score.add a) (ys.foldl Score.add b) := by
    induction h with
    | nil => intro a b h; exact h
    | cons h _ ih => intro a b hab; exact ih _ _ (hab.add h)
  exact this _ _ SSim.zero

theorem PSim.key {a : Parse Rat} {b : Parse Dbl} (h : PSim a b) : a.key = b.key := by
  simp only [Parse.key, h.word, h.tag, h.stack]

theorem PSim.core {a : Parse Rat} {b : Parse Dbl} (h : PSim a b) : a.core = b.core := by
  simp only [Parse.core, h.word, h.tag, h.stack, h.nf]

theorem addParses_sim {ps : List (Parse Rat)} {qs : List (Parse Dbl)} (h : List.Forall₂ PSim ps qs) (seen : Seen) :
    List.Forall₂ PSim (addParses ps seen).1 (addParses qs seen).1 ∧ (addParses ps seen).2 = (addParses qs seen).2 := by
  induction h generalizing seen with
  | nil => exact ⟨.nil, rfl⟩
  | cons h _ ih =>
    simp only [addParses, h.key]
    split
    · exact ih seen
    · exact ⟨.cons h (ih _).1, (ih _).2⟩

/-! ### Order of P(t|w) values and of predictions -/

/-- Rounding keeps numbers apart that differ by more than a few units in the last place, even after a multiplication. -/
theorem fl_mul_lt {x y m : Rat} (hx : 0 ≤ x) (hm : 0 < m) (hy : 0 < y) (h : x * (1 + 1 / 2 ^ 50) ≤ y) :
    fl (fl x * m) < fl (fl y * m) := by
  have h1 := fl_upper hx
  have h2 := fl_lower hy.le
  have hfx := fl_nonneg hx
  have hfy := fl_pos hy
  have h3 := fl_upper (mul_nonneg hfx hm.le)
  have h4 := fl_lower (mul_nonneg hfy.le hm.le)
  refine lt_of_le_of_lt h3 (lt_of_lt_of_le ?_ h4)
  have e1 : fl x * m * (1 + 1 / 2 ^ 53) ≤ x * (1 + 1 / 2 ^ 53) * (1 + 1 / 2 ^ 53) * m := by
    have := mul_le_mul_of_nonneg_right h1 (show (0 : Rat) ≤ m * (1 + 1 / 2 ^ 53) by positivity)
    linarith
  have e2 : y * (1 - 1 / 2 ^ 53) * (1 - 1 / 2 ^ 53) * m ≤ fl y * m * (1 - 1 / 2 ^ 53) := by
    have := mul_le_mul_of_nonneg_right h2 (show (0 : Rat) ≤ m * (1 - 1 / 2 ^ 53) from mul_nonneg hm.le (by norm_num))
    linarith
  refine lt_of_le_of_lt e1 (lt_of_lt_of_le ?_ e2)
  apply mul_lt_mul_of_pos_right _ hm
  norm_num at h ⊢
  linarith

theorem fl_lt {x y : Rat} (hx : 0 ≤ x) (hy : 0 < y) (h : x * (1 + 1 / 2 ^ 50) ≤ y) : fl x < fl y := by
  have := fl_mul_lt hx (m := 1) (by norm_num) hy h
  rwa [mul_one, mul_one, fl_idem, fl_idem] at this

/-- Fractions of small numbers that differ, differ by more than rounding can hide. -/
theorem frac_gap {c n c' n' : Nat} (hn : 0 < n) (hn' : 0 < n') (hb : c * n' ≤ 2 ^ 50) (h : (c : Rat) / n < (c' : Rat) / n') :
    (c : Rat) / n * (1 + 1 / 2 ^ 50) ≤ (c' : Rat) / n' := by
  have p1 : (0 : Rat) < n := by exact_mod_cast hn
  have p2 : (0 : Rat) < n' := by exact_mod_cast hn'
  rw [div_lt_div_iff₀ p1 p2] at h
  have h' : c * n' + 1 ≤ c' * n := by exact_mod_cast h
  have h'' : (c : Rat) * n' + 1 ≤ (c' : Rat) * n := by exact_mod_cast h'
  have hb' : (c : Rat) * n' ≤ 2 ^ 50 := by exact_mod_cast hb
  rw [div_mul_eq_mul_div, div_le_div_iff₀ p1 p2]
  norm_num at hb' ⊢
  linarith

theorem frac_le_iff {c n c' n' : Nat} (hn : 0 < n) (hn' : 0 < n') (hc : c ≤ n) (hc' : c' ≤ n') (hb : n < 2 ^ 25) (hb' : n' < 2 ^ 25)
    {a b : Rat} (ha : 0 < a) (hb0 : 0 < b) :
    ((c : Rat) / n * a ≤ (c' : Rat) / n' * a) ↔ fl (fl ((c : Rat) / n) * b) ≤ fl (fl ((c' : Rat) / n') * b) := by
  rw [mul_le_mul_iff_of_pos_right ha]
  constructor
  · intro h
    exact fl_mono (mul_le_mul_of_nonneg_right (fl_mono h) hb0.le)
  · intro h
    by_contra hlt
    have hlt := not_le.1 hlt
    have hpos : (0 : Rat) < (c : Rat) / n := lt_of_le_of_lt (by positivity) hlt
    have hg := frac_gap hn' hn (by nlinarith) hlt
    exact absurd h (not_le.2 (fl_mul_lt (by positivity) hb0 hpos hg))

theorem prob_le_iff {a b : Nat} (ha : a < 2 ^ 50) (hb : b < 2 ^ 50) :
    ((a : Rat) / (1000000 : Nat) ≤ (b : Rat) / (1000000 : Nat)) ↔
      fl ((a : Rat) / (1000000 : Nat)) ≤ fl ((b : Rat) / (1000000 : Nat)) := by
  constructor
  · exact fl_mono
  · intro h
    by_contra hlt
    have hlt := not_le.1 hlt
    have hpos : (0 : Rat) < (a : Rat) / (1000000 : Nat) := lt_of_le_of_lt (by positivity) hlt
    have hlt' : b < a := by
      have := (div_lt_div_iff_of_pos_right (c := ((1000000 : Nat) : Rat)) (by norm_num)).1 hlt
      exact_mod_cast this
    refine absurd h (not_le.2 (fl_lt (by positivity) hpos ?_))
    have h1 : (b : Rat) + 1 ≤ a := by exact_mod_cast hlt'
    have h2 : (b : Rat) ≤ 1125899906842624 := by
      have : b ≤ 1125899906842624 := le_trans hb.le (by norm_num)
      exact_mod_cast this
    rw [div_mul_eq_mul_div, div_le_div_iff_of_pos_right (by norm_num)]
    norm_num
    linarith

theorem prob_val (dawg : List (Str × Nat)) (w : Str) (t : Tag) (hd : ∀ e ∈ dawg, e.2 < 2 ^ 50) :
    ∃ v : Nat, v < 2 ^ 50 ∧ v = (dictGet (probKey w t) dawg).getD 0 ∧ (prob dawg w t : Rat) = (v : Rat) / (1000000 : Nat) ∧
      (prob dawg w t : Dbl).val = fl ((v : Rat) / (1000000 : Nat)) := by
  have hv : (dictGet (probKey w t) dawg).getD 0 < 2 ^ 50 := by
    cases hg : dictGet (probKey w t) dawg with
    | none => simp
    | some v => exact hd _ (dictGet_mem _ _ _ hg)
  refine ⟨_, hv, rfl, rfl, ?_⟩
  show fl (fl (((dictGet (probKey w t) dawg).getD 0 : Nat) : Rat) / fl ((1000000 : Nat) : Rat)) = _
  rw [fl_natCast _ (le_trans hv.le (by norm_num)), fl_natCast _ (by norm_num)]

theorem prob_sim (dawg : List (Str × Nat)) (w : Str) (t : Tag) :
    SSim (prob dawg w t) (prob dawg w t) := (SSim.ofNat _).div (SSim.ofNat _)

theorem applyToTags_sim (dawg : List (Str × Nat)) (wl : Str) (ts : List Tag) (hd : ∀ e ∈ dawg, e.2 < 2 ^ 50) :
    applyToTags Rat dawg wl ts = applyToTags Dbl dawg wl ts := by
  have h := forall₂_insertionSort (R := fun a b : Tag => a = b)
    (r := fun a b => Score.le (prob dawg wl b : Rat) (prob dawg wl a) = true)
    (s := fun a b => Score.le (prob dawg wl b : Dbl) (prob dawg wl a) = true) (by
      rintro a _ b _ rfl rfl
      obtain ⟨v, hv, _, e1, e2⟩ := prob_val dawg wl a hd
      obtain ⟨v', hv', _, e1', e2'⟩ := prob_val dawg wl b hd
      simp only [Score.le, e1, e2, e1', e2', decide_eq_true_eq]
      exact prob_le_iff hv' hv) (forall₂_same ts)
  have := forall₂_map_eq h id id (fun _ _ h => h)
  simpa [applyToTags] using this

theorem applyToParses_sim (dawg : List (Str × Nat)) (hd : ∀ e ∈ dawg, e.2 < 2 ^ 50) (wl : Str) {ps : List (Parse Rat)}
    {qs : List (Parse Dbl)} (h : List.Forall₂ PSim ps qs) :
    ERel (List.Forall₂ PSim) (applyToParses dawg wl ps) (applyToParses dawg wl qs) := by
  unfold applyToParses
  by_cases he : ps = []
  · rw [if_pos he, if_pos ((forall₂_nil_iff h).1 he)]; exact .ok .nil
  · rw [if_neg he, if_neg (fun h' => he ((forall₂_nil_iff h).2 h'))]
    dsimp only
    have hz := (SSim.sumS (forall₂_map₂ h (fun p => (prob dawg wl p.tag : Rat)) (fun p => (prob dawg wl p.tag : Dbl))
      (fun a b hab => by rw [hab.tag]; exact prob_sim dawg wl _))).isZero
    have ht := SSim.sumS (forall₂_map₂ h Parse.score Parse.score (fun a b hab => hab.score))
    rw [hz]
    split
    · rw [ht.isZero]
      split
      · exact .err _
      · refine .ok (forall₂_map₂ h _ _ fun a b hab => ?_)
        exact ⟨hab.word, hab.tag, hab.nf, hab.stack, hab.score.mul (SSim.one.div ht)⟩
    · refine .ok ?_
      have hs := forall₂_insertionSort (R := fun (a : Parse Rat) (b : Parse Dbl) =>
          PSim a b ∧ ∃ v : Nat, v < 2 ^ 50 ∧ a.score = (v : Rat) / (1000000 : Nat) ∧ b.score.val = fl ((v : Rat) / (1000000 : Nat)))
        (r := fun a b : Parse Rat => Score.le b.score a.score = true)
        (s := fun a b : Parse Dbl => Score.le b.score a.score = true) (by
          rintro a b a' b' ⟨_, v, hv, e1, e2⟩ ⟨_, v', hv', e1', e2'⟩
          simp only [Score.le, e1, e2, e1', e2', decide_eq_true_eq]
          exact prob_le_iff hv' hv)
        (forall₂_map₂ h (fun p => { p with score := (prob dawg wl p.tag : Rat) }) (fun p => { p with score := (prob dawg wl p.tag : Dbl) })
          (fun a b hab => by
            obtain ⟨v, hv, _, e1, e2⟩ := prob_val dawg wl b.tag hd
            refine ⟨⟨hab.word, hab.tag, hab.nf, hab.stack, ?_⟩, v, hv, ?_, e2⟩
            · dsimp only; rw [hab.tag]; exact prob_sim dawg wl _
            · dsimp only; rw [hab.tag]; exact e1))
      exact hs.imp fun _ _ h => h.1

/-! ### Units -/

/-- The counts found for one word ending add up to less than 2^25 - 1. -/
def Dict.SmallCounts (d : Dict) (sub : Subst) : Prop :=
  ∀ t ∈ d.pred, ∀ e : Str, ((lookup t sub e).map fun x => x.2.1).sum < 2 ^ 25 - 1

theorem mapS_kind {S T : Type} (f : S → T) (c : UnitCfg S) : (c.mapS f).kind = c.kind := by cases c <;> rfl

theorem mapS_obj {S T : Type} (f : S → T) (u : BUnit S) : (u.mapS f).obj = u.obj := by
  simp [BUnit.obj, BUnit.mapS, mapS_kind]

theorem mapS_inner {S T : Type} (f : S → T) (u : BUnit S) : (u.mapS f).inner = u.inner := rfl

theorem mapS_shapeTag {S T : Type} [Score S] [Score T] (f : S → T) (e : Env) (c : UnitCfg S) (w : Str) :
    shapeTag e (c.mapS f) w = shapeTag e c w := by cases c <;> rfl

theorem dictParse_sim (m : Morph Rat) (u : UObj) (wl : Str) :
    ERel (List.Forall₂ PSim) (dictParse m u wl) (dictParse m.toDbl u wl) := by
  unfold dictParse
  refine ERel.mapE (forall₂_same _) ?_
  rintro a _ _ rfl
  unfold dictParse1
  refine ERel.bind_same fun nf => ERel.bind_same fun tag => .ok ?_
  exact ⟨rfl, rfl, rfl, rfl, SSim.one⟩

theorem cntSum_le (d : Dict) (sub : Subst) (t : Dawg (Nat × Nat × Nat)) (wl : Str) (i : Nat) (cs : List SfxCand)
    (h : sfxCands d sub t wl i = .ok cs) : cntSum cs ≤ ((lookup t sub (takeRight wl i)).map fun x => x.2.1).sum := by
  unfold sfxCands at h
  simp only [bind_ok_iff, pure_eq_ok, Except.ok.injEq] at h
  obtain ⟨cs', hcs', rfl⟩ := h
  have hcs := (mapE_ok_iff _ _ _).1 hcs'
  clear hcs'
  generalize lookup t sub (takeRight wl i) = l at hcs
  induction hcs with
  | nil => simp [cntSum]
  | cons h1 _ ih =>
    simp only [bind_ok_iff, Except.ok.injEq] at h1
    obtain ⟨tag, _, rfl⟩ := h1
    rw [List.filter_cons]
    simp only [cntSum] at ih ⊢
    split
    · simp only [List.map_cons, List.sum_cons]; omega
    · simp only [List.map_cons, List.sum_cons]; omega

theorem sfxLoop_small (cands : Nat → Except PyErr (List SfxCand)) (N : Nat)
    (hc : ∀ i cs, cands i = .ok cs → cntSum cs < N) (is : List Nat) (seen : Seen) (r : List SfxCand × Nat × Seen)
    (h : sfxLoop cands is 1 seen = .ok r) : r.2.1 ≤ N ∨ r.2.1 = 1 := by
  induction is generalizing seen r with
  | nil => simp [sfxLoop] at h; subst h; exact .inr rfl
  | cons i is ih =>
    rw [sfxLoop, bind_ok_iff] at h
    obtain ⟨cs, hcs, h⟩ := h
    have := hc i cs hcs
    dsimp only at h
    split at h
    · simp at h; subst h; left; dsimp only; omega
    · next hle =>
      simp only [bind_ok_iff, pure_eq_ok, Except.ok.injEq] at h
      obtain ⟨r', hr', rfl⟩ := h
      have e : 1 + cntSum cs = 1 := by omega
      rw [e] at hr'
      exact ih _ r' hr'

theorem sfxPrefixLoop_small (d : Dict) (sub : Subst) (hs : d.SmallCounts sub) (wl : Str) (ips : List (Nat × Str)) (seen : Seen)
    (r : List (SfxCand × Nat) × Seen) (h : sfxPrefixLoop d sub wl ips seen = .ok r) (c : SfxCand × Nat)
    (hc : c ∈ r.1) : c.2 < 2 ^ 25 := by
  induction ips generalizing seen r with
  | nil => simp [sfxPrefixLoop] at h; subst h; simp at hc
  | cons ip ips ih =>
    simp only [sfxPrefixLoop, bind_ok_iff, pure_eq_ok, Except.ok.injEq, pyGet_ok_iff] at h
    obtain ⟨t, ht, r1, hr1, r2, hr2, rfl⟩ := h
    rcases List.mem_append.1 hc with hc | hc
    · obtain ⟨x, _, rfl⟩ := List.mem_map.1 hc
      have htm : t ∈ d.pred := List.mem_of_getElem? ht
      rcases sfxLoop_small _ (2 ^ 25 - 1) (fun i cs hcs => lt_of_le_of_lt (cntSum_le d sub t wl i cs hcs) (hs t htm _)) _ _ _ hr1 with h | h
      · exact lt_of_le_of_lt h (by norm_num)
      · dsimp only; rw [h]; norm_num
    · exact ih _ _ hr2 hc

/-- What relates the exact and the double score of a prediction. -/
def SfxSim (a b : Rat) (p : Parse Rat) (q : Parse Dbl) : Prop :=
  PSim p q ∧ ∃ c n : Nat, 0 < n ∧ c ≤ n ∧ n < 2 ^ 25 ∧ p.score = (c : Rat) / n * a ∧ q.score.val = fl (fl ((c : Rat) / n) * b)

theorem suffixParse_sim (m : Morph Rat) (hs : m.dict.SmallCounts m.sub) (u : BUnit Rat) (mult : Rat) (hm : 0 < mult) (minLen : Nat)
    (word wl : Str) (seen : Seen) :
    ERel (fun r s => List.Forall₂ PSim r.1 s.1 ∧ r.2 = s.2) (suffixParse m u mult minLen word wl seen)
      (suffixParse m.toDbl (u.mapS toDbl) (toDbl mult) minLen word wl seen) := by
  unfold suffixParse
  split
  · exact .ok ⟨.nil, rfl⟩
  · show ERel _ (sfxPrefixLoop m.dict m.sub wl (sfxPrefixes m.dict wl) seen >>= _)
      (sfxPrefixLoop m.dict m.sub wl (sfxPrefixes m.dict wl) seen >>= _)
    cases hr : sfxPrefixLoop m.dict m.sub wl (sfxPrefixes m.dict wl) seen with
    | error e => exact .err e
    | ok r =>
      refine ERel.bind (R := List.Forall₂ (SfxSim mult (fl mult))) (ERel.mapE (forall₂_same r.1) ?_) ?_
      · rintro ⟨c, n⟩ _ hc rfl
        have h1 := sfxPrefixLoop_cnt _ _ _ _ _ _ hr _ hc
        have h2 := sfxPrefixLoop_small _ _ hs _ _ _ _ hr _ hc
        dsimp only at h1 h2
        unfold sfxBuild
        refine ERel.bind_same fun nf => .ok ⟨⟨rfl, rfl, rfl, ?_, ?_⟩, c.cnt, n, by omega, h1.1, h2, rfl, ?_⟩
        · dsimp only
          rw [mapS_inner, mapS_obj]
        · exact ((SSim.ofNat _).div (SSim.ofNat _)).mul (SSim.pos hm)
        · show fl (fl (fl (c.cnt : Rat) / fl (n : Rat)) * fl mult) = _
          rw [fl_natCast _ (by omega), fl_natCast _ (by omega)]
      · intro ps qs hpq
        refine .ok ⟨?_, rfl⟩
        have h := forall₂_insertionSort (R := SfxSim mult (fl mult))
          (r := fun a b : Parse Rat => Score.le b.score a.score = true)
          (s := fun a b : Parse Dbl => Score.le b.score a.score = true) (by
            rintro a b a' b' ⟨_, c, n, h1, h2, h3, e1, e2⟩ ⟨_, c', n', h1', h2', h3', e1', e2'⟩
            simp only [Score.le, e1, e2, e1', e2', decide_eq_true_eq]
            exact frac_le_iff h1' h1 h2' h2 h3' h3 hm (fl_pos hm)) hpq
        exact h.imp fun _ _ h => h.1

/-- The nested calls of the two analyzers agree. -/
def RecSim (r : Rec Rat) (s : Rec Dbl) : Prop :=
  (∀ w, ERel (List.Forall₂ PSim) (r.parse w) (s.parse w)) ∧ ∀ w, r.tag w = s.tag w

theorem parseBoth_sim (u : UObj) (a : Rat) (b : Dbl) (hab : SSim a b) {l r : List (Parse Rat)} {l' r' : List (Parse Dbl)}
    (hl : List.Forall₂ PSim l l') (hr : List.Forall₂ PSim r r') : List.Forall₂ PSim (parseBoth u a l r) (parseBoth u b l' r') := by
  unfold parseBoth
  rw [List.flatMap_def, List.flatMap_def]
  apply forall₂_flatten
  refine forall₂_map₂ hl _ _ fun x y hxy => ?_
  rw [hxy.tag]
  split
  · exact .nil
  · refine forall₂_map₂ (forall₂_filter hr _ _ fun p q hpq => by rw [hpq.tag]) _ _ fun p q hpq => ?_
    refine ⟨?_, rfl, ?_, ?_, hxy.score.mul hab⟩ <;> dsimp only
    · rw [hxy.word, hpq.word]
    · rw [hxy.nf, hpq.nf]
    · rw [hxy.stack, hpq.stack]

theorem parseFixed_sim (u : UObj) (a : Rat) (b : Dbl) (hab : SSim a b) (left : Str) {r : List (Parse Rat)} {r' : List (Parse Dbl)}
    (hr : List.Forall₂ PSim r r') : List.Forall₂ PSim (parseFixed u a left r) (parseFixed u b left r') := by
  unfold parseFixed
  refine forall₂_map₂ (forall₂_filter hr _ _ fun p q hpq => by rw [hpq.tag]) _ _ fun p q hpq => ?_
  refine ⟨?_, hpq.tag, ?_, ?_, hpq.score.mul hab⟩ <;> dsimp only
  · rw [hpq.word]
  · rw [hpq.nf]
  · rw [hpq.stack]

theorem hyphenParse_sim {r : Rec Rat} {s : Rec Dbl} (h : RecSim r s) (u : UObj) (skip : List Str) (a : Rat) (b : Dbl) (hab : SSim a b)
    (wl : Str) : ERel (List.Forall₂ PSim) (hyphenParse r u skip a wl) (hyphenParse s u skip b wl) := by
  unfold hyphenParse
  split
  · refine ERel.bind (h.1 _) fun lp lq hl => ERel.bind (h.1 _) fun rp rq hr => .ok ?_
    exact forall₂_append' (parseBoth_sim u a b hab hl hr) (parseFixed_sim u a b hab _ hr)
  · exact .ok .nil

theorem prefixCands_sim (u : UObj) (a : Rat) (b : Dbl) (hab : SSim a b) (f : Str → Except PyErr (List (Parse Rat)))
    (g : Str → Except PyErr (List (Parse Dbl))) (h : ∀ w, ERel (List.Forall₂ PSim) (f w) (g w)) (sp : List (Str × Str)) :
    ERel (List.Forall₂ PSim) (prefixCands u a f sp) (prefixCands u b g sp) := by
  unfold prefixCands
  refine ERel.bind (R := List.Forall₂ (List.Forall₂ PSim)) (ERel.mapE (forall₂_same sp) ?_) fun x y hxy => .ok (forall₂_flatten hxy)
  rintro s _ _ rfl
  refine ERel.bind (h _) fun x y hxy => .ok ?_
  unfold prefixDeco
  refine forall₂_map₂ (forall₂_filter hxy _ _ fun p q hpq => by rw [hpq.tag]) _ _ fun p q hpq => ?_
  refine ⟨?_, hpq.tag, ?_, ?_, hpq.score.mul hab⟩ <;> dsimp only
  · rw [hpq.word]
  · rw [hpq.nf]
  · rw [hpq.stack]

theorem adverbShould_sim (m : Morph Rat) {r : Rec Rat} {s : Rec Dbl} (h : RecSim r s) (wl : Str) :
    adverbShould m r wl = adverbShould m.toDbl s wl := by
  unfold adverbShould
  rw [h.2]; rfl

theorem unitParse_sim (m : Morph Rat) (hs : m.dict.SmallCounts m.sub) {r : Rec Rat} {s : Rec Dbl} (h : RecSim r s) (u : BUnit Rat)
    (hu : u.cfg.posScores) (word wl : Str) (seen : Seen) :
    ERel (fun x y => List.Forall₂ PSim x.1 y.1 ∧ x.2 = y.2) (unitParse m r u word wl seen)
      (unitParse m.toDbl s (u.mapS toDbl) word wl seen) := by
  obtain ⟨id, cfg⟩ := u
  have hobj := mapS_obj toDbl (⟨id, cfg⟩ : BUnit Rat)
  have hshape := mapS_shapeTag toDbl m.env cfg word
  cases cfg <;> simp only [unitParse, BUnit.mapS, UnitCfg.mapS] at hobj hshape ⊢
  case dictionary =>
    rw [hobj]
    exact ERel.bind (dictParse_sim m _ wl) fun a b hab => .ok ⟨hab, rfl⟩
  case firstName l a b sc =>
    rw [hobj]
    refine .ok ⟨?_, rfl⟩
    unfold initialsParse
    split
    · exact forall₂_map₂ (forall₂_same _) _ _ fun x y hxy => ⟨rfl, hxy, rfl, rfl, SSim.pos hu⟩
    · exact .nil
  case patronymic l a sc =>
    rw [hobj]
    refine .ok ⟨?_, rfl⟩
    unfold initialsParse
    split
    · exact forall₂_map₂ (forall₂_same _) _ _ fun x y hxy => ⟨rfl, hxy, rfl, rfl, SSim.pos hu⟩
    · exact .nil
  case number | punct | latin | roman =>
    rw [hobj]
    show ERel _ _ (shapeTag m.env _ word >>= _)
    rw [hshape]
    refine ERel.bind_same fun t => .ok ⟨?_, rfl⟩
    cases t with
    | none => exact .nil
    | some t => exact .cons ⟨rfl, rfl, rfl, rfl, SSim.pos hu⟩ .nil
  case particle ps mult =>
    rw [hobj]
    split
    · exact .ok ⟨.nil, rfl⟩
    · refine ERel.bind (h.1 _) fun a b hab => .ok (addParses_sim ?_ seen)
      refine forall₂_map₂ hab _ _ fun p q hpq => ?_
      unfold particleDeco
      refine ⟨?_, hpq.tag, ?_, ?_, hpq.score.mul (SSim.pos hu)⟩ <;> dsimp only
      · rw [hpq.word]
      · rw [hpq.nf]
      · rw [hpq.stack]
  case adverb t mult =>
    rw [hobj, ← adverbShould_sim m h]
    refine ERel.bind_same fun b => .ok ?_
    cases b
    · exact ⟨.nil, rfl⟩
    · exact ⟨.cons ⟨rfl, rfl, rfl, rfl, SSim.pos hu⟩ .nil, rfl⟩
  case hyphenated skip mult =>
    rw [hobj]
    exact ERel.bind (hyphenParse_sim h _ _ _ _ (SSim.pos hu) wl) fun a b hab => .ok ⟨hab, rfl⟩
  case knownPrefix ps mult k =>
    rw [hobj]
    exact ERel.bind (prefixCands_sim _ _ _ (SSim.pos hu) _ _ h.1 _) fun a b hab => .ok (addParses_sim hab seen)
  case unknownPrefix mult =>
    rw [hobj]
    exact ERel.bind (prefixCands_sim _ _ _ (SSim.pos hu) _ _ (dictParse_sim m _) _) fun a b hab => .ok (addParses_sim hab seen)
  case knownSuffix mult k => exact suffixParse_sim m hs _ mult hu k word wl seen
  case unkn t =>
    rw [hobj]
    refine .ok ⟨?_, rfl⟩
    dsimp only
    split
    · exact .cons ⟨rfl, rfl, rfl, rfl, SSim.one⟩ .nil
    · exact .nil

theorem unitTag_sim (m : Morph Rat) {r : Rec Rat} {s : Rec Dbl} (h : RecSim r s) (u : BUnit Rat)
    (hu : u.cfg.posScores) (word wl : Str) (seen : SeenTags) :
    unitTag m r u word wl seen = unitTag m.toDbl s (u.mapS toDbl) word wl seen := by
  obtain ⟨id, cfg⟩ := u
  have hobj := mapS_obj toDbl (⟨id, cfg⟩ : BUnit Rat)
  have hshape := mapS_shapeTag toDbl m.env cfg word
  cases cfg <;> simp only [unitTag, BUnit.mapS, UnitCfg.mapS] at hobj hshape ⊢
  case dictionary => rfl
  case number | punct | latin | roman =>
    show _ = (shapeTag m.env _ word >>= _)
    rw [hshape]
  case particle ps mult =>
    split
    · rfl
    · rw [h.2]
  case adverb t mult => rw [← adverbShould_sim m h]
  case hyphenated skip mult =>
    rw [hobj]
    have := hyphenParse_sim h (BUnit.obj ⟨id, .hyphenated skip mult⟩) skip mult (toDbl mult) (SSim.pos hu) wl
    generalize hyphenParse r _ skip mult wl = x at this ⊢
    generalize hyphenParse s _ skip (toDbl mult) wl = y at this ⊢
    cases this with
    | ok hab => show Except.ok _ = Except.ok _; rw [forall₂_map_eq hab Parse.tag Parse.tag fun _ _ h => h.tag]
    | err e => rfl
  case knownPrefix ps mult k =>
    have : r.tag = s.tag := funext h.2
    rw [this]
  case unknownPrefix mult => rfl
  case knownSuffix mult k => rfl

/-! ### The analyzer -/

theorem runParse_sim (m : Morph Rat) (hs : m.dict.SmallCounts m.sub) {r : Rec Rat} {s : Rec Dbl} (h : RecSim r s)
    (word wl : Str) (us : List (BUnit Rat × Bool)) (hu : ∀ u ∈ us, u.1.cfg.posScores) (seen : Seen) (res : List (Parse Rat))
    (res' : List (Parse Dbl)) (hres : List.Forall₂ PSim res res') :
    ERel (List.Forall₂ PSim) (runParse m r word wl us seen res)
      (runParse m.toDbl s word wl (us.map fun u => (u.1.mapS toDbl, u.2)) seen res') := by
  induction us generalizing seen res res' with
  | nil => exact .ok hres
  | cons u us ih =>
    obtain ⟨u, t⟩ := u
    simp only [List.map_cons, runParse]
    refine ERel.bind (unitParse_sim m hs h u (hu (u, t) (by simp)) word wl seen) fun x y hxy => ?_
    have ha := forall₂_append' hres hxy.1
    by_cases hc : t = true ∧ res ++ x.1 ≠ []
    · rw [if_pos hc, if_pos ⟨hc.1, fun he => hc.2 ((forall₂_nil_iff ha).2 he)⟩]
      exact .ok ha
    · rw [if_neg hc, if_neg (fun hc' => hc ⟨hc'.1, fun he => hc'.2 ((forall₂_nil_iff ha).1 he)⟩), hxy.2]
      exact ih (fun u hu' => hu u (by simp [hu'])) _ _ _ ha

theorem runTag_sim (m : Morph Rat) {r : Rec Rat} {s : Rec Dbl} (h : RecSim r s)
    (word wl : Str) (us : List (BUnit Rat × Bool)) (hu : ∀ u ∈ us, u.1.cfg.posScores) (seen : SeenTags) (res : List Tag) :
    runTag m r word wl us seen res = runTag m.toDbl s word wl (us.map fun u => (u.1.mapS toDbl, u.2)) seen res := by
  induction us generalizing seen res with
  | nil => rfl
  | cons u us ih =>
    obtain ⟨u, t⟩ := u
    simp only [List.map_cons, runTag]
    rw [← unitTag_sim m h u (hu (u, t) (by simp)) word wl seen]
    cases unitTag m r u word wl seen with
    | error e => rfl
    | ok x =>
      rw [ok_bind, ok_bind]
      split
      · rfl
      · exact ih (fun u hu' => hu u (by simp [hu'])) _ _

/-- The conditions under which rounding cannot change an order: positive unit parameters, counts per word ending below 2^25,
stored P(t|w) values below 2^50. -/
structure Roundable (m : Morph Rat) : Prop where
  pos : ∀ u ∈ m.units, u.1.cfg.posScores
  counts : m.dict.SmallCounts m.sub
  data : ∀ dawg, m.est = some dawg → ∀ e ∈ dawg, e.2 < 2 ^ 50

theorem analyze_sim (m : Morph Rat) (h : Roundable m) (n : Nat) : RecSim (analyze m n) (analyze m.toDbl n) := by
  induction n with
  | zero => exact ⟨fun _ => .err _, fun _ => rfl⟩
  | succ n ih =>
    constructor
    · intro w
      show ERel _ (parseStep m (analyze m n) w) (parseStep m.toDbl (analyze m.toDbl n) w)
      unfold parseStep
      refine ERel.bind (runParse_sim m h.counts ih w _ m.units h.pos [] [] [] .nil) fun x y hxy => ?_
      show ERel _ _ (match m.est with | some dawg => applyToParses dawg (m.env.lower w) y | none => pure y)
      cases he : m.est with
      | none => exact .ok hxy
      | some dawg => exact applyToParses_sim dawg (h.data dawg he) _ hxy
    · intro w
      show tagStep m (analyze m n) w = tagStep m.toDbl (analyze m.toDbl n) w
      unfold tagStep
      have e := runTag_sim m ih w (m.env.lower w) m.units h.pos [] []
      show (runTag m (analyze m n) w (m.env.lower w) m.units [] [] >>= _) =
        (runTag m.toDbl (analyze m.toDbl n) w (m.env.lower w) (m.units.map fun u => (u.1.mapS toDbl, u.2)) [] [] >>= _)
      rw [← e]
      cases runTag m (analyze m n) w (m.env.lower w) m.units [] [] with
      | error e => rfl
      | ok ts =>
        rw [ok_bind, ok_bind]
        show _ = (match m.est with | some dawg => pure (applyToTags Dbl dawg (m.env.lower w) ts) | none => pure ts)
        cases he : m.est with
        | none => rfl
        | some dawg => show Except.ok _ = Except.ok _; rw [applyToTags_sim dawg _ ts (h.data dawg he)]

/-- The two analyzers agree on every word, errors included. -/
theorem parse_sim (m : Morph Rat) (h : Roundable m) (w : Str) :
    ERel (List.Forall₂ PSim) (m.parse w) (m.toDbl.parse w) := (analyze_sim m h _).1 w

theorem tag_sim (m : Morph Rat) (h : Roundable m) (w : Str) : m.tag w = m.toDbl.tag w := (analyze_sim m h _).2 w

end Verif
