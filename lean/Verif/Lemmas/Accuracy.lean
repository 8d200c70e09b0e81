/-
How far a score in double precision is from the score in exact arithmetic: each operation costs one rounding.
-/
import Verif.Lemmas.DoubleSim
import Verif.Lemmas.Binary64Sim

set_option linter.unusedSectionVars false

namespace Verif

/-- One rounding changes a number by at most this factor, up or down. -/
def gRound : Rat := 1 + 1 / 2 ^ 52

theorem gRound_pos : 0 < gRound := by unfold gRound; norm_num

theorem one_le_gRound : 1 ≤ gRound := by unfold gRound; norm_num

theorem gPow_pos (k : Nat) : 0 < gRound ^ k := pow_pos gRound_pos k

theorem gPow_mono {j k : Nat} (h : j ≤ k) : gRound ^ j ≤ gRound ^ k := pow_le_pow_right₀ one_le_gRound h

theorem one_le_gPow (k : Nat) : 1 ≤ gRound ^ k := one_le_pow₀ one_le_gRound

/-- `t` differs from `s` by at most `k` roundings. -/
structure Near (k : Nat) (s : Rat) (t : Dbl) : Prop where
  sim : SSim s t
  up : s ≤ t.val * gRound ^ k
  down : t.val ≤ s * gRound ^ k

theorem Near.mono {j k : Nat} {s : Rat} {t : Dbl} (h : Near j s t) (hk : j ≤ k) : Near k s t :=
  ⟨h.sim, h.up.trans (mul_le_mul_of_nonneg_left (gPow_mono hk) h.sim.2.1), h.down.trans (mul_le_mul_of_nonneg_left (gPow_mono hk) h.sim.1)⟩

theorem fl_le_g {x : Rat} (h : 0 ≤ x) : fl x ≤ x * gRound :=
  (fl_upper h).trans (mul_le_mul_of_nonneg_left (by unfold gRound; norm_num) h)

theorem le_fl_g {x : Rat} (h : 0 ≤ x) : x ≤ fl x * gRound := by
  have h1 := mul_le_mul_of_nonneg_right (fl_lower h) gRound_pos.le
  refine le_trans ?_ h1
  rw [mul_assoc]
  exact le_mul_of_one_le_right h (by unfold gRound; norm_num)

/-- The exact result `v` of an operation on doubles, then rounded. -/
theorem Near.round {k : Nat} {s v : Rat} (h0 : SSim s (toDbl v)) (hv : 0 ≤ v) (h1 : s ≤ v * gRound ^ k) (h2 : v ≤ s * gRound ^ k) :
    Near (k + 1) s (toDbl v) := by
  refine ⟨h0, ?_, ?_⟩
  · refine h1.trans ?_
    rw [pow_succ', ← mul_assoc]
    exact mul_le_mul_of_nonneg_right (le_fl_g hv) (gPow_pos k).le
  · refine (fl_le_g hv).trans ?_
    rw [pow_succ, ← mul_assoc]
    exact mul_le_mul_of_nonneg_right h2 gRound_pos.le

theorem Near.pos {x : Rat} (h : 0 < x) : Near 1 x (toDbl x) :=
  Near.round (k := 0) (SSim.pos h) h.le (by simp) (by simp)

theorem Near.ofNat {n : Nat} (h : n ≤ 2 ^ 53) : Near 0 (Score.ofNat n : Rat) (Score.ofNat n : Dbl) := by
  have e : fl (n : Rat) = n := fl_natCast n h
  refine ⟨SSim.ofNat n, ?_, ?_⟩
  · show (n : Rat) ≤ fl n * _; rw [e]; simp
  · show fl (n : Rat) ≤ n * _; rw [e]; simp

theorem Near.one : Near 0 (Score.one : Rat) (Score.one : Dbl) := by
  refine ⟨SSim.one, ?_, ?_⟩
  · show (1 : Rat) ≤ fl 1 * _; rw [fl_one]; simp
  · show fl 1 ≤ (1 : Rat) * _; rw [fl_one]; simp

theorem Near.zero : Near 0 (Score.zero : Rat) (Score.zero : Dbl) := by
  refine ⟨SSim.zero, ?_, ?_⟩
  · show (0 : Rat) ≤ fl 0 * _; rw [fl_zero]; simp
  · show fl 0 ≤ (0 : Rat) * _; rw [fl_zero]; simp

theorem Near.mul {j k : Nat} {a b : Rat} {x y : Dbl} (h1 : Near j a x) (h2 : Near k b y) :
    Near (j + k + 1) (Score.mul a b) (Score.mul x y) := by
  refine Near.round (h1.sim.mul h2.sim) (mul_nonneg h1.sim.2.1 h2.sim.2.1) ?_ ?_
  · have := mul_le_mul h1.up h2.up h2.sim.1 (mul_nonneg h1.sim.2.1 (gPow_pos j).le)
    rw [pow_add]
    refine le_trans this (le_of_eq ?_)
    ring
  · have := mul_le_mul h1.down h2.down h2.sim.2.1 (mul_nonneg h1.sim.1 (gPow_pos j).le)
    rw [pow_add]
    refine le_trans this (le_of_eq ?_)
    show _ = a * b * _
    ring

theorem Near.add {j k : Nat} {a b : Rat} {x y : Dbl} (h1 : Near j a x) (h2 : Near k b y) :
    Near (max j k + 1) (Score.add a b) (Score.add x y) := by
  have h1' := h1.mono (le_max_left j k)
  have h2' := h2.mono (le_max_right j k)
  refine Near.round (h1.sim.add h2.sim) (add_nonneg h1.sim.2.1 h2.sim.2.1) ?_ ?_
  · show a + b ≤ _
    rw [add_mul]; exact add_le_add h1'.up h2'.up
  · show _ ≤ (a + b) * _
    rw [add_mul]; exact add_le_add h1'.down h2'.down

theorem Near.div {j k : Nat} {a b : Rat} {x y : Dbl} (h1 : Near j a x) (h2 : Near k b y) :
    Near (j + k + 1) (Score.div a b) (Score.div x y) := by
  have key : ∀ {a b c d p q : Rat}, 0 ≤ c → 0 ≤ b → 0 ≤ d → 0 ≤ p → (b = 0 ↔ d = 0) → a ≤ c * p → d ≤ b * q → a / b ≤ c / d * (p * q) := by
    intro a b c d p q hc hb hd hp hz h1 h2
    rcases eq_or_lt_of_le hb with rfl | hb
    · rw [hz.1 rfl]; simp
    · have hd : 0 < d := lt_of_le_of_ne hd fun h => hb.ne' (hz.2 h.symm)
      rw [div_mul_eq_mul_div, div_le_div_iff₀ hb hd]
      have e1 := mul_le_mul h1 h2 hd.le (mul_nonneg hc hp)
      refine e1.trans (le_of_eq ?_)
      ring
  refine Near.round (h1.sim.div h2.sim) (div_nonneg h1.sim.2.1 h2.sim.2.1) ?_ ?_
  · rw [pow_add]
    exact key h1.sim.2.1 h2.sim.1 h2.sim.2.1 (gPow_pos j).le h2.sim.2.2 h1.up h2.down
  · rw [pow_add]
    exact key h1.sim.1 h2.sim.2.1 h2.sim.1 (gPow_pos j).le h2.sim.2.2.symm h1.down h2.up

theorem Near.sumS {k : Nat} {xs : List Rat} {ys : List Dbl} (h : List.Forall₂ (Near k) xs ys) :
    Near (k + xs.length) (sumS xs) (sumS ys) := by
  unfold Verif.sumS
  have : ∀ (j : Nat) (a : Rat) (b : Dbl), k ≤ j → Near j a b → Near (j + xs.length) (xs.foldl Score.add a) (ys.foldl Score.add b) := by
    induction h with
    | nil => intro j a b _ h; exact h
    | cons h _ ih =>
      intro j a b hj hab
      have := ih (j + 1) _ _ (by omega) ((hab.add h).mono (by rw [max_eq_left hj]))
      simp only [List.foldl_cons, List.length_cons]
      exact this.mono (by omega)
  exact this k _ _ le_rfl (Near.zero.mono (by omega))

/-- Parses with the same analysis and nearby scores. -/
structure PNear (k : Nat) (a : Parse Rat) (b : Parse Dbl) : Prop where
  word : a.word = b.word
  tag : a.tag = b.tag
  nf : a.nf = b.nf
  stack : a.stack = b.stack
  score : Near k a.score b.score

theorem PNear.psim {k : Nat} {a : Parse Rat} {b : Parse Dbl} (h : PNear k a b) : PSim a b :=
  ⟨h.word, h.tag, h.nf, h.stack, h.score.sim⟩

theorem PNear.mono {j k : Nat} {a : Parse Rat} {b : Parse Dbl} (h : PNear j a b) (hk : j ≤ k) : PNear k a b :=
  ⟨h.word, h.tag, h.nf, h.stack, h.score.mono hk⟩

theorem near_mono {j k : Nat} {l : List (Parse Rat)} {l' : List (Parse Dbl)} (h : List.Forall₂ (PNear j) l l') (hk : j ≤ k) :
    List.Forall₂ (PNear k) l l' := h.imp fun _ _ h => h.mono hk

theorem addParses_near {k : Nat} {ps : List (Parse Rat)} {qs : List (Parse Dbl)} (h : List.Forall₂ (PNear k) ps qs) (seen : Seen) :
    List.Forall₂ (PNear k) (addParses ps seen).1 (addParses qs seen).1 ∧ (addParses ps seen).2 = (addParses qs seen).2 := by
  induction h generalizing seen with
  | nil => exact ⟨.nil, rfl⟩
  | cons h _ ih =>
    simp only [addParses, h.psim.key]
    split
    · exact ih seen
    · exact ⟨.cons h (ih _).1, (ih _).2⟩

theorem prob_near (dawg : List (Str × Nat)) (w : Str) (t : Tag) (hd : ∀ e ∈ dawg, e.2 < 2 ^ 50) :
    Near 1 (prob dawg w t : Rat) (prob dawg w t : Dbl) := by
  refine (Near.ofNat (n := (dictGet (probKey w t) dawg).getD 0) ?_).div (Near.ofNat (n := 1000000) (by norm_num))
  cases hg : dictGet (probKey w t) dawg with
  | none => simp
  | some v => exact le_trans (hd _ (dictGet_mem _ _ _ hg)).le (by norm_num)

theorem applyToParses_near (dawg : List (Str × Nat)) (hd : ∀ e ∈ dawg, e.2 < 2 ^ 50) (wl : Str) {k N : Nat} {ps : List (Parse Rat)}
    {qs : List (Parse Dbl)} (h : List.Forall₂ (PNear k) ps qs)
    (hlen : ∀ out, applyToParses dawg wl ps = .ok out → out.length ≤ N) :
    ERel (List.Forall₂ (PNear (2 * k + N + 2))) (applyToParses dawg wl ps) (applyToParses dawg wl qs) := by
  unfold applyToParses at hlen ⊢
  by_cases he : ps = []
  · rw [if_pos he, if_pos ((forall₂_nil_iff h).1 he)]; exact .ok .nil
  · rw [if_neg he] at hlen
    rw [if_neg he, if_neg (fun h' => he ((forall₂_nil_iff h).2 h'))]
    dsimp only at hlen ⊢
    have hz := (SSim.sumS (forall₂_map₂ h (fun p => (prob dawg wl p.tag : Rat)) (fun p => (prob dawg wl p.tag : Dbl))
      (fun a b hab => by rw [hab.tag]; exact prob_sim dawg wl _))).isZero
    have ht := Near.sumS (forall₂_map₂ h Parse.score Parse.score (fun a b hab => hab.score))
    rw [← hz]
    split at hlen
    · next hz0 =>
      rw [if_pos hz0, if_pos hz0, ← ht.sim.isZero]
      split at hlen
      · next hz1 => rw [if_pos hz1, if_pos hz1]; exact .err _
      · next hz1 =>
        rw [if_neg hz1, if_neg hz1]
        have hl := hlen _ rfl
        simp only [List.length_map] at hl ht
        refine .ok (forall₂_map₂ h _ _ fun a b hab => ?_)
        refine ⟨hab.word, hab.tag, hab.nf, hab.stack, ?_⟩
        exact (hab.score.mul (Near.one.div ht)).mono (by omega)
    · next hz0 =>
      rw [if_neg hz0, if_neg hz0]
      refine .ok ?_
      have hs := forall₂_insertionSort (R := fun (a : Parse Rat) (b : Parse Dbl) =>
          PNear 1 a b ∧ ∃ v : Nat, v < 2 ^ 50 ∧ a.score = (v : Rat) / (1000000 : Nat) ∧ b.score.val = fl ((v : Rat) / (1000000 : Nat)))
        (r := fun a b : Parse Rat => Score.le b.score a.score = true)
        (s := fun a b : Parse Dbl => Score.le b.score a.score = true) (by
          rintro a b a' b' ⟨_, v, hv, e1, e2⟩ ⟨_, v', hv', e1', e2'⟩
          simp only [Score.le, e1, e2, e1', e2', decide_eq_true_eq]
          exact prob_le_iff hv' hv)
        (forall₂_map₂ h (fun p => { p with score := (prob dawg wl p.tag : Rat) }) (fun p => { p with score := (prob dawg wl p.tag : Dbl) })
          (fun a b hab => by
            obtain ⟨v, hv, _, e1, e2⟩ := prob_val dawg wl b.tag hd
            refine ⟨⟨hab.word, hab.tag, hab.nf, hab.stack, ?_⟩, v, hv, ?_, e2⟩
            · dsimp only; rw [hab.tag]; exact prob_near dawg wl _ hd
            · dsimp only; rw [hab.tag]; exact e1))
      exact hs.imp fun _ _ h => h.1.mono (by omega)

/-! ### Units -/

theorem dictParse_near (m : Morph Rat) (u : UObj) (wl : Str) :
    ERel (List.Forall₂ (PNear 0)) (dictParse m u wl) (dictParse m.toDbl u wl) := by
  unfold dictParse
  refine ERel.mapE (forall₂_same _) ?_
  rintro a _ _ rfl
  unfold dictParse1
  refine ERel.bind_same fun nf => ERel.bind_same fun tag => .ok ?_
  exact ⟨rfl, rfl, rfl, rfl, Near.one⟩

theorem suffixParse_near (m : Morph Rat) (hs : m.dict.SmallCounts m.sub) (u : BUnit Rat) (mult : Rat) (hm : 0 < mult) (minLen : Nat)
    (word wl : Str) (seen : Seen) :
    ERel (fun r s => List.Forall₂ (PNear 3) r.1 s.1 ∧ r.2 = s.2) (suffixParse m u mult minLen word wl seen)
      (suffixParse m.toDbl (u.mapS toDbl) (toDbl mult) minLen word wl seen) := by
  unfold suffixParse
  split
  · exact .ok ⟨.nil, rfl⟩
  · show ERel _ (sfxPrefixLoop m.dict m.sub wl (sfxPrefixes m.dict wl) seen >>= _)
      (sfxPrefixLoop m.dict m.sub wl (sfxPrefixes m.dict wl) seen >>= _)
    cases hr : sfxPrefixLoop m.dict m.sub wl (sfxPrefixes m.dict wl) seen with
    | error e => exact .err e
    | ok r =>
      refine ERel.bind (R := List.Forall₂ (fun p q => SfxSim mult (fl mult) p q ∧ PNear 3 p q)) (ERel.mapE (forall₂_same r.1) ?_) ?_
      · rintro ⟨c, n⟩ _ hc rfl
        have h1 := sfxPrefixLoop_cnt _ _ _ _ _ _ hr _ hc
        have h2 := sfxPrefixLoop_small _ _ hs _ _ _ _ hr _ hc
        dsimp only at h1 h2
        unfold sfxBuild
        have hn : Near 3 (Score.mul (Score.div (Score.ofNat c.cnt) (Score.ofNat n)) mult : Rat)
            (Score.mul (Score.div (Score.ofNat c.cnt) (Score.ofNat n)) (toDbl mult) : Dbl) :=
          ((Near.ofNat (by omega)).div (Near.ofNat (by omega))).mul (Near.pos hm)
        refine ERel.bind_same fun nf => .ok ⟨⟨⟨rfl, rfl, rfl, ?_, hn.sim⟩, c.cnt, n, by omega, h1.1, h2, rfl, ?_⟩, ⟨rfl, rfl, rfl, ?_, hn⟩⟩
        · dsimp only
          rw [mapS_inner, mapS_obj]
        · show fl (fl (fl (c.cnt : Rat) / fl (n : Rat)) * fl mult) = _
          rw [fl_natCast _ (by omega), fl_natCast _ (by omega)]
        · dsimp only
          rw [mapS_inner, mapS_obj]
      · intro ps qs hpq
        refine .ok ⟨?_, rfl⟩
        have h := forall₂_insertionSort (R := fun p q => SfxSim mult (fl mult) p q ∧ PNear 3 p q)
          (r := fun a b : Parse Rat => Score.le b.score a.score = true)
          (s := fun a b : Parse Dbl => Score.le b.score a.score = true) (by
            rintro a b a' b' ⟨⟨_, c, n, h1, h2, h3, e1, e2⟩, _⟩ ⟨⟨_, c', n', h1', h2', h3', e1', e2'⟩, _⟩
            simp only [Score.le, e1, e2, e1', e2', decide_eq_true_eq]
            exact frac_le_iff h1' h1 h2' h2 h3' h3 hm (fl_pos hm)) hpq
        exact h.imp fun _ _ h => h.2

/-- The nested calls of the two analyzers agree, up to `k` roundings. -/
def RecNear (k : Nat) (r : Rec Rat) (s : Rec Dbl) : Prop :=
  (∀ w, ERel (List.Forall₂ (PNear k)) (r.parse w) (s.parse w)) ∧ ∀ w, r.tag w = s.tag w

theorem RecNear.sim {k : Nat} {r : Rec Rat} {s : Rec Dbl} (h : RecNear k r s) : RecSim r s :=
  ⟨fun w => (h.1 w).imp fun _ _ h => h.imp fun _ _ h => h.psim, h.2⟩

theorem near_mult {k : Nat} {s a : Rat} {t : Dbl} (h : Near k s t) (ha : 0 < a) : Near (k + 2) (Score.mul s a) (Score.mul t (toDbl a)) :=
  (h.mul (Near.pos ha)).mono (by omega)

theorem parseBoth_near {k : Nat} (u : UObj) (a : Rat) (ha : 0 < a) {l r : List (Parse Rat)} {l' r' : List (Parse Dbl)}
    (hl : List.Forall₂ (PNear k) l l') (hr : List.Forall₂ (PNear k) r r') :
    List.Forall₂ (PNear (k + 2)) (parseBoth u a l r) (parseBoth u (toDbl a) l' r') := by
  unfold parseBoth
  rw [List.flatMap_def, List.flatMap_def]
  apply forall₂_flatten
  refine forall₂_map₂ hl _ _ fun x y hxy => ?_
  rw [hxy.tag]
  split
  · exact .nil
  · refine forall₂_map₂ (forall₂_filter hr _ _ fun p q hpq => by rw [hpq.tag]) _ _ fun p q hpq => ?_
    refine ⟨?_, rfl, ?_, ?_, near_mult hxy.score ha⟩ <;> dsimp only
    · rw [hxy.word, hpq.word]
    · rw [hxy.nf, hpq.nf]
    · rw [hxy.stack, hpq.stack]

theorem parseFixed_near {k : Nat} (u : UObj) (a : Rat) (ha : 0 < a) (left : Str) {r : List (Parse Rat)} {r' : List (Parse Dbl)}
    (hr : List.Forall₂ (PNear k) r r') : List.Forall₂ (PNear (k + 2)) (parseFixed u a left r) (parseFixed u (toDbl a) left r') := by
  unfold parseFixed
  refine forall₂_map₂ (forall₂_filter hr _ _ fun p q hpq => by rw [hpq.tag]) _ _ fun p q hpq => ?_
  refine ⟨?_, hpq.tag, ?_, ?_, near_mult hpq.score ha⟩ <;> dsimp only
  · rw [hpq.word]
  · rw [hpq.nf]
  · rw [hpq.stack]

theorem hyphenParse_near {k : Nat} {r : Rec Rat} {s : Rec Dbl} (h : RecNear k r s) (u : UObj) (skip : List Str) (a : Rat) (ha : 0 < a)
    (wl : Str) : ERel (List.Forall₂ (PNear (k + 2))) (hyphenParse r u skip a wl) (hyphenParse s u skip (toDbl a) wl) := by
  unfold hyphenParse
  split
  · refine ERel.bind (h.1 _) fun lp lq hl => ERel.bind (h.1 _) fun rp rq hr => .ok ?_
    exact forall₂_append' (parseBoth_near u a ha hl hr) (parseFixed_near u a ha _ hr)
  · exact .ok .nil

theorem prefixCands_near {k : Nat} (u : UObj) (a : Rat) (ha : 0 < a) (f : Str → Except PyErr (List (Parse Rat)))
    (g : Str → Except PyErr (List (Parse Dbl))) (h : ∀ w, ERel (List.Forall₂ (PNear k)) (f w) (g w)) (sp : List (Str × Str)) :
    ERel (List.Forall₂ (PNear (k + 2))) (prefixCands u a f sp) (prefixCands u (toDbl a) g sp) := by
  unfold prefixCands
  refine ERel.bind (R := List.Forall₂ (List.Forall₂ (PNear (k + 2)))) (ERel.mapE (forall₂_same sp) ?_) fun x y hxy => .ok (forall₂_flatten hxy)
  rintro s _ _ rfl
  refine ERel.bind (h _) fun x y hxy => .ok ?_
  unfold prefixDeco
  refine forall₂_map₂ (forall₂_filter hxy _ _ fun p q hpq => by rw [hpq.tag]) _ _ fun p q hpq => ?_
  refine ⟨?_, hpq.tag, ?_, ?_, near_mult hpq.score ha⟩ <;> dsimp only
  · rw [hpq.word]
  · rw [hpq.nf]
  · rw [hpq.stack]

theorem unitParse_near (m : Morph Rat) (hs : m.dict.SmallCounts m.sub) {k : Nat} (hk : 1 ≤ k) {r : Rec Rat} {s : Rec Dbl} (h : RecNear k r s)
    (u : BUnit Rat) (hu : u.cfg.posScores) (word wl : Str) (seen : Seen) :
    ERel (fun x y => List.Forall₂ (PNear (k + 2)) x.1 y.1 ∧ x.2 = y.2) (unitParse m r u word wl seen)
      (unitParse m.toDbl s (u.mapS toDbl) word wl seen) := by
  obtain ⟨id, cfg⟩ := u
  have hobj := mapS_obj toDbl (⟨id, cfg⟩ : BUnit Rat)
  have hshape := mapS_shapeTag toDbl m.env cfg word
  cases cfg <;> simp only [unitParse, BUnit.mapS, UnitCfg.mapS] at hobj hshape ⊢
  case dictionary =>
    rw [hobj]
    exact ERel.bind (dictParse_near m _ wl) fun a b hab => .ok ⟨near_mono hab (by omega), rfl⟩
  case firstName l a b sc =>
    rw [hobj]
    refine .ok ⟨?_, rfl⟩
    unfold initialsParse
    split
    · exact forall₂_map₂ (forall₂_same _) _ _ fun x y hxy => ⟨rfl, hxy, rfl, rfl, (Near.pos hu).mono (by omega)⟩
    · exact .nil
  case patronymic l a sc =>
    rw [hobj]
    refine .ok ⟨?_, rfl⟩
    unfold initialsParse
    split
    · exact forall₂_map₂ (forall₂_same _) _ _ fun x y hxy => ⟨rfl, hxy, rfl, rfl, (Near.pos hu).mono (by omega)⟩
    · exact .nil
  case number | punct | latin | roman =>
    rw [hobj]
    show ERel _ _ (shapeTag m.env _ word >>= _)
    rw [hshape]
    refine ERel.bind_same fun t => .ok ⟨?_, rfl⟩
    cases t with
    | none => exact .nil
    | some t => exact .cons ⟨rfl, rfl, rfl, rfl, (Near.pos hu).mono (by omega)⟩ .nil
  case particle ps mult =>
    rw [hobj]
    split
    · exact .ok ⟨.nil, rfl⟩
    · refine ERel.bind (h.1 _) fun a b hab => .ok (addParses_near ?_ seen)
      refine forall₂_map₂ hab _ _ fun p q hpq => ?_
      unfold particleDeco
      refine ⟨?_, hpq.tag, ?_, ?_, near_mult hpq.score hu⟩ <;> dsimp only
      · rw [hpq.word]
      · rw [hpq.nf]
      · rw [hpq.stack]
  case adverb t mult =>
    rw [hobj, ← adverbShould_sim m h.sim]
    refine ERel.bind_same fun b => .ok ?_
    cases b
    · exact ⟨.nil, rfl⟩
    · exact ⟨.cons ⟨rfl, rfl, rfl, rfl, (Near.pos hu).mono (by omega)⟩ .nil, rfl⟩
  case hyphenated skip mult =>
    rw [hobj]
    exact ERel.bind (hyphenParse_near h _ _ _ hu wl) fun a b hab => .ok ⟨hab, rfl⟩
  case knownPrefix ps mult k =>
    rw [hobj]
    exact ERel.bind (prefixCands_near _ _ hu _ _ h.1 _) fun a b hab => .ok (addParses_near hab seen)
  case unknownPrefix mult =>
    rw [hobj]
    exact ERel.bind (prefixCands_near _ _ hu _ _ (dictParse_near m _) _) fun a b hab => .ok (addParses_near (near_mono hab (by omega)) seen)
  case knownSuffix mult k =>
    exact (suffixParse_near m hs _ mult hu k word wl seen).imp fun _ _ h => ⟨near_mono h.1 (by omega), h.2⟩
  case unkn t =>
    rw [hobj]
    refine .ok ⟨?_, rfl⟩
    dsimp only
    split
    · exact .cons ⟨rfl, rfl, rfl, rfl, Near.one.mono (by omega)⟩ .nil
    · exact .nil

theorem runParse_near (m : Morph Rat) (hs : m.dict.SmallCounts m.sub) {k : Nat} (hk : 1 ≤ k) {r : Rec Rat} {s : Rec Dbl} (h : RecNear k r s)
    (word wl : Str) (us : List (BUnit Rat × Bool)) (hu : ∀ u ∈ us, u.1.cfg.posScores) (seen : Seen) (res : List (Parse Rat))
    (res' : List (Parse Dbl)) (hres : List.Forall₂ (PNear (k + 2)) res res') :
    ERel (List.Forall₂ (PNear (k + 2))) (runParse m r word wl us seen res)
      (runParse m.toDbl s word wl (us.map fun u => (u.1.mapS toDbl, u.2)) seen res') := by
  induction us generalizing seen res res' with
  | nil => exact .ok hres
  | cons u us ih =>
    obtain ⟨u, t⟩ := u
    simp only [List.map_cons, runParse]
    refine ERel.bind (unitParse_near m hs hk h u (hu (u, t) (by simp)) word wl seen) fun x y hxy => ?_
    have ha := forall₂_append' hres hxy.1
    by_cases hc : t = true ∧ res ++ x.1 ≠ []
    · rw [if_pos hc, if_pos ⟨hc.1, fun he => hc.2 ((forall₂_nil_iff ha).2 he)⟩]
      exact .ok ha
    · rw [if_neg hc, if_neg (fun hc' => hc ⟨hc'.1, fun he => hc'.2 ((forall₂_nil_iff ha).1 he)⟩), hxy.2]
      exact ih (fun u hu' => hu u (by simp [hu'])) _ _ _ ha

theorem toDbl_proper {m : Morph Rat} (h : ∀ u ∈ m.units, u.1.cfg.properPrefixes) : ∀ u ∈ m.toDbl.units, u.1.cfg.properPrefixes := by
  rintro u hu
  obtain ⟨⟨⟨i, c⟩, t⟩, hv, rfl⟩ := List.mem_map.1 hu
  have := h _ hv
  revert this
  cases c <;> exact id

/-- The roundings behind a score: `N` is the largest number of analyses of a piece of the word. -/
def roundings (est : Bool) (N : Nat) : Nat → Nat
  | 0 => 3
  | n + 1 => if est then 2 * (roundings est N n + 2) + N + 2 else roundings est N n + 2

theorem roundings_ge (est : Bool) (N n : Nat) : 3 ≤ roundings est N n := by
  induction n with
  | zero => exact le_rfl
  | succ n ih => unfold roundings; split <;> omega

theorem parse_near (m : Morph Rat) (h : Roundable m) (hlow : m.env.LowerStable) (hp : ∀ u ∈ m.units, u.1.cfg.properPrefixes) (N n : Nat)
    (w : Str) (hn : (m.env.lower w).length < n)
    (few : m.est ≠ none → ∀ x, x = w ∨ x <:+: m.env.lower w → ∀ ps, m.parse x = .ok ps → ps.length ≤ N) :
    ERel (List.Forall₂ (PNear (roundings m.est.isSome N n))) (m.parse w) (m.toDbl.parse w) := by
  induction n generalizing w with
  | zero => omega
  | succ n ih =>
  obtain ⟨e1, -⟩ := parse_unfold m hlow hp w
  obtain ⟨f1, -⟩ := parse_unfold m.toDbl hlow (toDbl_proper hp) w
  obtain ⟨c1, -⟩ := step_congr m hp ⟨m.parse, m.tag⟩ _ w (Rec.cut_agree _ _)
  obtain ⟨d1, -⟩ := step_congr m.toDbl (toDbl_proper hp) ⟨m.toDbl.parse, m.toDbl.tag⟩ _ w (Rec.cut_agree _ _)
  have hrec : RecNear (roundings m.est.isSome N n) (Rec.cut (m.env.lower w) ⟨m.parse, m.tag⟩)
      (Rec.cut (m.toDbl.env.lower w) ⟨m.toDbl.parse, m.toDbl.tag⟩) := by
    constructor
    · intro x
      simp only [Rec.cut]
      show ERel _ _ (if x <:+: m.env.lower w ∧ x.length < (m.env.lower w).length then m.toDbl.parse x else _)
      split
      · next hc =>
        have e : m.env.lower x = x := hlow w x hc.1
        refine ih x (by rw [e]; omega) ?_
        intro he y hy
        refine few he y (.inr ?_)
        rw [e] at hy
        rcases hy with rfl | hy
        · exact hc.1
        · exact hy.trans hc.1
      · exact .err _
    · intro x
      simp only [Rec.cut]
      show _ = (if x <:+: m.env.lower w ∧ x.length < (m.env.lower w).length then m.toDbl.tag x else _)
      split
      · exact tag_sim m h x
      · rfl
  have hfew := fun he => few he w (.inl rfl)
  rw [e1, c1] at hfew ⊢
  rw [f1, d1]
  unfold parseStep at hfew ⊢
  have h3 := roundings_ge m.est.isSome N n
  have hrun := runParse_near m h.counts (by omega) hrec w (m.env.lower w) m.units h.pos [] [] [] .nil
  change ERel _ (runParse m _ w (m.env.lower w) m.units [] [] >>= _)
    (runParse m.toDbl _ w (m.env.lower w) (m.units.map fun u => (u.1.mapS toDbl, u.2)) [] [] >>= _)
  dsimp only at hfew
  generalize runParse m _ w (m.env.lower w) m.units [] [] = x at hrun hfew ⊢
  generalize runParse m.toDbl _ w (m.env.lower w) _ [] [] = y at hrun ⊢
  cases hrun with
  | err e => exact .err e
  | ok hxy =>
    rename_i ps qs
    rw [ok_bind] at hfew
    rw [ok_bind, ok_bind]
    show ERel _ _ (match m.est with | some dawg => applyToParses dawg (m.env.lower w) qs | none => pure qs)
    cases he : m.est with
    | none =>
      rw [he] at hxy
      exact .ok (near_mono hxy (by simp [roundings]))
    | some dawg =>
      rw [he] at hfew hxy
      have := applyToParses_near dawg (h.data dawg he) (m.env.lower w) hxy (hfew (by simp))
      exact this.imp fun _ _ h => near_mono h (by simp [roundings])

end Verif
