/-
C100: the exponent range of floats.  Scores computed in IEEE binary64 arithmetic, with underflow and overflow, are the scores of C73.
-/
import Verif.Lemmas.Binary64Sim
import Verif.Props.C80
import Verif.Props.C78

set_option linter.unusedSectionVars false

namespace Verif

/-! ### The same constructor call -/

/-- `d` and `b` are what `MorphAnalyzer(lang='ru')` (or `'uk'`) makes of the same files, with doubles of unbounded exponent and with
binary64 scores. -/
def SameCall64 (d : Morph Dbl) (b : Morph B64) : Prop :=
  ∃ env dict cls sub est,
    (mkMorph env dict cls sub ruUnits est = .ok d ∧ mkMorph env dict cls sub ruUnits est = .ok b) ∨
    (mkMorph env dict cls sub ukUnits est = .ok d ∧ mkMorph env dict cls sub ukUnits est = .ok b)

theorem dec_b64 (a b : Nat) (ha : a ≤ b) (hb : b ≤ 100) (hb' : 1 ≤ b) : (dec a b : B64) = (dec a b : Dbl).b64 :=
  (BRel.quot (k := 7) ha hb' (le_trans hb (by norm_num)) (by norm_num)).eq

theorem ruUnits_toB64 : (ruUnits (S := B64)) = (ruUnits (S := Dbl)).map fun g => g.map fun s => s.mapS Dbl.b64 := by
  simp [ruUnits, UnitSpec.mapS, dec_b64]

theorem ukUnits_toB64 : (ukUnits (S := B64)) = (ukUnits (S := Dbl)).map fun g => g.map fun s => s.mapS Dbl.b64 := by
  simp [ukUnits, UnitSpec.mapS, dec_b64]

theorem mkMorph_toB64 {env : Env} {dict : Dict} {cls : TagCls} {sub : Subst} {items : List (List (UnitSpec Dbl))}
    {est : Option (List (Str × Nat))} {m : Morph Dbl} (h : mkMorph env dict cls sub items est = .ok m) :
    mkMorph env dict cls sub (items.map fun g => g.map fun s => s.mapS Dbl.b64) est = .ok m.toB64 := by
  unfold mkMorph at h ⊢
  rw [initUnits_mapS]
  cases hr : initUnits items cls with
  | error e => rw [hr] at h; simp at h
  | ok r =>
    rw [hr, ok_bind] at h
    simp only [pure_eq_ok, Except.ok.injEq] at h
    subst h
    rfl

theorem SameCall64.eq {d : Morph Dbl} {b : Morph B64} (h : SameCall64 d b) : b = d.toB64 := by
  obtain ⟨env, dict, cls, sub, est, ⟨h1, h2⟩ | ⟨h1, h2⟩⟩ := h
  · have := mkMorph_toB64 h1
    rw [← ruUnits_toB64, h2] at this
    simpa using this
  · have := mkMorph_toB64 h1
    rw [← ukUnits_toB64, h2] at this
    simpa using this

theorem SameCall64.default {d : Morph Dbl} {b : Morph B64} (h : SameCall64 d b) : IsRu d ∨ IsUk d := by
  obtain ⟨env, dict, cls, sub, est, ⟨h1, _⟩ | ⟨h1, _⟩⟩ := h
  · obtain ⟨rfl, rfl, rfl, rfl, _⟩ := mkMorph_units h1
    exact .inl ⟨cls, h1⟩
  · obtain ⟨rfl, rfl, rfl, rfl, _⟩ := mkMorph_units h1
    exact .inr ⟨cls, h1⟩

theorem SameCall64.exists (d : Morph Dbl) (hd : IsRu d ∨ IsUk d) : SameCall64 d d.toB64 := by
  rcases hd with ⟨cls, h⟩ | ⟨cls, h⟩
  · exact ⟨_, _, cls, _, _, .inl ⟨h, by rw [ruUnits_toB64]; exact mkMorph_toB64 h⟩⟩
  · exact ⟨_, _, cls, _, _, .inr ⟨h, by rw [ukUnits_toB64]; exact mkMorph_toB64 h⟩⟩

theorem dec_rel {a b k : Nat} (ha : a ≤ b) (hb : b ≤ 100) (hb' : 1 ≤ b) (hlow : b ≤ a * 2 ^ k) : BRel k (dec a b : Dbl) (dec a b : Dbl).b64 := by
  have h := BRel.quot (k := 7) ha hb' (le_trans hb (by norm_num)) (by norm_num)
  refine ⟨rfl, h.nonneg, .inr ?_, h.up⟩
  show _ ≤ fl (fl (a : Rat) / fl (b : Rat))
  rw [fl_natCast _ (by omega), fl_natCast _ (by omega), ← fl_pow]
  apply fl_mono
  have hb0 : (0 : Rat) < b := by exact_mod_cast hb'
  rw [le_div_iff₀ hb0, zpow_neg, zpow_natCast, inv_mul_le_iff₀ (by positivity), mul_comm]
  exact_mod_cast hlow

theorem default_inRange (m : Morph Dbl) (hm : IsRu m ∨ IsUk m) : ∀ u ∈ m.units, u.1.cfg.inRange := by
  rintro ⟨u, t⟩ hu
  rcases hm with ⟨cls, hm⟩ | ⟨cls, hm⟩
  all_goals
    obtain ⟨_, _, _, _, hgr⟩ := mkMorph_units hm
    obtain ⟨g, hg, hug⟩ := (mem_of_isGroups hgr u).1 ⟨t, hu⟩
    obtain ⟨g', hg', sp, hsp, he⟩ := mem_boundGroups _ _ g hg u hug
    dsimp only
    rw [he]
    clear he
    revert hsp
    revert sp hg' g'
  · simp [ruUnits, UnitSpec.bound, UnitCfg.inRange, dec_rel]
  · simp [ukUnits, UnitSpec.bound, UnitCfg.inRange, dec_rel]

/-! ### C100 -/

/-- What `parse` is asked to do stays moderate.  Without P(t|w) data: the word has at most 996 letters.  With it: neither the word nor
any part of it has more than `2 ^ j` analyses, and the word is not too long for that `j`. -/
def Moderate (m : Morph Dbl) (w : Str) : Prop :=
  (m.est = none ∧ (m.env.lower w).length ≤ 996) ∨
  ∃ j ≤ 53, (j + 1) * ((m.env.lower w).length + 1) ≤ 997 ∧
    ∀ x, x = w ∨ x <:+: m.env.lower w → ∀ ps, m.parse x = .ok ps → ps.length ≤ 2 ^ j

theorem rel_of_moderate (d : Morph Dbl) (hd : IsRu d ∨ IsUk d) (hlow : d.env.LowerStable)
    (hc : d.dict.SmallCounts d.sub) (he : ∀ dawg, d.est = some dawg → ∀ e ∈ dawg, e.2 ≤ 1000000) (w : Str) (hw : Moderate d w) :
    ERel (List.Forall₂ (PRel 1022)) (d.parse w) (d.toB64.parse w) ∧ d.tag w = d.toB64.tag w := by
  have hI : InRange d := ⟨default_inRange d hd, default_properPrefixes d hd, hc, he, hlow⟩
  rcases hw with ⟨h1, h2⟩ | ⟨j, h1, h2, h3⟩
  · obtain ⟨r1, r2⟩ := parse_rel d hI 0 (by norm_num) _ w le_rfl (by omega) (fun hn => absurd h1 hn)
    exact ⟨r1.imp fun _ _ h => forall₂_mono h (by omega), r2⟩
  · obtain ⟨r1, r2⟩ := parse_rel d hI j h1 _ w le_rfl (by omega) (fun _ => h3)
    exact ⟨r1.imp fun _ _ h => forall₂_mono h (by omega), r2⟩

/-- **C100.** The exponent range of floats does not matter: for moderate words `parse` computes, in IEEE binary64 arithmetic with
underflow and overflow, exactly the analyses, the order and the scores of C73 (or raises the same exception); `tag` and
`normal_forms` answer the same. -/
theorem c100_same (d : Morph Dbl) (b : Morph B64) (h : SameCall64 d b) (hlow : d.env.LowerStable)
    (hc : d.dict.SmallCounts d.sub) (he : ∀ dawg, d.est = some dawg → ∀ e ∈ dawg, e.2 ≤ 1000000) (w : Str) (hw : Moderate d w) :
    (b.parse w).map (fun ps => ps.map fun p => (p.core, p.score)) =
      (d.parse w).map (fun ps => ps.map fun p => (p.core, B64.fin p.score.val)) ∧
    b.tag w = d.tag w ∧ b.normalForms w = d.normalForms w := by
  rw [h.eq]
  obtain ⟨hp, ht⟩ := rel_of_moderate d h.default hlow hc he w hw
  refine ⟨?_, ht.symm, ?_⟩
  · generalize d.parse w = x at hp ⊢
    generalize d.toB64.parse w = y at hp ⊢
    cases hp with
    | ok hab =>
      show Except.ok _ = Except.ok _
      refine congrArg _ (forall₂_map_eq hab _ _ fun p q h => ?_).symm
      rw [h.score.eq]
      simp only [Parse.core, h.word, h.tag, h.stack, h.nf]
    | err e => rfl
  · unfold Morph.normalForms
    generalize d.parse w = x at hp ⊢
    generalize d.toB64.parse w = y at hp ⊢
    cases hp with
    | ok hab =>
      show Except.ok _ = Except.ok _
      congr 1
      generalize ([] : List Str) = seen
      induction hab generalizing seen with
      | nil => rfl
      | cons h _ ih =>
        simp only [normalFormsLoop, h.nf]
        split
        · exact ih seen
        · rw [ih]
    | err e => rfl

/-- **C100.** No score is infinite, NaN or subnormal: each is 0 or a number from 2^-1022 to 1. -/
theorem c100_normal (d : Morph Dbl) (b : Morph B64) (h : SameCall64 d b) (hlow : d.env.LowerStable)
    (hc : d.dict.SmallCounts d.sub) (he : ∀ dawg, d.est = some dawg → ∀ e ∈ dawg, e.2 ≤ 1000000) (w : Str) (hw : Moderate d w)
    (ps : List (Parse B64)) (hps : b.parse w = .ok ps) (p : Parse B64) (hp : p ∈ ps) :
    ∃ v : Rat, p.score = .fin v ∧ (v = 0 ∨ (2 : Rat) ^ (-1022 : Int) ≤ v) ∧ v ≤ 1 := by
  rw [h.eq] at hps
  have hr := (rel_of_moderate d h.default hlow hc he w hw).1
  rw [hps] at hr
  generalize d.parse w = x at hr
  cases hr with
  | ok hab =>
    obtain ⟨q, _, hq⟩ := forall₂_mem_right hab hp
    exact ⟨_, hq.score.eq, hq.score.low, by simpa using hq.score.up⟩

/-- **C100.** Binary64 arithmetic answers every moderate word, every score is a positive number, and the analyses and their order are
those of exact arithmetic. -/
theorem c100_exact (m : Morph Rat) (d : Morph Dbl) (b : Morph B64) (h : SameCall m d) (h' : SameCall64 d b) (hh : Healthy m)
    (hc : m.dict.SmallCounts m.sub) (he : ∀ dawg, m.est = some dawg → ∀ e ∈ dawg, e.2 ≤ 1000000)
    (w : Str) (hw : Moderate d w) (hn : m.env.Named w) (hn' : m.env.Named (m.env.lower w)) :
    ∃ ps qs, m.parse w = .ok ps ∧ b.parse w = .ok qs ∧ qs ≠ [] ∧ qs.map Parse.core = ps.map Parse.core ∧
      (∀ q ∈ qs, ∃ v : Rat, q.score = .fin v ∧ 0 < v ∧ v ≤ 1) ∧ b.tag w = m.tag w := by
  have he' : ∀ dawg, m.est = some dawg → ∀ e ∈ dawg, e.2 < 2 ^ 50 := fun dawg hd e hm =>
    lt_of_le_of_lt (he dawg hd e hm) (by norm_num)
  obtain ⟨s1, s2, _⟩ := c73_same_analyses m d h hc he' w
  obtain ⟨⟨xs, t1, t2, t3⟩, _⟩ := c73_total m d h hh hc he' w hn hn'
  have hd : d = m.toDbl := h.eq
  have hlow : d.env.LowerStable := by rw [hd]; exact hh.low
  have hc' : d.dict.SmallCounts d.sub := by rw [hd]; exact hc
  have he'' : ∀ dawg, d.est = some dawg → ∀ e ∈ dawg, e.2 ≤ 1000000 := by rw [hd]; exact he
  obtain ⟨u1, u2⟩ := rel_of_moderate d h'.default hlow hc' he'' w hw
  rw [h'.eq]
  rw [t1] at u1 s1
  cases hm : m.parse w with
  | error e => rw [hm] at s1; simp [Except.map] at s1
  | ok ps =>
    rw [hm] at s1
    have s1 : xs.map Parse.core = ps.map Parse.core := by simpa [Except.map] using s1
    generalize hy : d.toB64.parse w = y at u1
    cases u1 with
    | ok hab =>
      rename_i qs
      refine ⟨ps, qs, rfl, rfl, fun hq => t2 ((forall₂_nil_iff hab).2 hq), ?_, ?_, by rw [← u2, s2]⟩
      · rw [← s1]
        exact (forall₂_map_eq hab _ _ fun p q h => by simp only [Parse.core, h.word, h.tag, h.stack, h.nf]).symm
      · intro q hq
        obtain ⟨p, hp, hpq⟩ := forall₂_mem_right hab hq
        exact ⟨_, hpq.score.eq, t3 p hp, by simpa using hpq.score.up⟩

/-! ### Inflection -/

theorem b64_key (a b : Nat) (ha : a < 2 ^ 40) (hb : b < 2 ^ 40) : Sim.b64.key a b = .fin (Sim.double.key a b : Dbl).val := by
  have hx : (2 : Nat) ^ 40 ≤ 2 ^ 53 := by norm_num
  have e1 : B64.round (a : Rat) = .fin (fl a) := (BRange.nat a 40 ha.le (by norm_num)).eq
  have e2 : B64.round (b : Rat) = .fin (fl b) := (BRange.nat b 40 hb.le (by norm_num)).eq
  have e3 : B64.round (1 / 10) = .fin (fl (1 / 10)) := by
    refine round_normal (.inr ?_) ?_ <;> rw [abs_of_pos (by norm_num)]
    · exact le_trans (zpow_le_zpow_right₀ (by norm_num) (by norm_num : (-1022 : Int) ≤ -4)) (by norm_num)
    · exact le_trans (by norm_num : (1 / 10 : Rat) ≤ 2 ^ (0 : Int)) (zpow_le_zpow_right₀ (by norm_num) (by norm_num))
  have hc : (2 : Rat) ^ (-4 : Int) ≤ fl (1 / 10) := by
    have := fl_mono (show (2 : Rat) ^ (-4 : Int) ≤ 1 / 10 by norm_num)
    rwa [fl_pow] at this
  have hc1 : fl (1 / 10) ≤ 1 := fl_le_one (by norm_num)
  rw [fl_natCast a (by omega)] at e1
  rw [fl_natCast b (by omega)] at e2
  show B64.add (B64.round a) (B64.neg (B64.mul (B64.round (1 / 10)) (B64.round b))) =
    .fin (fl (fl a - fl (fl (1 / 10) * fl b)))
  rw [e1, e2, e3, fl_natCast a (by omega), fl_natCast b (by omega)]
  have ha' : (a : Rat) ≤ 2 ^ 40 := by exact_mod_cast ha.le
  have hb' : (b : Rat) ≤ 2 ^ 40 := by exact_mod_cast hb.le
  generalize fl (1 / 10) = c at *
  have hc0 : 0 ≤ c := le_trans (two_zpow_pos _).le hc
  have e4 : B64.mul (.fin c) (.fin (b : Rat)) = .fin (fl (c * b)) := by
    have hcb : 0 ≤ c * (b : Rat) := mul_nonneg hc0 (by positivity)
    refine round_normal ?_ ?_
    · rcases Nat.eq_zero_or_pos b with rfl | hpos
      · left; simp
      · right
        rw [abs_of_nonneg hcb]
        have h1 : (1 : Rat) ≤ b := by exact_mod_cast hpos
        refine le_trans (zpow_le_zpow_right₀ (by norm_num) (by norm_num : (-1022 : Int) ≤ -4)) ?_
        refine hc.trans ?_
        exact le_mul_of_one_le_right hc0 h1
    · rw [abs_of_nonneg hcb]
      refine le_trans ?_ (zpow_le_zpow_right₀ (by norm_num) (by norm_num : (40 : Int) ≤ 1023))
      refine le_trans (mul_le_of_le_one_left (by positivity) hc1) ?_
      rw [show (40 : Int) = ((40 : Nat) : Int) from rfl, zpow_natCast]; exact hb'
  rw [e4]
  show B64.round (a + -fl (c * b)) = _
  rw [← sub_eq_add_neg]
  -- the difference is a multiple of 2^-56
  have hz : ∃ t : Int, fl (c * b) = t * 2 ^ (-56 : Int) := by
    rcases Nat.eq_zero_or_pos b with rfl | hpos
    · exact ⟨0, by simp [fl_zero]⟩
    · have h1 : (1 : Rat) ≤ b := by exact_mod_cast hpos
      have hlow : (2 : Rat) ^ (-4 : Int) ≤ c * b := hc.trans (le_mul_of_one_le_right hc0 h1)
      have hpos' : 0 < c * (b : Rat) := lt_of_lt_of_le (two_zpow_pos _) hlow
      have hu : -56 ≤ ulpExp (c * b) := by
        by_contra hcc
        have h2 := lt_log (c * b)
        rw [abs_of_pos hpos'] at h2
        have : (2 : Rat) ^ (ulpExp (c * b) + 53) ≤ 2 ^ (-4 : Int) := zpow_le_zpow_right₀ (by norm_num) (by omega)
        linarith
      obtain ⟨n, hn⟩ := Int.eq_ofNat_of_zero_le (a := ulpExp (c * b) + 56) (by omega)
      refine ⟨rne (c * b / 2 ^ ulpExp (c * b)) * 2 ^ n, ?_⟩
      rw [fl, if_neg hpos'.ne']
      generalize rne (c * b / 2 ^ ulpExp (c * b)) = z
      rw [show ulpExp (c * b) = (n : Int) + -56 by omega, zpow_add₀ (by norm_num), zpow_natCast]
      push_cast
      ring
  obtain ⟨t, ht⟩ := hz
  have hup : fl (c * b) ≤ 2 ^ (40 : Int) := by
    rw [← fl_pow]
    apply fl_mono
    refine le_trans (mul_le_of_le_one_left (by positivity) hc1) ?_
    rw [show (40 : Int) = ((40 : Nat) : Int) from rfl, zpow_natCast]; exact hb'
  have hge : 0 ≤ fl (c * b) := fl_nonneg (mul_nonneg hc0 (by positivity))
  refine round_normal ?_ ?_
  · by_cases h0 : (a : Rat) - fl (c * b) = 0
    · left; exact h0
    · right
      rw [ht] at h0 ⊢
      have e : (a : Rat) - t * 2 ^ (-56 : Int) = (((a : Int) * 2 ^ 56 - t : Int) : Rat) * 2 ^ (-56 : Int) := by
        push_cast
        rw [sub_mul, mul_assoc]
        norm_num
      rw [e] at h0 ⊢
      rw [abs_mul, abs_of_pos (two_zpow_pos _)]
      have hne : ((a : Int) * 2 ^ 56 - t : Int) ≠ 0 := by
        intro hh; rw [hh] at h0; simp at h0
      have h1 : (1 : Rat) ≤ |(((a : Int) * 2 ^ 56 - t : Int) : Rat)| := by
        exact_mod_cast Int.one_le_abs hne
      refine le_trans (zpow_le_zpow_right₀ (by norm_num) (by norm_num : (-1022 : Int) ≤ -56)) ?_
      exact le_mul_of_one_le_left (two_zpow_pos _).le h1
  · have ha2 : (a : Rat) ≤ 2 ^ (40 : Int) := by
      rw [show (40 : Int) = ((40 : Nat) : Int) from rfl, zpow_natCast]; exact ha'
    have ha0 : (0 : Rat) ≤ a := by positivity
    refine le_trans ?_ (zpow_le_zpow_right₀ (by norm_num) (by norm_num : (40 : Int) ≤ 1023))
    clear ht hc
    generalize (2 : Rat) ^ (40 : Int) = y at *
    rw [abs_le]
    constructor <;> linarith

theorem maxLoop_rel {α β : Type} {R : α → β → Prop} (s s' : Sim) (f : α → s.K) (g : β → s'.K) (P : α → Prop)
    (hlt : ∀ a b a' b', R a b → R a' b' → P a → P a' → s.lt (f a) (f a') = s'.lt (g b) (g b')) {l : List α} {l' : List β}
    (h : List.Forall₂ R l l') (hl : ∀ a ∈ l, P a) (c : α) (c' : β) (hc : R c c') (hp : P c) : R (maxLoop s f l c) (maxLoop s' g l' c') := by
  induction h generalizing c c' with
  | nil => exact hc
  | cons hab _ ih =>
    rename_i a b _ _ _
    have ha := hl a (by simp)
    simp only [maxLoop]
    rw [hlt _ _ _ _ hc hab hp ha]
    split
    · exact ih (fun x hx => hl x (by simp [hx])) _ _ hab ha
    · exact ih (fun x hx => hl x (by simp [hx])) _ _ hc hp

/-- **C100.** `inflect` picks the same form in binary64 arithmetic. -/
theorem c100_inflect (d : Morph Dbl) (p : Parse Dbl) (q : Parse B64) (hpq : p.core = q.core) (req : List Str)
    (hsz : p.tag.grammemes.card + req.length < 2 ^ 38 ∧ ∀ fs, d.lexeme p = .ok fs → ∀ f ∈ fs, f.tag.grammemes.card < 2 ^ 38) :
    (d.toB64.inflect Sim.b64 q req).map (Option.map Parse.core) = (d.inflect Sim.double p req).map (Option.map Parse.core) := by
  have hf : p.word = q.word ∧ p.tag = q.tag ∧ p.nf = q.nf ∧ p.stack = q.stack := CoreEq.fields hpq
  have hsim : ERel (List.Forall₂ CoreEq) (d.lexeme p) (d.toB64.lexeme q) := by
    have := lexemeOf_sim d d.toB64 rfl rfl p.stack p q hf.1 hf.2.1 hf.2.2.1
    unfold Morph.lexeme
    rw [← hf.2.2.2]; exact this
  have hsz2 := hsz.2
  unfold Morph.inflect
  generalize d.lexeme p = x at hsim hsz2 ⊢
  generalize d.toB64.lexeme q = y at hsim ⊢
  cases hsim with
  | err e => rfl
  | ok hab =>
  rename_i fs gs
  rw [ok_bind, ok_bind]
  have hmatch : ∀ r : List Str, List.Forall₂ CoreEq (matching fs r.toFinset) (matching gs r.toFinset) := fun r =>
    forall₂_filter hab _ _ fun a b h => by rw [h.fields.2.1]
  -- one choice
  have choice : ∀ r : List Str, r.length = req.length →
      Except.map (Option.map Parse.core) (do
          let g ← updatedGrammemes d.cls q.tag r
          pure (nlargest1 Sim.b64 (fun f => similarity Sim.b64 g f.tag) (matching gs r.toFinset))) =
        Except.map (Option.map Parse.core) (do
          let g ← updatedGrammemes d.cls p.tag r
          pure (nlargest1 Sim.double (fun f => similarity Sim.double g f.tag) (matching fs r.toFinset))) := by
    intro r hr
    rw [← hf.2.1]
    cases hg : updatedGrammemes d.cls p.tag r with
    | error e => rfl
    | ok g =>
      rw [ok_bind, ok_bind]
      have hgc : g.card < 2 ^ 38 := by
        have hU := ((c24_value d.cls p.tag r g).1 hg).2
        have hsub : g ⊆ p.tag.grammemes ∪ r.toFinset := by
          intro x hx
          have := ((hU x).1 hx).1
          simpa [Tag.grammemes] using this
        have := (Finset.card_le_card hsub).trans (Finset.card_union_le _ _)
        have h7 := List.toFinset_card_le r
        have := hsz.1
        omega
      have hP : ∀ f ∈ matching fs r.toFinset, f.tag.grammemes.card < 2 ^ 38 := fun f hfm =>
        hsz2 fs rfl f (List.mem_filter.1 hfm).1
      have hkey : ∀ (a : Parse Dbl) (b : Parse B64), CoreEq a b → a.tag.grammemes.card < 2 ^ 38 →
          similarity Sim.b64 g b.tag = .fin (similarity Sim.double g a.tag : Dbl).val := by
        intro a b h ha
        rw [← h.fields.2.1]
        unfold similarity
        apply b64_key
        · exact lt_of_le_of_lt (Finset.card_le_card Finset.inter_subset_left) (lt_trans hgc (by norm_num))
        · refine lt_of_le_of_lt ((Finset.card_le_card Finset.symmDiff_subset_union).trans (Finset.card_union_le _ _)) ?_
          norm_num at hgc ha ⊢; omega
      have hm := hmatch r
      generalize matching fs r.toFinset = l at hm hP ⊢
      generalize matching gs r.toFinset = l' at hm ⊢
      cases hm with
      | nil => rfl
      | cons h1 h2 =>
        rename_i a b l l'
        simp only [nlargest1, pure_eq_ok, Except.map, Option.map_some]
        congr 2
        refine (maxLoop_rel (R := CoreEq) Sim.double Sim.b64 _ _ (fun f : Parse Dbl => f.tag.grammemes.card < 2 ^ 38) ?_ h2
          (fun x hx => hP x (by simp [hx])) a b h1 (hP a (by simp))).symm
        intro x y x' y' hxy hxy' px px'
        rw [hkey x y hxy px, hkey x' y' hxy' px']
        rfl
  dsimp only
  by_cases he : matching fs req.toFinset = []
  · rw [if_pos he, if_pos ((forall₂_nil_iff (hmatch req)).1 he)]
    exact choice (req.map fixRare1) (by simp)
  · rw [if_neg he, if_neg (fun h' => he ((forall₂_nil_iff (hmatch req)).2 h'))]
    exact choice req rfl

/-! ### The conditions -/

/-- **C100, the condition in numbers.** With P(t|w) data, words of up to 89 letters are moderate when no part of them has more than
1024 analyses. -/
theorem c100_moderate (m : Morph Dbl) (w : Str) (h : (m.env.lower w).length ≤ 89)
    (few : ∀ x, x = w ∨ x <:+: m.env.lower w → ∀ ps, m.parse x = .ok ps → ps.length ≤ 1024) : Moderate m w :=
  .inr ⟨10, by norm_num, by omega, few⟩

/-- Outside the normal range the exponent does matter: the product of two small positive scores is zero, that of two large numbers is
infinite. -/
theorem c100_underflow :
    (Score.mul (.fin (2 ^ (-600 : Int))) (.fin (2 ^ (-600 : Int))) : B64) = .fin 0 ∧
    (Score.mul (.fin (2 ^ (600 : Int))) (.fin (2 ^ (600 : Int))) : B64) = .inf false := by
  decide +kernel

/-- Non-vacuity without P(t|w) data. -/
example : SameCall64 Demo.morph.toDbl Demo.morph.toDbl.toB64 ∧ Moderate Demo.morph.toDbl (c!"кошка") ∧
    (Demo.morph.toDbl.toB64.parse (c!"кошка")).toOption.map (fun ps => ps.map fun p => p.score) = some [.fin 1] := by
  refine ⟨SameCall64.exists _ (SameCall.default' (SameCall.exists _ (.inl Demo.morph_isRu))), .inl ⟨rfl, by decide +kernel⟩, by decide +kernel⟩

/-- Non-vacuity with P(t|w) data. -/
example : SameCall64 Demo.morph3.toDbl Demo.morph3.toDbl.toB64 ∧ Moderate Demo.morph3.toDbl (c!"кош") := by
  refine ⟨SameCall64.exists _ (SameCall.default' (SameCall.exists _ (.inl Demo.morph3_isRu))), c100_moderate _ _ (by decide +kernel) ?_⟩
  have key : ∀ x ∈ [] :: (c!"кош") :: pieces (Demo.morph3.toDbl.env.lower (c!"кош")),
      ((Demo.morph3.toDbl.parse x).toOption.map fun ps => decide (ps.length ≤ 1024)) ≠ some false := by decide +kernel
  intro x hx ps hps
  have hm : x ∈ [] :: (c!"кош") :: pieces (Demo.morph3.toDbl.env.lower (c!"кош")) := by
    rcases hx with rfl | hx
    · simp
    · by_cases hn : x = []
      · simp [hn]
      · simp [mem_pieces _ _ hx hn]
  have := key x hm
  rw [hps] at this
  simpa [Except.toOption] using this

end Verif
