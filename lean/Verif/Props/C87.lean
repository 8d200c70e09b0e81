/-
C87 — the P(t|w) table computed and stored in double precision.
-/
import Verif.Model.ProbDbl
import Verif.Props.C63
import Verif.Props.C73

namespace Verif

/-! ### Arithmetic -/

/-- A small fraction times a million, computed in doubles, is off by less than the smallest distance of such a product to an integer. -/
theorem million_err (a q : Nat) (hq : 0 < q) (haq : a ≤ q) (hb : q ≤ 2 ^ 31) :
    |fl (fl ((a : Rat) / q) * 1000000) - (a : Rat) / q * 1000000| < 1 / q := by
  have hq' : (0 : Rat) < q := by exact_mod_cast hq
  have hx0 : (0 : Rat) ≤ (a : Rat) / q := by positivity
  have hx1 : (a : Rat) / q ≤ 1 := by rw [div_le_one hq']; exact_mod_cast haq
  generalize (a : Rat) / q = x at hx0 hx1
  have h1 := fl_err x
  rw [abs_of_nonneg hx0] at h1
  have hy0 : 0 ≤ fl x := fl_nonneg hx0
  have hy1 : fl x ≤ 1 := fl_le_one (by linarith [show (0 : Rat) ≤ 1 / 2 ^ 53 by positivity])
  have h2 := fl_err (fl x * 1000000)
  rw [abs_of_nonneg (by positivity : (0 : Rat) ≤ fl x * 1000000)] at h2
  have h3 : (1 : Rat) / 2 ^ 31 ≤ 1 / q := by
    apply one_div_le_one_div_of_le hq'
    exact_mod_cast hb
  have e1 := abs_le.1 h1
  have e2 := abs_le.1 h2
  rw [abs_lt]
  have b1 : x / 2 ^ 53 ≤ 1 / 2 ^ 53 := by
    apply div_le_div_of_nonneg_right hx1; positivity
  have b2 : fl x * 1000000 / 2 ^ 53 ≤ 1000000 / 2 ^ 53 := by
    apply div_le_div_of_nonneg_right _ (by positivity); linarith
  have b3 : (1000000 : Rat) / 2 ^ 53 + 1000000 * (1 / 2 ^ 53) < 1 / 2 ^ 31 := by norm_num
  constructor <;> linarith [e1.1, e1.2, e2.1, e2.2]

/-- The stored integer: rounded down, or one less when it should be exact. -/
theorem stored_cases (a q : Nat) (hq : 0 < q) (haq : a ≤ q) (hb : q ≤ 2 ^ 31) :
    ⌊fl (fl ((a : Rat) / q) * 1000000)⌋ = ⌊(a : Rat) / q * 1000000⌋ ∨
    (((⌊fl (fl ((a : Rat) / q) * 1000000)⌋ : Int) : Rat) + 1 = (a : Rat) / q * 1000000) := by
  have hq' : (0 : Rat) < q := by exact_mod_cast hq
  have herr := abs_lt.1 (million_err a q hq haq hb)
  generalize fl (fl ((a : Rat) / q) * 1000000) = z at herr
  -- the exact value is a multiple of `1/q`
  obtain ⟨n, hn⟩ : ∃ n : Nat, n = a * 1000000 := ⟨_, rfl⟩
  have hX : (a : Rat) / q * 1000000 = (n : Rat) / q := by rw [hn]; push_cast; ring
  rw [hX] at herr ⊢
  obtain ⟨k, r, hkr, hmod⟩ : ∃ k r : Nat, n = q * k + r ∧ r + 1 ≤ q := ⟨n / q, n % q, (Nat.div_add_mod n q).symm, Nat.mod_lt _ hq⟩
  clear hX hn
  have hdm : (n : Rat) = q * (k : Rat) + (r : Rat) := by exact_mod_cast hkr
  have hmod' : (r : Rat) + 1 ≤ q := by exact_mod_cast hmod
  have hXe : (n : Rat) / q = (k : Rat) + (r : Rat) / q := by
    rw [hdm]; field_simp
  have hfl : ⌊(n : Rat) / q⌋ = (k : Int) := by
    rw [Int.floor_eq_iff]
    have h0 : (0 : Rat) ≤ (r : Rat) / q := by positivity
    have h1 : (r : Rat) / q < 1 := by rw [div_lt_one hq']; linarith
    rw [hXe]
    push_cast
    constructor <;> linarith
  rw [hfl]
  by_cases h0 : r = 0
  · have hXi : (n : Rat) / q = (k : Rat) := by rw [hXe, h0]; simp
    rw [hXi] at herr ⊢
    have hq1 : (1 : Rat) / q ≤ 1 := by
      rw [div_le_one hq']; exact_mod_cast hq
    by_cases hz : (k : Rat) ≤ z
    · left
      rw [Int.floor_eq_iff]
      push_cast
      exact ⟨hz, by linarith [herr.2]⟩
    · right
      have : ⌊z⌋ = (k : Int) - 1 := by
        rw [Int.floor_eq_iff]
        push_cast
        constructor <;> linarith [herr.1]
      rw [this]
      push_cast
      ring
  · left
    have h1 : (1 : Rat) / q ≤ (r : Rat) / q := by
      apply div_le_div_of_nonneg_right _ hq'.le
      exact_mod_cast Nat.one_le_iff_ne_zero.2 h0
    have h2 : (r : Rat) / q ≤ 1 - 1 / q := by
      rw [show (1 : Rat) - 1 / q = (q - 1) / q by field_simp]
      apply div_le_div_of_nonneg_right _ hq'.le
      linarith
    rw [Int.floor_eq_iff]
    push_cast
    rw [hXe] at herr
    constructor <;> linarith [herr.1, herr.2]

/-- Rounding keeps different fractions with a small common denominator apart. -/
theorem fl_frac_inj (a b q : Nat) (hq : 0 < q) (ha : a ≤ q) (hb : b ≤ q) (hs : q ≤ 2 ^ 31) (h : fl ((a : Rat) / q) = fl ((b : Rat) / q)) : a = b := by
  have hq' : (0 : Rat) < q := by exact_mod_cast hq
  have e1 := abs_le.1 (fl_err ((a : Rat) / q))
  have e2 := abs_le.1 (fl_err ((b : Rat) / q))
  rw [abs_of_nonneg (by positivity)] at e1 e2
  have b1 : (a : Rat) / q ≤ 1 := by rw [div_le_one hq']; exact_mod_cast ha
  have b2 : (b : Rat) / q ≤ 1 := by rw [div_le_one hq']; exact_mod_cast hb
  have h3 : (1 : Rat) / 2 ^ 31 ≤ 1 / q := one_div_le_one_div_of_le hq' (by exact_mod_cast hs)
  have hd : |(a : Rat) / q - (b : Rat) / q| < 1 / q := by
    rw [abs_lt]
    have c1 : (a : Rat) / q / 2 ^ 53 ≤ 1 / 2 ^ 53 := div_le_div_of_nonneg_right b1 (by positivity)
    have c2 : (b : Rat) / q / 2 ^ 53 ≤ 1 / 2 ^ 53 := div_le_div_of_nonneg_right b2 (by positivity)
    have c3 : (1 : Rat) / 2 ^ 53 + 1 / 2 ^ 53 < 1 / 2 ^ 31 := by norm_num
    rw [h] at e1
    constructor <;> linarith [e1.1, e1.2, e2.1, e2.2]
  rw [← sub_div, abs_div, abs_of_pos hq', div_lt_div_iff_of_pos_right hq'] at hd
  have hd' : |(a : Int) - (b : Int)| < 1 := by exact_mod_cast hd
  rw [Int.abs_lt_one_iff] at hd'
  omega

/-! ### The same table -/

theorem mapE_image {α β γ : Type} (f : α → Except PyErr β) (g : α → Except PyErr γ) (φ : β → γ) (l : List α) (h : ∀ a ∈ l, g a = (f a).map φ) :
    mapE g l = (mapE f l).map (List.map φ) := by
  induction l with
  | nil => rfl
  | cons a l ih =>
    have ha := h a (List.mem_cons_self ..)
    have ih := ih fun b hb => h b (List.mem_cons_of_mem _ hb)
    simp only [mapE, ha, ih]
    cases f a with
    | error e => rfl
    | ok b =>
      cases mapE f l with
      | error e => rfl
      | ok bs => rfl

/-- What the frequency tables of a corpus of bounded size satisfy. -/
def SmallEntry (e : Str × FreqDist × Nat) : Prop := 0 < e.2.1.n ∧ e.2.1.n + e.2.2 ≤ 2 ^ 31 ∧ ∀ g, (dictGet g e.2.1).getD 0 + 1 ≤ e.2.1.n + e.2.2

theorem laplaceD_inj (e : Str × FreqDist × Nat) (h : SmallEntry e) (g g' : Grams) (hl : laplaceD e.2.1 e.2.2 g = laplaceD e.2.1 e.2.2 g') :
    laplace e.2.1 e.2.2 g = laplace e.2.1 e.2.2 g' := by
  obtain ⟨h0, h1, h2⟩ := h
  have hv : fl ((((dictGet g e.2.1).getD 0 + 1 : Nat) : Rat) / ((e.2.1.n + e.2.2 : Nat) : Rat)) =
      fl ((((dictGet g' e.2.1).getD 0 + 1 : Nat) : Rat) / ((e.2.1.n + e.2.2 : Nat) : Rat)) := by
    have := congrArg Dbl.val hl
    push_cast
    exact this
  have := fl_frac_inj _ _ _ (by omega) (h2 g) (h2 g') h1 hv
  have hc : (dictGet g e.2.1).getD 0 = (dictGet g' e.2.1).getD 0 := by omega
  unfold laplace
  rw [hc]

theorem tags_of_cores {m : Morph Rat} {d : Morph Dbl} {w : Str} (h : (d.parse w).map (fun ps => ps.map Parse.core) = (m.parse w).map fun ps => ps.map Parse.core) :
    (d.parse w).map (fun ps => ps.map Parse.tag) = (m.parse w).map fun ps => ps.map Parse.tag := by
  cases hd : d.parse w with
  | error e =>
    rw [hd] at h
    cases hm : m.parse w with
    | error e' => rw [hm] at h; cases h; rfl
    | ok ps => rw [hm] at h; cases h
  | ok qs =>
    rw [hd] at h
    cases hm : m.parse w with
    | error e' => rw [hm] at h; cases h
    | ok ps =>
      rw [hm] at h
      have h' : qs.map Parse.core = ps.map Parse.core := Except.ok.inj h
      have := congrArg (List.map fun c : Str × Tag × Str × Stack => c.2.1) h'
      rw [List.map_map, List.map_map] at this
      exact congrArg Except.ok this

theorem tagProbabilities_tags (m : Morph Rat) (w : Str) (fd : FreqDist) (bins : Nat) : tagProbabilities m w fd bins =
    ((m.parse w).map fun ps => ps.map Parse.tag).map fun ts => (firstTags ts).map fun t => (t, laplace fd bins t.grammemes) := by
  unfold tagProbabilities
  cases m.parse w with
  | error e => rfl
  | ok ps =>
    refine congrArg Except.ok ?_
    dsimp only
    rw [← tagFold_eq (fun t => laplace fd bins t.grammemes) (fun a b hab => by
      show laplace _ _ a.grammemes = laplace _ _ b.grammemes
      rw [Tag.eqv_grammemes hab]), List.foldl_map]

theorem tagProbabilitiesD_tags (m : Morph Dbl) (w : Str) (fd : FreqDist) (bins : Nat) : tagProbabilitiesD m w fd bins =
    ((m.parse w).map fun ps => ps.map Parse.tag).map fun ts => (firstTags ts).map fun t => (t, laplaceD fd bins t.grammemes) := by
  unfold tagProbabilitiesD
  cases m.parse w with
  | error e => rfl
  | ok ps =>
    refine congrArg Except.ok ?_
    dsimp only
    rw [← tagFold_eq (fun t => laplaceD fd bins t.grammemes) (fun a b hab => by
      show laplaceD _ _ a.grammemes = laplaceD _ _ b.grammemes
      rw [Tag.eqv_grammemes hab]), List.foldl_map]

theorem allTheSame_image (l : List (Tag × Rat)) (h : ∀ a ∈ l, ∀ b ∈ l, toDbl a.2 = toDbl b.2 → a.2 = b.2) :
    allTheSame (l.map fun e => (e.1, toDbl e.2)) = allTheSame l := by
  have key : ((l.map fun e => (e.1, toDbl e.2)).map Prod.snd).toFinset = (l.map Prod.snd).toFinset.image toDbl := by
    ext x
    simp only [List.mem_toFinset, Finset.mem_image, List.mem_map]
    constructor
    · rintro ⟨y, ⟨e, he, rfl⟩, rfl⟩; exact ⟨e.2, ⟨e, he, rfl⟩, rfl⟩
    · rintro ⟨y, ⟨e, he, rfl⟩, rfl⟩; exact ⟨_, ⟨e, he, rfl⟩, rfl⟩
  unfold allTheSame
  rw [key, Finset.card_image_of_injOn]
  intro x hx y hy hxy
  rw [Finset.mem_coe, List.mem_toFinset, List.mem_map] at hx hy
  obtain ⟨a, ha, rfl⟩ := hx
  obtain ⟨b, hb, rfl⟩ := hy
  exact h a ha b hb hxy

theorem cpdDataD_eq (m : Morph Rat) (d : Morph Dbl) (hpar : ∀ w, (d.parse w).map (fun ps => ps.map Parse.core) = (m.parse w).map fun ps => ps.map Parse.core)
    (cpd : List (Str × FreqDist × Nat)) (hs : ∀ e ∈ cpd, SmallEntry e) (minFreq : Int) :
    cpdDataD d cpd minFreq = (cpdData m cpd minFreq).map (List.map fun e => (e.1, toDbl e.2)) := by
  unfold cpdDataD cpdData
  have hmap := mapE_image (fun e : Str × FreqDist × Nat => do
      let probs ← tagProbabilities m e.1 e.2.1 e.2.2
      pure (e.1, probs)) (fun e : Str × FreqDist × Nat => do
      let probs ← tagProbabilitiesD d e.1 e.2.1 e.2.2
      pure (e.1, probs)) (fun r : Str × List (Tag × Rat) => (r.1, r.2.map fun e => (e.1, toDbl e.2)))
    (cpd.filter fun e => decide (minFreq ≤ (e.2.1.n : Int))) ?_
  · rw [hmap]
    cases hr : mapE (fun e : Str × FreqDist × Nat => do
      let probs ← tagProbabilities m e.1 e.2.1 e.2.2
      pure (e.1, probs)) (cpd.filter fun e => decide (minFreq ≤ (e.2.1.n : Int))) with
    | error e => rfl
    | ok recs =>
      have hsame : ∀ r ∈ recs, allTheSame (r.2.map fun e => (e.1, toDbl e.2)) = allTheSame r.2 := by
        intro r hrm
        obtain ⟨e, he, her⟩ := mapE_mem hr hrm
        simp only [tagProbabilities_tags, bind_ok_iff, pure_eq_ok, Except.ok.injEq] at her
        obtain ⟨probs, hp, rfl⟩ := her
        have hse := hs e (List.mem_filter.1 he).1
        apply allTheSame_image
        intro a ha b hb hab
        cases ht : (m.parse e.1).map (fun ps => ps.map Parse.tag) with
        | error x => rw [ht] at hp; cases hp
        | ok ts =>
          rw [ht] at hp
          have hp' := Except.ok.inj hp
          simp only at ha hb
          rw [← hp'] at ha hb
          obtain ⟨t, _, rfl⟩ := List.mem_map.1 ha
          obtain ⟨t', _, rfl⟩ := List.mem_map.1 hb
          exact laplaceD_inj e hse _ _ hab
      show Except.ok _ = Except.ok _
      congr 1
      clear hr hmap
      induction recs with
      | nil => rfl
      | cons r recs ih =>
        have ih := ih fun r' hr' => hsame r' (List.mem_cons_of_mem _ hr')
        have h1 := hsame r (List.mem_cons_self ..)
        rw [List.map_cons, List.filter_cons, List.filter_cons]
        simp only [h1]
        split
        · rw [List.flatMap_cons, List.flatMap_cons, List.map_append, ih]
          congr 1
          simp
        · exact ih
  · intro e _
    rw [tagProbabilitiesD_tags, tagProbabilities_tags, tags_of_cores (hpar e.1)]
    cases (m.parse e.1).map (fun ps => ps.map Parse.tag) with
    | error x => rfl
    | ok ts =>
      show Except.ok _ = Except.ok _
      congr 2
      rw [List.map_map]
      rfl

theorem obs_length (m : Morph Rat) (corpus : List (Str × List (Str × Str))) (obs : List (Str × Grams))
    (h : ambiguousWords m (disambiguated corpus) = .ok obs) : obs.length ≤ corpus.length := by
  classical
  have := ambiguousWords_countP m corpus obs h (fun _ => true)
  rw [List.countP_eq_length.2 (by simp)] at this
  rw [this]
  exact List.countP_le_length

/-- The observed words are the lower-cased words of the corpus. -/
theorem obs_word (m : Morph Rat) (corpus : List (Str × List (Str × Str))) (obs : List (Str × Grams))
    (h : ambiguousWords m (disambiguated corpus) = .ok obs) (x : Str × Grams) (hx : x ∈ obs) : ∃ e ∈ corpus, x.1 = m.env.lower e.1 := by
  unfold ambiguousWords at h
  simp only [bind_ok_iff, pure_eq_ok, Except.ok.injEq] at h
  obtain ⟨l, hl, rfl⟩ := h
  obtain ⟨l', hl', hxl⟩ := List.mem_flatten.1 (List.mem_filter.1 hx).1
  obtain ⟨e, he, hle⟩ := mapE_mem hl hl'
  simp only [bind_ok_iff, pure_eq_ok, Except.ok.injEq] at hle
  obtain ⟨ts, _, rfl⟩ := hle
  unfold disambiguated at he
  obtain ⟨y, hy, hye⟩ := List.mem_filterMap.1 he
  refine ⟨y, (List.mem_filter.1 hy).1, ?_⟩
  cases hh : y.2.head? with
  | none => rw [hh] at hye; cases hye
  | some p =>
    rw [hh] at hye
    obtain rfl := Option.some.inj hye
    split at hxl
    · obtain rfl := List.mem_singleton.1 hxl
      rfl
    · cases hxl

theorem small_entries (m : Morph Rat) (corpus : List (Str × List (Str × Str))) (hc : corpus.length ≤ 2 ^ 30)
    (ht : ∀ e ∈ corpus, ∀ ts, m.tag (m.env.lower e.1) = .ok ts → ts.length ≤ 2 ^ 30) (obs : List (Str × Grams)) (h : ambiguousWords m (disambiguated corpus) = .ok obs)
    (cpd : List (Str × FreqDist × Nat)) (hcpd : condProb m (condFreq obs) = .ok cpd) (e : Str × FreqDist × Nat) (he : e ∈ cpd) : SmallEntry e := by
  have hok := condFreq_ok obs
  have hlen := obs_length m corpus obs h
  unfold condProb at hcpd
  obtain ⟨c, hcm, hce⟩ := mapE_mem hcpd he
  simp only [bind_ok_iff, pure_eq_ok, Except.ok.injEq] at hce
  obtain ⟨ts, hts, rfl⟩ := hce
  have hfd := dictGet_of_mem _ _ _ hok.keysNodup hcm
  have hn := hok.total _ _ hfd
  have hn1 : FreqDist.n c.2 ≤ obs.length := by rw [hn]; exact List.countP_le_length
  have hpos : 0 < FreqDist.n c.2 := by
    obtain ⟨g, hg⟩ := (hok.keys c.1).1 (List.mem_map_of_mem (f := Prod.fst) hcm)
    rw [hn, List.countP_pos_iff]
    exact ⟨_, hg, by simp⟩
  have hb : c.2.length ≤ obs.length := by
    have hsub : (c.2.map fun e => (c.1, e.1)) ⊆ obs := by
      intro x hx
      obtain ⟨e, hem, rfl⟩ := List.mem_map.1 hx
      exact (hok.samples _ _ hfd e.1).1 (List.mem_map_of_mem (f := Prod.fst) hem)
    have hnd : (c.2.map fun e => (c.1, e.1)).Nodup := by
      have := (hok.nodup _ _ hfd).map (f := fun g => (c.1, g)) (fun a b hab => (Prod.mk.inj hab).2)
      rwa [List.map_map] at this
    have := (List.subperm_of_subset hnd hsub).length_le
    rwa [List.length_map] at this
  have h1 : ts.length ≤ 2 ^ 30 := by
    obtain ⟨g, hg⟩ := (hok.keys c.1).1 (List.mem_map_of_mem (f := Prod.fst) hcm)
    obtain ⟨e, he, hw⟩ := obs_word m corpus obs h _ hg
    simp only at hw
    exact ht e he ts (hw ▸ hts)
  refine ⟨hpos, ?_, ?_⟩
  · show FreqDist.n c.2 + max ts.length c.2.length ≤ 2 ^ 31
    omega
  · intro g
    show (dictGet g c.2).getD 0 + 1 ≤ FreqDist.n c.2 + max ts.length c.2.length
    have hcnt : (dictGet g c.2).getD 0 ≤ FreqDist.n c.2 := by
      rw [hok.count _ _ hfd, hn, List.count]
      apply List.countP_mono_left
      intro x _ hx
      simp only [beq_iff_eq] at hx
      simp [hx]
    have hne : 1 ≤ c.2.length := by
      have : c.2 ≠ [] := by rintro h0; rw [h0] at hpos; exact absurd hpos (by decide)
      exact List.length_pos_iff.2 this
    omega

/-- **C87.** Computing P(t|w) in double precision gives the same words and tags as exact arithmetic, and for each the double nearest to the exact value; the
same exceptions too.  (Corpora of up to 2^30 words, words with up to 2^30 tags; the conditions of C73.) -/
theorem c87_estimate (m : Morph Rat) (d : Morph Dbl) (h : SameCall m d) (hsc : m.dict.SmallCounts m.sub)
    (hd : ∀ dawg, m.est = some dawg → ∀ e ∈ dawg, e.2 < 2 ^ 50) (corpus : List (Str × List (Str × Str))) (hc : corpus.length ≤ 2 ^ 30)
    (ht : ∀ e ∈ corpus, ∀ ts, m.tag (m.env.lower e.1) = .ok ts → ts.length ≤ 2 ^ 30) (minFreq : Int) :
    estimateD d corpus minFreq = (estimate m corpus minFreq).map (List.map fun e => (e.1, toDbl e.2)) := by
  have hsame := fun w => c73_same_analyses m d h hsc hd w
  have henv : d.env = m.env := by rw [h.eq]; rfl
  have hamb : ∀ l, ambiguousWords d l = ambiguousWords m l := by
    intro l
    unfold ambiguousWords
    simp only [(hsame _).2.1, henv]
  have hcp : ∀ cfd, condProb d cfd = condProb m cfd := by
    intro cfd
    unfold condProb
    simp only [(hsame _).2.1]
  unfold estimateD estimate
  rw [hamb]
  cases hobs : ambiguousWords m (disambiguated corpus) with
  | error e => rfl
  | ok obs =>
    simp only [ok_bind, hcp]
    cases hcpd : condProb m (condFreq obs) with
    | error e => rfl
    | ok cpd =>
      simp only [ok_bind]
      exact cpdDataD_eq m d (fun w => (hsame w).1) cpd (small_entries m corpus hc ht obs hobs cpd hcpd) minFreq

/-! ### What is stored and read -/

theorem estimate_small (m : Morph Rat) (corpus : List (Str × List (Str × Str))) (hc : corpus.length ≤ 2 ^ 30)
    (ht : ∀ e ∈ corpus, ∀ ts, m.tag (m.env.lower e.1) = .ok ts → ts.length ≤ 2 ^ 30) (minFreq : Int) (data : List ((Str × Tag) × Rat)) (h : estimate m corpus minFreq = .ok data)
    (x : (Str × Tag) × Rat) (hx : x ∈ data) : ∃ a q : Nat, 0 < q ∧ a ≤ q ∧ q ≤ 2 ^ 31 ∧ x.2 = (a : Rat) / q := by
  unfold estimate at h
  simp only [bind_ok_iff] at h
  obtain ⟨obs, hobs, cpd, hcpd, h⟩ := h
  unfold cpdData at h
  simp only [bind_ok_iff, pure_eq_ok, Except.ok.injEq] at h
  obtain ⟨recs, hrecs, rfl⟩ := h
  obtain ⟨r, hr, hxr⟩ := List.mem_flatMap.1 hx
  obtain ⟨tp, htp, rfl⟩ := List.mem_map.1 hxr
  obtain ⟨e, he, her⟩ := mapE_mem hrecs (List.mem_filter.1 hr).1
  simp only [tagProbabilities_tags, bind_ok_iff, pure_eq_ok, Except.ok.injEq] at her
  obtain ⟨probs, hp, rfl⟩ := her
  obtain ⟨h0, h1, h2⟩ := small_entries m corpus hc ht obs hobs cpd hcpd e (List.mem_filter.1 he).1
  cases hts : (m.parse e.1).map (fun ps => ps.map Parse.tag) with
  | error x => rw [hts] at hp; cases hp
  | ok ts =>
    rw [hts] at hp
    have hp' := Except.ok.inj hp
    simp only at htp
    rw [← hp'] at htp
    obtain ⟨t, _, rfl⟩ := List.mem_map.1 htp
    refine ⟨(dictGet t.grammemes e.2.1).getD 0 + 1, e.2.1.n + e.2.2, by omega, h2 _, h1, ?_⟩
    show laplace _ _ _ = _
    unfold laplace
    push_cast
    rfl

theorem cpdDawgD_get (data : List ((Str × Tag) × Dbl)) (hcol : ∀ e ∈ data, ':' ∉ e.1.2.str) (w : Str) (t : Tag) (ht : ':' ∉ t.str) :
    dictGet (probKey w t) (cpdDawgD data) = (dictGet (w, t) data).map fun q => ⌊(Score.mul q (Score.ofNat 1000000) : Dbl).val⌋.toNat := by
  induction data with
  | nil => rfl
  | cons e data ih =>
    obtain ⟨⟨w', t'⟩, q⟩ := e
    have ih := ih fun e he => hcol e (List.mem_cons_of_mem _ he)
    show (if probKey w' t' = probKey w t then some _ else dictGet (probKey w t) (cpdDawgD data)) = (if (w', t') = (w, t) then some q else dictGet (w, t) data).map _
    by_cases h : (w', t') = (w, t)
    · obtain ⟨rfl, rfl⟩ := Prod.mk.inj h
      rw [if_pos rfl, if_pos rfl]; rfl
    · rw [if_neg h, if_neg, ih]
      intro hk
      obtain ⟨rfl, rfl⟩ := c39_keys_distinct w' w t' t (hcol ((w', t'), q) (by simp)) ht hk
      exact h rfl

theorem dictGet_image {α β γ : Type} [DecidableEq α] (φ : β → γ) (k : α) (l : List (α × β)) :
    dictGet k (l.map fun e => (e.1, φ e.2)) = (dictGet k l).map φ := by
  induction l with
  | nil => rfl
  | cons e l ih =>
    obtain ⟨a, b⟩ := e
    show (if a = k then some (φ b) else dictGet k (l.map fun e => (e.1, φ e.2))) = (if a = k then some b else dictGet k l).map φ
    split
    · rfl
    · exact ih

theorem million_dbl (x : Rat) : (Score.mul (toDbl x) (Score.ofNat 1000000) : Dbl).val = fl (fl x * 1000000) := by
  show fl (fl x * fl ((1000000 : Nat) : Rat)) = _
  rw [fl_natCast _ (by norm_num)]
  norm_num

/-- What is stored for the exact value `q`: `q` times a million rounded down; or, if `q` times a million is an integer, perhaps one less. -/
def StoredFor (q : Rat) (s : Nat) : Prop := (s : Rat) = ⌊q * 1000000⌋ ∨ (s : Rat) + 1 = q * 1000000

theorem StoredFor.bounds {q : Rat} {s : Nat} (h : StoredFor q s) : (s : Rat) ≤ q * 1000000 ∧ q * 1000000 - 1 ≤ s := by
  rcases h with h | h
  · rw [h]
    exact ⟨Int.floor_le _, by linarith [Int.lt_floor_add_one (q * 1000000)]⟩
  · constructor <;> linarith

theorem stored_for (a q : Nat) (hq : 0 < q) (haq : a ≤ q) (hb : q ≤ 2 ^ 31) :
    StoredFor ((a : Rat) / q) ⌊fl (fl ((a : Rat) / q) * 1000000)⌋.toNat := by
  have h0 : 0 ≤ ⌊fl (fl ((a : Rat) / q) * 1000000)⌋ := Int.floor_nonneg.2 (fl_nonneg (mul_nonneg (fl_nonneg (by positivity)) (by norm_num)))
  have hc : ((⌊fl (fl ((a : Rat) / q) * 1000000)⌋.toNat : Nat) : Rat) = (⌊fl (fl ((a : Rat) / q) * 1000000)⌋ : Int) := by
    exact_mod_cast Int.toNat_of_nonneg h0
  unfold StoredFor
  rw [hc]
  rcases stored_cases a q hq haq hb with h | h
  · left; rw [h]
  · right; exact h

/-- **C87.** The table that is computed and stored in double precision: for every entry of the exact table (C63) the stored integer is the exact value times a million
rounded down, or, only if that is an integer, perhaps one less; a larger value is never stored as a smaller integer; pairs that are not in the exact table are
not stored. -/
theorem c87_stored (m : Morph Rat) (d : Morph Dbl) (h : SameCall m d) (hsc : m.dict.SmallCounts m.sub)
    (hd : ∀ dawg, m.est = some dawg → ∀ e ∈ dawg, e.2 < 2 ^ 50) (corpus : List (Str × List (Str × Str))) (hc : corpus.length ≤ 2 ^ 30)
    (ht : ∀ e ∈ corpus, ∀ ts, m.tag (m.env.lower e.1) = .ok ts → ts.length ≤ 2 ^ 30) (minFreq : Int) (data : List ((Str × Tag) × Rat))
    (hest : estimate m corpus minFreq = .ok data) (hcol : ∀ e ∈ data, ':' ∉ e.1.2.str) :
    ∃ dataD, estimateD d corpus minFreq = .ok dataD ∧
      (∀ w t q, ((w, t), q) ∈ data → ∃ s, dictGet (probKey w t) (cpdDawgD dataD) = some s ∧ StoredFor q s ∧
        ∀ w' t' q', ((w', t'), q') ∈ data → q ≤ q' → ∃ s', dictGet (probKey w' t') (cpdDawgD dataD) = some s' ∧ s ≤ s') ∧
      ∀ w t, ':' ∉ t.str → (∀ q, ((w, t), q) ∉ data) → dictGet (probKey w t) (cpdDawgD dataD) = none := by
  have he := c87_estimate m d h hsc hd corpus hc ht minFreq
  rw [hest] at he
  have hcol' : ∀ e ∈ data.map (fun e => (e.1, toDbl e.2)), ':' ∉ e.1.2.str := by
    intro e hem
    obtain ⟨x, hx, rfl⟩ := List.mem_map.1 hem
    exact hcol x hx
  refine ⟨_, he, ?_, ?_⟩
  · have hnd := estimate_keys_nodup m corpus minFreq data hest
    have get : ∀ w t q, ((w, t), q) ∈ data → dictGet (probKey w t) (cpdDawgD (data.map fun e => (e.1, toDbl e.2))) = some ⌊fl (fl q * 1000000)⌋.toNat := by
      intro w t q hm
      rw [cpdDawgD_get _ hcol' w t (hcol _ hm), dictGet_image, dictGet_of_mem _ _ _ hnd hm]
      simp only [Option.map_some, million_dbl]
    intro w t q hm
    refine ⟨_, get w t q hm, ?_, ?_⟩
    · obtain ⟨a, b, h1, h2, h3, h4⟩ := estimate_small m corpus hc ht minFreq data hest _ hm
      simp only at h4
      rw [h4]
      exact stored_for a b h1 h2 h3
    · intro w' t' q' hm' hqq
      refine ⟨_, get w' t' q' hm', Int.toNat_le_toNat (Int.floor_le_floor (fl_mono ?_))⟩
      have := fl_mono hqq
      linarith
  · intro w t htc hno
    rw [cpdDawgD_get _ hcol' w t htc, dictGet_image]
    cases hg : dictGet (w, t) data with
    | none => rfl
    | some q => exact absurd (dictGet_mem' _ _ _ hg) (hno q)

/-- **C87, scores.** An analyzer that uses the table, in double precision: if one of the values for a word is at least two millionths, the results are sorted and
the score of every result with an entry is the exact estimate up to a millionth (and rounding, 2^-53). -/
theorem c87_scores (m : Morph Rat) (d : Morph Dbl) (h : SameCall m d) (hsc : m.dict.SmallCounts m.sub)
    (hd : ∀ dawg, m.est = some dawg → ∀ e ∈ dawg, e.2 < 2 ^ 50) (corpus : List (Str × List (Str × Str))) (hc : corpus.length ≤ 2 ^ 30)
    (ht : ∀ e ∈ corpus, ∀ ts, m.tag (m.env.lower e.1) = .ok ts → ts.length ≤ 2 ^ 30) (minFreq : Int) (data : List ((Str × Tag) × Rat))
    (hest : estimate m corpus minFreq = .ok data) (hcol : ∀ e ∈ data, ':' ∉ e.1.2.str) (dataD : List ((Str × Tag) × Dbl))
    (hestD : estimateD d corpus minFreq = .ok dataD)
    (m' : Morph Rat) (d' : Morph Dbl) (h' : SameCall m' d') (hlow : m'.env.LowerStable) (hdata : d'.est = some (cpdDawgD dataD))
    (x : Str) (ps : List (Parse Dbl)) (hp : d'.parse x = .ok ps)
    (hex : ∃ p ∈ ps, ∃ q, ((d'.env.lower x, p.tag), q) ∈ data ∧ 2 / 1000000 ≤ q) :
    ps.Pairwise (fun a b => b.score.val ≤ a.score.val) ∧
    ∀ p ∈ ps, ∀ q, ((d'.env.lower x, p.tag), q) ∈ data → p.score.val ≤ q + 1 / 2 ^ 53 ∧ q - 1 / 1000000 - 1 / 2 ^ 53 ≤ p.score.val := by
  obtain ⟨dataD', h1, h2, _⟩ := c87_stored m d h hsc hd corpus hc ht minFreq data hest hcol
  rw [hestD] at h1
  obtain rfl := Except.ok.inj h1
  have hle1 : ∀ w t q s, ((w, t), q) ∈ data → StoredFor q s → (s : Rat) ≤ 1000000 := by
    intro w t q s hm hs
    have := (c63_probability m corpus minFreq data hest _ hm).2
    have := hs.bounds.1
    simp only at *
    linarith
  have hmax : ∀ e ∈ cpdDawgD dataD, e.2 < 2 ^ 50 := by
    have hD : dataD = data.map fun e => (e.1, toDbl e.2) := by
      have := c87_estimate m d h hsc hd corpus hc ht minFreq
      rw [hest, hestD] at this
      exact Except.ok.inj this
    intro e he
    unfold cpdDawgD at he
    rw [hD, List.map_map] at he
    obtain ⟨y, hy, rfl⟩ := List.mem_map.1 he
    obtain ⟨a, b, k1, k2, k3, k4⟩ := estimate_small m corpus hc ht minFreq data hest y hy
    simp only [Function.comp_apply, million_dbl]
    have hs := stored_for a b k1 k2 k3
    rw [← k4] at hs
    have := hle1 y.1.1 y.1.2 y.2 _ hy hs
    have h3 : (⌊fl (fl y.2 * 1000000)⌋.toNat : Rat) < ((2 ^ 50 : Nat) : Rat) := by
      have : (1000000 : Rat) < ((2 ^ 50 : Nat) : Rat) := by norm_num
      linarith
    exact_mod_cast h3
  obtain ⟨hs, hv⟩ := c73_with_data m' d' h' hlow _ hdata hmax x ps hp (by
    obtain ⟨p, hpm, q, hq, hq2⟩ := hex
    obtain ⟨s, hs1, hs2, _⟩ := h2 _ _ _ hq
    refine ⟨p, hpm, ?_⟩
    rw [hs1]
    have := hs2.bounds.2
    have hs3 : (1 : Rat) ≤ s := by linarith
    have hs4 : 1 ≤ s := by exact_mod_cast hs3
    show s ≠ 0
    omega)
  refine ⟨hs, fun p hpm q hq => ?_⟩
  obtain ⟨s, hs1, hs2, _⟩ := h2 _ _ _ hq
  rw [hv p hpm, hs1]
  show fl ((s : Rat) / ((1000000 : Nat) : Rat)) ≤ _ ∧ _ ≤ fl ((s : Rat) / ((1000000 : Nat) : Rat))
  have hb := hs2.bounds
  have hs1' := hle1 _ _ _ s hq hs2
  have e := abs_le.1 (fl_err ((s : Rat) / ((1000000 : Nat) : Rat)))
  rw [abs_of_nonneg (by positivity)] at e
  push_cast at e ⊢
  have hv1 : (s : Rat) / 1000000 ≤ 1 := by rw [div_le_one (by norm_num)]; exact hs1'
  have hv2 : (s : Rat) / 1000000 / 2 ^ 53 ≤ 1 / 2 ^ 53 := div_le_div_of_nonneg_right hv1 (by positivity)
  have hv3 : (s : Rat) / 1000000 ≤ q := by rw [div_le_iff₀ (by norm_num)]; exact hb.1
  have hv4 : q - 1 / 1000000 ≤ (s : Rat) / 1000000 := by rw [le_div_iff₀ (by norm_num)]; linarith [hb.2]
  constructor <;> linarith [e.1, e.2]

/-- **C87, defect.** A probability that a millionth divides is not always stored exactly: 41 of 80 is stored as 512499, not 512500. -/
theorem c87_truncated (t : Tag) (w : Str) : cpdDawgD [((w, t), toDbl (41 / 80))] = [(probKey w t, 512499)] ∧
    cpdDawg [((w, t), 41 / 80)] = [(probKey w t, 512500)] := by
  have h1 : ⌊fl (fl (41 / 80) * 1000000)⌋ = 512499 := by decide +kernel
  have h2 : ⌊(41 / 80 : Rat) * 1000000⌋ = 512500 := by decide +kernel
  constructor
  · simp only [cpdDawgD, List.map_cons, List.map_nil, million_dbl, h1]; rfl
  · simp only [cpdDawg, List.map_cons, List.map_nil, h2]; rfl

/-- Non-vacuity: a default analyzer and a corpus that meet the conditions; the table has entries, and they are stored. -/
example : SameCall Demo.morphE Demo.morphE.toDbl ∧ Demo.morphE.dict.SmallCounts Demo.morphE.sub ∧
    (∀ dawg, Demo.morphE.est = some dawg → ∀ e ∈ dawg, e.2 < 2 ^ 50) ∧ Demo.corpus.length ≤ 2 ^ 30 ∧
    (∀ e ∈ Demo.corpus, ∀ ts, Demo.morphE.tag (Demo.morphE.env.lower e.1) = .ok ts → ts.length ≤ 2 ^ 30) ∧
    (∀ e ∈ [(((c!"кош", ⟨c!"CONJ"⟩), 3 / 5) : (Str × Tag) × Rat), ((c!"кош", ⟨c!"NOUN,anim,femn sing,nomn"⟩), 2 / 5)], ':' ∉ e.1.2.str) ∧
    (estimateD Demo.morphE.toDbl Demo.corpus 3).map cpdDawgD =
      .ok [(c!"кош:CONJ", 600000), (c!"кош:NOUN,anim,femn sing,nomn", 400000)] := by
  refine ⟨SameCall.exists _ (.inl Demo.morphE_isRu), c73_condition _ _ c05_default_targets.2.2.1 (by decide +kernel), by intro dawg h; simp [Demo.morphE] at h,
    by decide, ?_, by decide +kernel, by decide +kernel⟩
  intro e he ts hts
  have h : ∀ e ∈ Demo.corpus, ((Demo.morphE.tag (Demo.morphE.env.lower e.1)).toOption.map fun ts => decide (ts.length ≤ 2)) = some true := by
    decide +kernel
  have := h e he
  rw [hts] at this
  have h2 : ts.length ≤ 2 := of_decide_eq_true (Option.some.inj this)
  omega

/-- Non-vacuity of the last part: an analyzer with the table of the example, and a word with an entry. -/
example : SameCall { Demo.morphE with est := some [(c!"кош:CONJ", 600000), (c!"кош:NOUN,anim,femn sing,nomn", 400000)] }
      (Morph.toDbl { Demo.morphE with est := some [(c!"кош:CONJ", 600000), (c!"кош:NOUN,anim,femn sing,nomn", 400000)] }) ∧
    Demo.morphE.env.LowerStable ∧
    ((Morph.toDbl { Demo.morphE with est := some [(c!"кош:CONJ", 600000), (c!"кош:NOUN,anim,femn sing,nomn", 400000)] }).parse (c!"Кош")).toOption.map
      (List.map fun p => (p.tag.str, p.score.val)) = some [(c!"CONJ", fl (3 / 5)), (c!"NOUN,anim,femn sing,nomn", fl (2 / 5))] := by
  refine ⟨SameCall.exists _ (.inl ⟨Demo.cls, ?_⟩), demoEnv_lowerStable, by decide +kernel⟩
  unfold mkMorph
  show (initUnits (ruUnits (S := Rat)) Demo.cls >>= fun r =>
    pure (⟨Demo.morphE.env, Demo.morphE.dict, r.1, Demo.morphE.sub, r.2, _⟩ : Morph Rat)) = _
  rw [Demo.bound_ok]; rfl

end Verif
