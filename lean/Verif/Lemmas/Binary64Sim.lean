/-
An analyzer with binary64 scores does what the analyzer with unbounded exponents does, as long as scores stay in the normal range.
-/
import Verif.Lemmas.Binary64

set_option linter.unusedSectionVars false

namespace Verif

/-- The same parse, the scores related by `BRel k`. -/
structure PRel (k : Nat) (a : Parse Dbl) (b : Parse B64) : Prop where
  word : a.word = b.word
  tag : a.tag = b.tag
  nf : a.nf = b.nf
  stack : a.stack = b.stack
  score : BRel k a.score b.score

theorem PRel.mono {k k' : Nat} {a : Parse Dbl} {b : Parse B64} (h : PRel k a b) (hk : k ≤ k') : PRel k' a b :=
  ⟨h.word, h.tag, h.nf, h.stack, h.score.mono hk⟩

theorem forall₂_mono {k k' : Nat} {l : List (Parse Dbl)} {l' : List (Parse B64)} (h : List.Forall₂ (PRel k) l l') (hk : k ≤ k') :
    List.Forall₂ (PRel k') l l' := h.imp fun _ _ h => h.mono hk

theorem ERel.imp {α β : Type} {R Q : α → β → Prop} {x : Except PyErr α} {y : Except PyErr β} (h : ERel R x y)
    (hq : ∀ a b, R a b → Q a b) : ERel Q x y := by
  cases h with
  | ok h => exact .ok (hq _ _ h)
  | err e => exact .err e

theorem PRel.key {k : Nat} {a : Parse Dbl} {b : Parse B64} (h : PRel k a b) : a.key = b.key := by
  simp only [Parse.key, h.word, h.tag, h.stack]

theorem addParses_rel {k : Nat} {ps : List (Parse Dbl)} {qs : List (Parse B64)} (h : List.Forall₂ (PRel k) ps qs) (seen : Seen) :
    List.Forall₂ (PRel k) (addParses ps seen).1 (addParses qs seen).1 ∧ (addParses ps seen).2 = (addParses qs seen).2 := by
  induction h generalizing seen with
  | nil => exact ⟨.nil, rfl⟩
  | cons h _ ih =>
    simp only [addParses, h.key]
    split
    · exact ih seen
    · exact ⟨.cons h (ih _).1, (ih _).2⟩

theorem sortByScore_rel {k : Nat} {ps : List (Parse Dbl)} {qs : List (Parse B64)} (h : List.Forall₂ (PRel k) ps qs) :
    List.Forall₂ (PRel k) (sortByScore ps) (sortByScore qs) :=
  forall₂_insertionSort (r := fun a b : Parse Dbl => Score.le b.score a.score = true)
    (s := fun a b : Parse B64 => Score.le b.score a.score = true)
    (fun _ _ _ _ h1 h2 => by rw [h2.score.le_iff h1.score]) h

/-! ### P(t|w) -/

theorem prob_rel (dawg : List (Str × Nat)) (hd : ∀ e ∈ dawg, e.2 ≤ 1000000) (w : Str) (t : Tag) :
    BRel 20 (prob dawg w t) (prob dawg w t) := by
  refine BRel.quot ?_ (by norm_num) (by norm_num) (by norm_num)
  cases hg : dictGet (probKey w t) dawg with
  | none => simp
  | some v => exact hd _ (dictGet_mem _ _ _ hg)

theorem applyToTags_rel (dawg : List (Str × Nat)) (hd : ∀ e ∈ dawg, e.2 ≤ 1000000) (wl : Str) (ts : List Tag) :
    applyToTags Dbl dawg wl ts = applyToTags B64 dawg wl ts := by
  have h := forall₂_insertionSort (R := fun a b : Tag => a = b)
    (r := fun a b => Score.le (prob dawg wl b : Dbl) (prob dawg wl a) = true)
    (s := fun a b => Score.le (prob dawg wl b : B64) (prob dawg wl a) = true) (by
      rintro a _ b _ rfl rfl
      rw [(prob_rel dawg hd wl b).le_iff (prob_rel dawg hd wl a)]) (forall₂_same ts)
  have := forall₂_map_eq h id id (fun _ _ h => h)
  simpa [applyToTags] using this

/-- A sum of doubles is zero only if all of them are. -/
theorem sumS_zero {xs : List Dbl} (h0 : ∀ x ∈ xs, 0 ≤ x.val) (h : Score.isZero (sumS xs) = true) : ∀ x ∈ xs, x.val = 0 := by
  intro x hx
  have h1 := (sumS_dbl xs h0).1 x hx
  have h2 : (sumS xs).val = 0 := by simpa [Score.isZero] using h
  rw [h2] at h1
  exact le_antisymm h1 (h0 x hx)

theorem sumS_b64_zero {xs : List B64} (h : ∀ x ∈ xs, x = .fin 0) : sumS xs = .fin 0 := by
  unfold sumS
  show xs.foldl Score.add (.fin 0) = _
  induction xs with
  | nil => rfl
  | cons x xs ih =>
    rw [List.foldl_cons, h x (by simp)]
    have : (Score.add (.fin 0) (.fin 0) : B64) = .fin 0 := by
      show B64.round (0 + 0) = _
      rw [round_normal (.inl (by norm_num)) (by norm_num), add_zero, fl_zero]
    rw [this]
    exact ih fun y hy => h y (by simp [hy])

theorem applyToParses_rel (dawg : List (Str × Nat)) (hd : ∀ e ∈ dawg, e.2 ≤ 1000000) (wl : Str) {k j : Nat} (hk : 20 ≤ k)
    (hkj : k + j ≤ 1022) (hj : j ≤ 53) {ps : List (Parse Dbl)} {qs : List (Parse B64)} (h : List.Forall₂ (PRel k) ps qs)
    (hlen : ∀ out, applyToParses dawg wl ps = .ok out → out.length ≤ 2 ^ j) :
    ERel (List.Forall₂ (PRel (k + j))) (applyToParses dawg wl ps) (applyToParses dawg wl qs) := by
  have hp : List.Forall₂ (BRel 20) (ps.map fun p => (prob dawg wl p.tag : Dbl)) (qs.map fun p => (prob dawg wl p.tag : B64)) :=
    forall₂_map₂ h _ _ fun a b hab => by rw [hab.tag]; exact prob_rel dawg hd wl _
  have hs : List.Forall₂ (BRel k) (ps.map Parse.score) (qs.map Parse.score) := forall₂_map₂ h _ _ fun a b hab => hab.score
  have z0 : ∀ {n : Nat} {xs : List Dbl} {ys : List B64}, List.Forall₂ (BRel n) xs ys → Score.isZero (sumS xs) = true →
      Score.isZero (sumS ys) = true := by
    intro n xs ys hxy hz
    have hx : ∀ x ∈ xs, x.val = 0 := sumS_zero (fun x hx => (by
      obtain ⟨y, _, hy⟩ := forall₂_mem_left hxy hx; exact hy.nonneg)) hz
    rw [sumS_b64_zero]
    · rfl
    · intro y hy
      obtain ⟨x, hxm, hr⟩ := forall₂_mem_right hxy hy
      rw [hr.eq, hx x hxm]
  cases hout : applyToParses dawg wl ps with
  | error e =>
    unfold applyToParses at hout ⊢
    by_cases he : ps = []
    · rw [if_pos he] at hout; simp at hout
    · rw [if_neg he] at hout
      rw [if_neg (fun h' => he ((forall₂_nil_iff h).2 h'))]
      dsimp only at hout ⊢
      split at hout
      · next hz =>
        split at hout
        · next hz' =>
          rw [if_pos (z0 hp hz), if_pos (z0 hs hz')]
          simp only [Except.error.injEq] at hout
          subst hout
          exact .err _
        · simp at hout
      · simp at hout
  | ok out =>
    have hl : ps.length ≤ 2 ^ j := by
      have h1 := hlen out hout
      have h2 : out.length = ps.length := by
        unfold applyToParses at hout
        split at hout
        · next he => simp at hout; subst hout; rw [he]
        · dsimp only at hout
          split at hout
          · split at hout
            · simp at hout
            · simp at hout; subst hout; simp
          · simp at hout; subst hout; rw [(sortByScore_perm _).length_eq]; simp
      omega
    rw [← hout]
    unfold applyToParses
    by_cases he : ps = []
    · rw [if_pos he, if_pos ((forall₂_nil_iff h).1 he)]; exact .ok .nil
    · rw [if_neg he, if_neg (fun h' => he ((forall₂_nil_iff h).2 h'))]
      dsimp only
      have r1 := BRange.sumS (u := j) (by norm_num) hj hp (by simpa using hl)
      have r2 := BRange.sumS (u := j) (by omega) hj hs (by simpa using hl)
      rw [← r1.isZero]
      by_cases hz : Score.isZero (sumS (ps.map fun p => (prob dawg wl p.tag : Dbl))) = true
      · rw [if_pos hz, if_pos hz, ← r2.isZero]
        by_cases hz' : Score.isZero (sumS (ps.map Parse.score)) = true
        · rw [if_pos hz', if_pos hz']; exact .err _
        · rw [if_neg hz', if_neg hz']
          refine .ok ?_
          have hne : (sumS (ps.map Parse.score)).val ≠ 0 := by simpa [Score.isZero] using hz'
          have r3 := r2.recip (by omega) (by omega) hne
          have hunit : ∀ p ∈ (ps.map fun p => ({ p with score := Score.mul p.score (Score.div Score.one (sumS (ps.map Parse.score))) } : Parse Dbl)),
              UnitD p.score := by
            refine applyToParses_unitD dawg hd wl ps _ ?_ ?_
            · intro p hp'
              obtain ⟨q, _, hq⟩ := forall₂_mem_left h hp'
              exact ⟨hq.score.nonneg, by simpa using hq.score.up⟩
            · unfold applyToParses
              rw [if_neg he]
              dsimp only
              rw [if_pos hz, if_neg hz']
          have hall : ∀ p ∈ ps, UnitD (Score.mul p.score (Score.div Score.one (sumS (ps.map Parse.score)))) := fun p hp' =>
            hunit _ (List.mem_map.2 ⟨p, hp', rfl⟩)
          clear hunit hp hs r1 hz hl hout hlen he r2
          generalize sumS (ps.map Parse.score) = t at *
          generalize sumS (qs.map Parse.score) = t' at *
          induction h with
          | nil => exact .nil
          | cons hab _ ih =>
            rename_i a b _ _ _
            refine .cons ⟨hab.word, hab.tag, hab.nf, hab.stack, ?_⟩ (ih fun p hp => hall p (by simp [hp]))
            have hm := BRange.mul hab.score r3 hkj (by omega)
            have hu := hall a (by simp)
            exact ⟨hm.eq, hu.1, hm.low, by simpa using hu.2⟩
      · rw [if_neg hz, if_neg hz]
        refine .ok (sortByScore_rel (forall₂_map₂ h _ _ fun a b hab => ⟨hab.word, hab.tag, hab.nf, hab.stack, ?_⟩))
        dsimp only
        rw [hab.tag]
        exact (prob_rel dawg hd wl _).mono (by omega)

/-! ### Units -/

/-- Parameters of a unit: scores of its own at least 1/16, multipliers of other scores at least 1/2, all at most 1. -/
def UnitCfg.inRange : UnitCfg Dbl → Prop
  | .firstName _ _ _ s | .patronymic _ _ s | .number _ _ s | .punct _ s | .latin _ s | .roman _ s | .adverb _ s => BRel 4 s s.b64
  | .particle _ s | .hyphenated _ s | .knownPrefix _ s _ | .unknownPrefix s | .knownSuffix s _ => BRel 1 s s.b64
  | .dictionary | .unkn _ => True

theorem dictParse_rel (m : Morph Dbl) (u : UObj) (wl : Str) :
    ERel (List.Forall₂ (PRel 0)) (dictParse m u wl) (dictParse m.toB64 u wl) := by
  unfold dictParse
  refine ERel.mapE (forall₂_same _) ?_
  rintro a _ _ rfl
  unfold dictParse1
  refine ERel.bind_same fun nf => ERel.bind_same fun tag => .ok ?_
  exact ⟨rfl, rfl, rfl, rfl, BRel.one⟩

theorem suffixParse_rel (m : Morph Dbl) (hs : m.dict.SmallCounts m.sub) (u : BUnit Dbl) (mult : Dbl) (hm : BRel 1 mult mult.b64) (minLen : Nat)
    (word wl : Str) (seen : Seen) :
    ERel (fun r s => List.Forall₂ (PRel 26) r.1 s.1 ∧ r.2 = s.2) (suffixParse m u mult minLen word wl seen)
      (suffixParse m.toB64 (u.mapS Dbl.b64) mult.b64 minLen word wl seen) := by
  unfold suffixParse
  split
  · exact .ok ⟨.nil, rfl⟩
  · show ERel _ (sfxPrefixLoop m.dict m.sub wl (sfxPrefixes m.dict wl) seen >>= _)
      (sfxPrefixLoop m.dict m.sub wl (sfxPrefixes m.dict wl) seen >>= _)
    cases hr : sfxPrefixLoop m.dict m.sub wl (sfxPrefixes m.dict wl) seen with
    | error e => exact .err e
    | ok r =>
      refine ERel.bind (R := List.Forall₂ (PRel 26)) (ERel.mapE (forall₂_same r.1) ?_) ?_
      · rintro ⟨c, n⟩ _ hc rfl
        have h1 := sfxPrefixLoop_cnt _ _ _ _ _ _ hr _ hc
        have h2 := sfxPrefixLoop_small _ _ hs _ _ _ _ hr _ hc
        dsimp only at h1 h2
        unfold sfxBuild
        refine ERel.bind_same fun nf => .ok ⟨rfl, rfl, rfl, ?_, ?_⟩
        · dsimp only
          rw [mapS_inner, mapS_obj]
        · exact (BRel.quot (k := 25) h1.1 h1.2 h2.le (by norm_num)).mul hm (by norm_num)
      · intro ps qs hpq
        exact .ok ⟨sortByScore_rel hpq, rfl⟩

/-- The nested calls of the two analyzers agree. -/
def RecRel (k : Nat) (r : Rec Dbl) (s : Rec B64) : Prop :=
  (∀ w, ERel (List.Forall₂ (PRel k)) (r.parse w) (s.parse w)) ∧ ∀ w, r.tag w = s.tag w

theorem hyphenParse_rel {k : Nat} (hk : k + 1 ≤ 1022) {r : Rec Dbl} {s : Rec B64} (h : RecRel k r s) (u : UObj) (skip : List Str) (a : Dbl)
    (hab : BRel 1 a a.b64) (wl : Str) :
    ERel (List.Forall₂ (PRel (k + 1))) (hyphenParse r u skip a wl) (hyphenParse s u skip a.b64 wl) := by
  unfold hyphenParse
  split
  · refine ERel.bind (h.1 _) fun lp lq hl => ERel.bind (h.1 _) fun rp rq hr => .ok (forall₂_append' ?_ ?_)
    · unfold parseBoth
      rw [List.flatMap_def, List.flatMap_def]
      apply forall₂_flatten
      refine forall₂_map₂ hl _ _ fun x y hxy => ?_
      rw [hxy.tag]
      split
      · exact .nil
      · refine forall₂_map₂ (forall₂_filter hr _ _ fun p q hpq => by rw [hpq.tag]) _ _ fun p q hpq => ?_
        refine ⟨?_, rfl, ?_, ?_, hxy.score.mul hab hk⟩ <;> dsimp only
        · rw [hxy.word, hpq.word]
        · rw [hxy.nf, hpq.nf]
        · rw [hxy.stack, hpq.stack]
    · unfold parseFixed
      refine forall₂_map₂ (forall₂_filter hr _ _ fun p q hpq => by rw [hpq.tag]) _ _ fun p q hpq => ?_
      refine ⟨?_, hpq.tag, ?_, ?_, hpq.score.mul hab hk⟩ <;> dsimp only
      · rw [hpq.word]
      · rw [hpq.nf]
      · rw [hpq.stack]
  · exact .ok .nil

theorem prefixCands_rel {k : Nat} (hk : k + 1 ≤ 1022) (u : UObj) (a : Dbl) (hab : BRel 1 a a.b64) (f : Str → Except PyErr (List (Parse Dbl)))
    (g : Str → Except PyErr (List (Parse B64))) (h : ∀ w, ERel (List.Forall₂ (PRel k)) (f w) (g w)) (sp : List (Str × Str)) :
    ERel (List.Forall₂ (PRel (k + 1))) (prefixCands u a f sp) (prefixCands u a.b64 g sp) := by
  unfold prefixCands
  refine ERel.bind (R := List.Forall₂ (List.Forall₂ (PRel (k + 1)))) (ERel.mapE (forall₂_same sp) ?_) fun x y hxy => .ok (forall₂_flatten hxy)
  rintro s _ _ rfl
  refine ERel.bind (h _) fun x y hxy => .ok ?_
  unfold prefixDeco
  refine forall₂_map₂ (forall₂_filter hxy _ _ fun p q hpq => by rw [hpq.tag]) _ _ fun p q hpq => ?_
  refine ⟨?_, hpq.tag, ?_, ?_, hpq.score.mul hab hk⟩ <;> dsimp only
  · rw [hpq.word]
  · rw [hpq.nf]
  · rw [hpq.stack]

theorem adverbShould_rel (m : Morph Dbl) {k : Nat} {r : Rec Dbl} {s : Rec B64} (h : RecRel k r s) (wl : Str) :
    adverbShould m r wl = adverbShould m.toB64 s wl := by
  unfold adverbShould
  rw [h.2]; rfl

theorem unitParse_rel (m : Morph Dbl) (hs : m.dict.SmallCounts m.sub) {k : Nat} (hk0 : 25 ≤ k) (hk : k + 1 ≤ 1022) {r : Rec Dbl}
    {s : Rec B64} (h : RecRel k r s) (u : BUnit Dbl) (hu : u.cfg.inRange) (word wl : Str) (seen : Seen) :
    ERel (fun x y => List.Forall₂ (PRel (k + 1)) x.1 y.1 ∧ x.2 = y.2) (unitParse m r u word wl seen)
      (unitParse m.toB64 s (u.mapS Dbl.b64) word wl seen) := by
  obtain ⟨id, cfg⟩ := u
  have hobj := mapS_obj Dbl.b64 (⟨id, cfg⟩ : BUnit Dbl)
  have hshape := mapS_shapeTag Dbl.b64 m.env cfg word
  cases cfg <;> simp only [unitParse, BUnit.mapS, UnitCfg.mapS] at hobj hshape ⊢
  case dictionary =>
    rw [hobj]
    exact ERel.bind (dictParse_rel m _ wl) fun a b hab => .ok ⟨forall₂_mono hab (by omega), rfl⟩
  case firstName l a b sc =>
    rw [hobj]
    refine .ok ⟨?_, rfl⟩
    unfold initialsParse
    split
    · exact forall₂_map₂ (forall₂_same _) _ _ fun x y hxy => ⟨rfl, hxy, rfl, rfl, BRel.mono hu (by omega)⟩
    · exact .nil
  case patronymic l a sc =>
    rw [hobj]
    refine .ok ⟨?_, rfl⟩
    unfold initialsParse
    split
    · exact forall₂_map₂ (forall₂_same _) _ _ fun x y hxy => ⟨rfl, hxy, rfl, rfl, BRel.mono hu (by omega)⟩
    · exact .nil
  case number | punct | latin | roman =>
    rw [hobj]
    show ERel _ _ (shapeTag m.env _ word >>= _)
    rw [hshape]
    refine ERel.bind_same fun t => .ok ⟨?_, rfl⟩
    cases t with
    | none => exact .nil
    | some t => exact .cons ⟨rfl, rfl, rfl, rfl, BRel.mono hu (by omega)⟩ .nil
  case particle ps mult =>
    rw [hobj]
    split
    · exact .ok ⟨.nil, rfl⟩
    · refine ERel.bind (h.1 _) fun a b hab => .ok (addParses_rel ?_ seen)
      refine forall₂_map₂ hab _ _ fun p q hpq => ?_
      unfold particleDeco
      refine ⟨?_, hpq.tag, ?_, ?_, hpq.score.mul hu hk⟩ <;> dsimp only
      · rw [hpq.word]
      · rw [hpq.nf]
      · rw [hpq.stack]
  case adverb t mult =>
    rw [hobj, ← adverbShould_rel m h]
    refine ERel.bind_same fun b => .ok ?_
    cases b
    · exact ⟨.nil, rfl⟩
    · exact ⟨.cons ⟨rfl, rfl, rfl, rfl, BRel.mono hu (by omega)⟩ .nil, rfl⟩
  case hyphenated skip mult =>
    rw [hobj]
    exact ERel.bind (hyphenParse_rel hk h _ _ _ hu wl) fun a b hab => .ok ⟨hab, rfl⟩
  case knownPrefix ps mult kk =>
    rw [hobj]
    exact ERel.bind (prefixCands_rel hk _ _ hu _ _ h.1 _) fun a b hab => .ok (addParses_rel hab seen)
  case unknownPrefix mult =>
    rw [hobj]
    exact ERel.bind (prefixCands_rel hk _ _ hu _ _ (fun w => (dictParse_rel m _ w).imp fun _ _ h => forall₂_mono h (by omega)) _) fun a b hab =>
      .ok (addParses_rel hab seen)
  case knownSuffix mult kk =>
    exact (suffixParse_rel m hs _ mult hu kk word wl seen).imp fun _ _ h => ⟨forall₂_mono h.1 (by omega), h.2⟩
  case unkn t =>
    rw [hobj]
    refine .ok ⟨?_, rfl⟩
    dsimp only
    split
    · exact .cons ⟨rfl, rfl, rfl, rfl, BRel.one.mono (by omega)⟩ .nil
    · exact .nil

theorem unitTag_rel (m : Morph Dbl) {k : Nat} (hk : k + 1 ≤ 1022) {r : Rec Dbl} {s : Rec B64} (h : RecRel k r s) (u : BUnit Dbl)
    (hu : u.cfg.inRange) (word wl : Str) (seen : SeenTags) :
    unitTag m r u word wl seen = unitTag m.toB64 s (u.mapS Dbl.b64) word wl seen := by
  obtain ⟨id, cfg⟩ := u
  have hobj := mapS_obj Dbl.b64 (⟨id, cfg⟩ : BUnit Dbl)
  have hshape := mapS_shapeTag Dbl.b64 m.env cfg word
  cases cfg <;> simp only [unitTag, BUnit.mapS, UnitCfg.mapS] at hobj hshape ⊢
  case dictionary => rfl
  case number | punct | latin | roman =>
    show _ = (shapeTag m.env _ word >>= _)
    rw [hshape]
  case particle ps mult =>
    split
    · rfl
    · rw [h.2]
  case adverb t mult => rw [← adverbShould_rel m h]
  case hyphenated skip mult =>
    rw [hobj]
    have := hyphenParse_rel hk h (BUnit.obj ⟨id, .hyphenated skip mult⟩) skip mult hu wl
    generalize hyphenParse r _ skip mult wl = x at this ⊢
    generalize hyphenParse s _ skip mult.b64 wl = y at this ⊢
    cases this with
    | ok hab => show Except.ok _ = Except.ok _; rw [forall₂_map_eq hab Parse.tag Parse.tag fun _ _ h => h.tag]
    | err e => rfl
  case knownPrefix ps mult k =>
    have : r.tag = s.tag := funext h.2
    rw [this]
  case unknownPrefix mult => rfl
  case knownSuffix mult k => rfl

/-! ### The analyzer -/

theorem runParse_rel (m : Morph Dbl) (hs : m.dict.SmallCounts m.sub) {k : Nat} (hk0 : 25 ≤ k) (hk : k + 1 ≤ 1022) {r : Rec Dbl}
    {s : Rec B64} (h : RecRel k r s) (word wl : Str) (us : List (BUnit Dbl × Bool)) (hu : ∀ u ∈ us, u.1.cfg.inRange) (seen : Seen)
    (res : List (Parse Dbl)) (res' : List (Parse B64)) (hres : List.Forall₂ (PRel (k + 1)) res res') :
    ERel (List.Forall₂ (PRel (k + 1))) (runParse m r word wl us seen res)
      (runParse m.toB64 s word wl (us.map fun u => (u.1.mapS Dbl.b64, u.2)) seen res') := by
  induction us generalizing seen res res' with
  | nil => exact .ok hres
  | cons u us ih =>
    obtain ⟨u, t⟩ := u
    simp only [List.map_cons, runParse]
    refine ERel.bind (unitParse_rel m hs hk0 hk h u (hu (u, t) (by simp)) word wl seen) fun x y hxy => ?_
    have ha := forall₂_append' hres hxy.1
    by_cases hc : t = true ∧ res ++ x.1 ≠ []
    · rw [if_pos hc, if_pos ⟨hc.1, fun he => hc.2 ((forall₂_nil_iff ha).2 he)⟩]
      exact .ok ha
    · rw [if_neg hc, if_neg (fun hc' => hc ⟨hc'.1, fun he => hc'.2 ((forall₂_nil_iff ha).1 he)⟩), hxy.2]
      exact ih (fun u hu' => hu u (by simp [hu'])) _ _ _ ha

theorem runTag_rel (m : Morph Dbl) {k : Nat} (hk : k + 1 ≤ 1022) {r : Rec Dbl} {s : Rec B64} (h : RecRel k r s)
    (word wl : Str) (us : List (BUnit Dbl × Bool)) (hu : ∀ u ∈ us, u.1.cfg.inRange) (seen : SeenTags) (res : List Tag) :
    runTag m r word wl us seen res = runTag m.toB64 s word wl (us.map fun u => (u.1.mapS Dbl.b64, u.2)) seen res := by
  induction us generalizing seen res with
  | nil => rfl
  | cons u us ih =>
    obtain ⟨u, t⟩ := u
    simp only [List.map_cons, runTag]
    rw [← unitTag_rel m hk h u (hu (u, t) (by simp)) word wl seen]
    cases unitTag m r u word wl seen with
    | error e => rfl
    | ok x =>
      rw [ok_bind, ok_bind]
      split
      · rfl
      · exact ih (fun u hu' => hu u (by simp [hu'])) _ _

/-- What keeps scores in the normal range: parameters, counts and stored P(t|w) values as large as they are in practice. -/
structure InRange (m : Morph Dbl) : Prop where
  params : ∀ u ∈ m.units, u.1.cfg.inRange
  proper : ∀ u ∈ m.units, u.1.cfg.properPrefixes
  counts : m.dict.SmallCounts m.sub
  data : ∀ dawg, m.est = some dawg → ∀ e ∈ dawg, e.2 ≤ 1000000
  low : m.env.LowerStable

/-- The record of nested calls, cut off outside the strictly shorter pieces of `wl`. -/
def Rec.cut {S : Type} (wl : Str) (r : Rec S) : Rec S :=
  ⟨fun x => if x <:+: wl ∧ x.length < wl.length then r.parse x else .error .recursionError,
   fun x => if x <:+: wl ∧ x.length < wl.length then r.tag x else .error .recursionError⟩

theorem Rec.cut_agree {S : Type} [Score S] (wl : Str) (r : Rec S) : Rec.AgreeBelow wl r (r.cut wl) := by
  intro x h1 h2
  simp only [Rec.cut]
  rw [if_pos ⟨h1, h2⟩, if_pos ⟨h1, h2⟩]
  exact ⟨rfl, rfl⟩

theorem toB64_proper {m : Morph Dbl} (h : ∀ u ∈ m.units, u.1.cfg.properPrefixes) : ∀ u ∈ m.toB64.units, u.1.cfg.properPrefixes := by
  rintro u hu
  obtain ⟨⟨⟨i, c⟩, t⟩, hv, rfl⟩ := List.mem_map.1 hu
  have := h _ hv
  revert this
  cases c <;> exact id

theorem parse_rel (m : Morph Dbl) (h : InRange m) (j : Nat) (hj : j ≤ 53) (n : Nat) (w : Str) (hn : (m.env.lower w).length ≤ n)
    (hb : 25 + (j + 1) * (n + 1) ≤ 1022)
    (few : m.est ≠ none → ∀ x, x = w ∨ x <:+: m.env.lower w → ∀ ps, m.parse x = .ok ps → ps.length ≤ 2 ^ j) :
    ERel (List.Forall₂ (PRel (25 + (j + 1) * (n + 1)))) (m.parse w) (m.toB64.parse w) ∧ m.tag w = m.toB64.tag w := by
  induction n using Nat.strongRecOn generalizing w with
  | _ n ih =>
  obtain ⟨e1, e2⟩ := parse_unfold m h.low h.proper w
  obtain ⟨f1, f2⟩ := parse_unfold m.toB64 h.low (toB64_proper h.proper) w
  obtain ⟨c1, c2⟩ := step_congr m h.proper ⟨m.parse, m.tag⟩ _ w (Rec.cut_agree _ _)
  obtain ⟨d1, d2⟩ := step_congr m.toB64 (toB64_proper h.proper) ⟨m.toB64.parse, m.toB64.tag⟩ _ w (Rec.cut_agree _ _)
  have hn1 : (j + 1) * (n + 1) = (j + 1) * n + (j + 1) := by rw [Nat.mul_add, Nat.mul_one]
  -- nested calls
  have hrec : RecRel (25 + (j + 1) * n) (Rec.cut (m.env.lower w) ⟨m.parse, m.tag⟩)
      (Rec.cut (m.toB64.env.lower w) ⟨m.toB64.parse, m.toB64.tag⟩) := by
    have key : ∀ x, x <:+: m.env.lower w → x.length < (m.env.lower w).length →
        ERel (List.Forall₂ (PRel (25 + (j + 1) * n))) (m.parse x) (m.toB64.parse x) ∧ m.tag x = m.toB64.tag x := by
      intro x hx hl
      have e : m.env.lower x = x := h.low w x hx
      obtain ⟨n', rfl⟩ : ∃ n', n = n' + 1 := ⟨n - 1, by omega⟩
      refine ih n' (by omega) x (by rw [e]; omega) (by omega) ?_
      intro he y hy
      refine few he y (.inr ?_)
      rw [e] at hy
      rcases hy with rfl | hy
      · exact hx
      · exact hy.trans hx
    constructor
    · intro x
      simp only [Rec.cut]
      show ERel _ _ (if x <:+: m.env.lower w ∧ x.length < (m.env.lower w).length then m.toB64.parse x else _)
      split
      · next hc => exact (key x hc.1 hc.2).1
      · exact .err _
    · intro x
      simp only [Rec.cut]
      show _ = (if x <:+: m.env.lower w ∧ x.length < (m.env.lower w).length then m.toB64.tag x else _)
      split
      · next hc => exact (key x hc.1 hc.2).2
      · rfl
  constructor
  · have hfew := fun he => few he w (.inl rfl)
    rw [e1, c1] at hfew ⊢
    rw [f1, d1]
    unfold parseStep at hfew ⊢
    have hrun := runParse_rel m h.counts (k := 25 + (j + 1) * n) (by omega) (by omega) hrec w (m.env.lower w) m.units h.params [] [] [] .nil
    change ERel _ (runParse m _ w (m.env.lower w) m.units [] [] >>= _)
      (runParse m.toB64 _ w (m.env.lower w) (m.units.map fun u => (u.1.mapS Dbl.b64, u.2)) [] [] >>= _)
    dsimp only at hfew
    generalize runParse m _ w (m.env.lower w) m.units [] [] = x at hrun hfew ⊢
    generalize runParse m.toB64 _ w (m.env.lower w) _ [] [] = y at hrun ⊢
    cases hrun with
    | err e => exact .err e
    | ok hxy =>
      rename_i ps qs
      rw [ok_bind] at hfew
      rw [ok_bind, ok_bind]
      show ERel _ _ (match m.est with | some dawg => applyToParses dawg (m.env.lower w) qs | none => pure qs)
      cases he : m.est with
      | none => exact .ok (forall₂_mono hxy (by omega))
      | some dawg =>
        rw [he] at hfew
        have := applyToParses_rel dawg (h.data dawg he) (m.env.lower w) (k := 25 + (j + 1) * n + 1) (j := j) (by omega) (by omega) hj hxy
          (hfew (by simp))
        refine this.imp fun _ _ h => forall₂_mono h (by omega)
  · rw [e2, c2, f2, d2]
    unfold tagStep
    have hrun := runTag_rel m (k := 25 + (j + 1) * n) (by omega) hrec w (m.env.lower w) m.units h.params [] []
    change (runTag m _ w (m.env.lower w) m.units [] [] >>= _) =
      (runTag m.toB64 _ w (m.env.lower w) (m.units.map fun u => (u.1.mapS Dbl.b64, u.2)) [] [] >>= _)
    rw [← hrun]
    cases runTag m _ w (m.env.lower w) m.units [] [] with
    | error e => rfl
    | ok ts =>
      rw [ok_bind, ok_bind]
      show _ = (match m.est with | some dawg => pure (applyToTags B64 dawg (m.env.lower w) ts) | none => pure ts)
      cases he : m.est with
      | none => rfl
      | some dawg => show Except.ok _ = Except.ok _; rw [applyToTags_rel dawg (h.data dawg he)]

end Verif
