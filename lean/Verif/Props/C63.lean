/-
C63 — the P(t|w) table is the smoothed estimate from the corpus.
-/
import Verif.Lemmas.Prob
import Verif.Props.C39
import Verif.Props.C02
import Verif.Props.C11
import Mathlib.Tactic.FieldSimp

namespace Verif

/-! ### The specification -/

/-- One corpus entry counts as an observation of grammemes `g` for the word `w`: it has exactly one parse, whose tag has the grammemes `g`
(not just `UNKN`), its lower-case spelling is `w` and the analyzer finds it ambiguous. -/
def IsObs {S : Type} [Score S] (m : Morph S) (e : Str × List (Str × Str)) (w : Str) (g : Grams) : Prop :=
  ∃ lemma_ tag ts, e.2 = [(lemma_, tag)] ∧ m.env.lower e.1 = w ∧ tag2grammemes tag = g ∧ g ≠ {c!"UNKN"} ∧ m.tag e.1 = .ok ts ∧ 1 < ts.length

open Classical in
/-- How often `w` was observed with the grammemes `g`. -/
noncomputable def obsCount {S : Type} [Score S] (m : Morph S) (corpus : List (Str × List (Str × Str))) (w : Str) (g : Grams) : Nat :=
  corpus.countP fun e => decide (IsObs m e w g)

open Classical in
/-- How often `w` was observed. -/
noncomputable def obsTotal {S : Type} [Score S] (m : Morph S) (corpus : List (Str × List (Str × Str))) (w : Str) : Nat :=
  corpus.countP fun e => decide (∃ g, IsObs m e w g)

/-! ### Observations -/

theorem IsObs.inj {S : Type} [Score S] {m : Morph S} {e : Str × List (Str × Str)} {w w' : Str} {g g' : Grams} (h : IsObs m e w g) (h' : IsObs m e w' g') :
    w = w' ∧ g = g' := by
  obtain ⟨l, t, ts, h1, h2, h3, _, _, _⟩ := h
  obtain ⟨l', t', ts', h1', h2', h3', _, _, _⟩ := h'
  rw [h1] at h1'
  simp only [List.cons.injEq, Prod.mk.injEq, and_true] at h1'
  rw [← h2, ← h2', ← h3, ← h3', h1'.2]
  exact ⟨rfl, rfl⟩

open Classical in
theorem ambiguousWords_countP {S : Type} [Score S] (m : Morph S) (corpus : List (Str × List (Str × Str))) (obs : List (Str × Grams))
    (h : ambiguousWords m (disambiguated corpus) = .ok obs) (P : Str × Grams → Bool) :
    obs.countP P = corpus.countP fun e => decide (∃ w g, IsObs m e w g ∧ P (w, g) = true) := by
  induction corpus generalizing obs with
  | nil =>
    have : obs = [] := by
      have h' : ambiguousWords m [] = .ok obs := h
      simp [ambiguousWords, mapE] at h'
      simpa using h'.symm
    simp [this]
  | cons e corpus ih =>
    obtain ⟨x, ps⟩ := e
    rw [List.countP_cons]
    by_cases hl : ∃ p, ps = [p]
    · obtain ⟨⟨l, t⟩, rfl⟩ := hl
      have hd : disambiguated ((x, [(l, t)]) :: corpus) = (x, t) :: disambiguated corpus := by simp [disambiguated]
      rw [hd] at h
      simp only [ambiguousWords, mapE, bind_ok_iff, pure_eq_ok, Except.ok.injEq] at h
      obtain ⟨ll, ⟨b, ⟨ts, hts, rfl⟩, bs, hbs, rfl⟩, rfl⟩ := h
      have hr := ih (bs.flatten.filter fun e => e.2 != {c!"UNKN"}) (by
        simp only [ambiguousWords, bind_ok_iff, pure_eq_ok, Except.ok.injEq]
        exact ⟨bs, hbs, rfl⟩)
      simp only [List.flatten_cons, List.filter_append, List.countP_append, hr]
      rw [Nat.add_comm]
      congr 1
      by_cases hts1 : 1 < ts.length
      · by_cases hu : tag2grammemes t = {c!"UNKN"}
        · have : ¬ ∃ w g, IsObs m (x, [(l, t)]) w g ∧ P (w, g) = true := by
            rintro ⟨w, g, ⟨l', t', ts', he, _, hg, hn, _⟩, _⟩
            simp only [List.cons.injEq, Prod.mk.injEq, and_true] at he
            rw [← he.2, hu] at hg
            exact hn hg.symm
          simp [hts1, hu, this]
        · by_cases hP : P (m.env.lower x, tag2grammemes t) = true
          · have : ∃ w g, IsObs m (x, [(l, t)]) w g ∧ P (w, g) = true :=
              ⟨_, _, ⟨l, t, ts, rfl, rfl, rfl, hu, hts, hts1⟩, hP⟩
            simp [hts1, hu, hP, this]
          · have : ¬ ∃ w g, IsObs m (x, [(l, t)]) w g ∧ P (w, g) = true := by
              rintro ⟨w, g, ⟨l', t', ts', he, hw, hg, hn, _⟩, hPw⟩
              simp only [List.cons.injEq, Prod.mk.injEq, and_true] at he
              rw [← hw, ← hg, ← he.2] at hPw
              exact hP hPw
            simp [hts1, hu, hP, this]
      · have : ¬ ∃ w g, IsObs m (x, [(l, t)]) w g ∧ P (w, g) = true := by
          rintro ⟨w, g, ⟨l', t', ts', he, hw, hg, hn, hts', hlen⟩, hPw⟩
          rw [show m.tag x = .ok ts from hts] at hts'
          simp only [Except.ok.injEq] at hts'
          rw [← hts'] at hlen
          exact hts1 hlen
        simp [hts1, this]
    · have hd : disambiguated ((x, ps) :: corpus) = disambiguated corpus := by
        unfold disambiguated
        rw [List.filter_cons_of_neg]
        intro hx
        simp only [beq_iff_eq] at hx
        exact hl (List.length_eq_one_iff.1 hx)
      rw [hd] at h
      have : ¬ ∃ w g, IsObs m (x, ps) w g ∧ P (w, g) = true := by
        rintro ⟨w, g, ⟨l', t', ts', he, _⟩, _⟩
        exact hl ⟨_, he⟩
      rw [ih obs h]
      simp [this]

theorem obs_count {S : Type} [Score S] (m : Morph S) (corpus : List (Str × List (Str × Str))) (obs : List (Str × Grams))
    (h : ambiguousWords m (disambiguated corpus) = .ok obs) (w : Str) (g : Grams) : obs.count (w, g) = obsCount m corpus w g := by
  classical
  have := ambiguousWords_countP m corpus obs h (fun e => e == (w, g))
  rw [List.count, this, obsCount]
  apply List.countP_congr
  intro e _
  simp only [decide_eq_true_eq, beq_iff_eq, Prod.mk.injEq]
  constructor
  · rintro ⟨w', g', ho, rfl, rfl⟩; exact ho
  · intro ho; exact ⟨w, g, ho, rfl, rfl⟩

theorem obs_total {S : Type} [Score S] (m : Morph S) (corpus : List (Str × List (Str × Str))) (obs : List (Str × Grams))
    (h : ambiguousWords m (disambiguated corpus) = .ok obs) (w : Str) : obs.countP (fun e => decide (e.1 = w)) = obsTotal m corpus w := by
  classical
  rw [ambiguousWords_countP m corpus obs h, obsTotal]
  apply List.countP_congr
  intro e _
  simp only [decide_eq_true_eq]
  constructor
  · rintro ⟨w', g', ho, rfl⟩; exact ⟨g', ho⟩
  · rintro ⟨g, ho⟩; exact ⟨w, g, ho, rfl⟩

theorem obs_mem {S : Type} [Score S] (m : Morph S) (corpus : List (Str × List (Str × Str))) (obs : List (Str × Grams))
    (h : ambiguousWords m (disambiguated corpus) = .ok obs) (w : Str) (g : Grams) : (w, g) ∈ obs ↔ ∃ e ∈ corpus, IsObs m e w g := by
  classical
  rw [← List.count_pos_iff, obs_count m corpus obs h, obsCount, List.countP_pos_iff]
  simp

/-! ### The table -/

/-- The value: Laplace smoothing with as many bins as the word has tags, or kinds of observations if these are more. -/
noncomputable def smoothed (m : Morph Rat) (corpus : List (Str × List (Str × Str))) (ts : List Tag) (gs : Finset Grams) (w : Str) (t : Tag) : Rat :=
  ((obsCount m corpus w t.grammemes : Rat) + 1) / (obsTotal m corpus w + max ts.length gs.card)

/-- The entries of one word. -/
structure WordEntries (m : Morph Rat) (corpus : List (Str × List (Str × Str))) (minFreq : Int) (w : Str) (l : List (Tag × Rat)) : Prop where
  observed : 0 < obsTotal m corpus w
  frequent : minFreq ≤ obsTotal m corpus w
  ex : ∃ ps ts gs, m.parse w = .ok ps ∧ m.tag w = .ok ts ∧ (∀ g, g ∈ gs ↔ ∃ e ∈ corpus, IsObs m e w g) ∧
    l = (firstTags (ps.map Parse.tag)).map fun t => (t, smoothed m corpus ts gs w t)

theorem smoothed_inj {m : Morph Rat} {corpus : List (Str × List (Str × Str))} {ts : List Tag} {gs : Finset Grams} {w : Str}
    (h : 0 < obsTotal m corpus w) (t t' : Tag) :
    (smoothed m corpus ts gs w t = smoothed m corpus ts gs w t' ↔ obsCount m corpus w t.grammemes = obsCount m corpus w t'.grammemes) ∧
    (smoothed m corpus ts gs w t < smoothed m corpus ts gs w t' ↔ obsCount m corpus w t.grammemes < obsCount m corpus w t'.grammemes) := by
  have hd : (0 : Rat) < (obsTotal m corpus w + max ts.length gs.card : Rat) := by
    have h1 : (0 : Rat) < obsTotal m corpus w := by exact_mod_cast h
    have h2 : (0 : Rat) ≤ max (ts.length : Rat) gs.card := le_max_of_le_left (by positivity)
    linarith
  unfold smoothed
  constructor
  · rw [div_left_inj' (ne_of_gt hd)]
    constructor
    · intro h; have : (obsCount m corpus w t.grammemes : Rat) = obsCount m corpus w t'.grammemes := by linarith
      exact_mod_cast this
    · intro h; rw [h]
  · rw [div_lt_div_iff_of_pos_right hd]
    constructor
    · intro h; have : (obsCount m corpus w t.grammemes : Rat) < obsCount m corpus w t'.grammemes := by linarith
      exact_mod_cast this
    · intro h; have : (obsCount m corpus w t.grammemes : Rat) < obsCount m corpus w t'.grammemes := by exact_mod_cast h
      linarith

theorem map_fst_forall₂ {α β γ : Type} {R : α × β → α × γ → Prop} {l : List (α × β)} {r : List (α × γ)} (h : List.Forall₂ R l r)
    (hR : ∀ a b, R a b → b.1 = a.1) : r.map Prod.fst = l.map Prod.fst := by
  induction h with
  | nil => rfl
  | cons h1 _ ih => rw [List.map_cons, List.map_cons, ih, hR _ _ h1]

theorem estimate_spec (m : Morph Rat) (corpus : List (Str × List (Str × Str))) (minFreq : Int) (data : List ((Str × Tag) × Rat))
    (h : estimate m corpus minFreq = .ok data) :
    ∃ recs : List (Str × List (Tag × Rat)), (recs.map Prod.fst).Nodup ∧ (∀ r ∈ recs, WordEntries m corpus minFreq r.1 r.2) ∧
      (∀ w, 0 < obsTotal m corpus w → minFreq ≤ obsTotal m corpus w → w ∈ recs.map Prod.fst) ∧
      data = (recs.filter fun r => !allTheSame r.2).flatMap fun r => r.2.map fun tp => ((r.1, tp.1), tp.2) := by
  unfold estimate at h
  simp only [bind_ok_iff] at h
  obtain ⟨obs, hobs, cpd, hcpd, h⟩ := h
  unfold cpdData at h
  simp only [bind_ok_iff, pure_eq_ok, Except.ok.injEq] at h
  obtain ⟨recs, hrecs, rfl⟩ := h
  have hok := condFreq_ok obs
  unfold condProb at hcpd
  rw [mapE_ok_iff] at hcpd hrecs
  have hkeys : cpd.map Prod.fst = (condFreq obs).map Prod.fst := by
    apply map_fst_forall₂ hcpd
    intro a b h1
    simp only [bind_ok_iff, pure_eq_ok, Except.ok.injEq] at h1
    obtain ⟨ts, _, rfl⟩ := h1
    rfl
  have hrk : recs.map Prod.fst = (cpd.filter fun e => decide (minFreq ≤ (e.2.1.n : Int))).map Prod.fst := by
    apply map_fst_forall₂ hrecs
    intro a b h1
    simp only [bind_ok_iff, pure_eq_ok, Except.ok.injEq] at h1
    obtain ⟨ts, _, rfl⟩ := h1
    rfl
  have hcpdmem : ∀ e ∈ cpd, ∃ ts, m.tag e.1 = .ok ts ∧ dictGet e.1 (condFreq obs) = some e.2.1 ∧ e.2.2 = max ts.length e.2.1.length := by
    intro e he
    obtain ⟨c, hc, hce⟩ := forall₂_mem_right hcpd he
    simp only [bind_ok_iff, pure_eq_ok, Except.ok.injEq] at hce
    obtain ⟨ts, hts, rfl⟩ := hce
    exact ⟨ts, hts, dictGet_of_mem _ _ _ hok.keysNodup hc, rfl⟩
  refine ⟨recs, ?_, ?_, ?_, rfl⟩
  · rw [hrk]
    have : (cpd.map Prod.fst).Nodup := by rw [hkeys]; exact hok.keysNodup
    exact this.sublist ((List.filter_sublist).map _)
  · intro r hr
    obtain ⟨e, he, her⟩ := forall₂_mem_right hrecs hr
    rw [List.mem_filter, decide_eq_true_eq] at he
    obtain ⟨ts, hts, hfd, hbins⟩ := hcpdmem e he.1
    simp only [tagProbabilities, bind_ok_iff, pure_eq_ok, Except.ok.injEq] at her
    obtain ⟨probs, ⟨ps, hps, rfl⟩, rfl⟩ := her
    have htot : e.2.1.n = obsTotal m corpus e.1 := by rw [hok.total _ _ hfd, obs_total m corpus obs hobs]
    refine ⟨?_, by rw [← htot]; exact he.2, ?_⟩
    · have : e.1 ∈ (condFreq obs).map Prod.fst := (dictGet_isSome_iff _ _).1 ⟨_, hfd⟩
      obtain ⟨g, hg⟩ := (hok.keys _).1 this
      rw [← obs_total m corpus obs hobs, List.countP_pos_iff]
      exact ⟨_, hg, by simp⟩
    · refine ⟨ps, ts, (e.2.1.map Prod.fst).toFinset, hps, hts, ?_, ?_⟩
      · intro g
        rw [List.mem_toFinset, hok.samples _ _ hfd, obs_mem m corpus obs hobs]
      · have hc : ((e.2.1.map Prod.fst).toFinset).card = e.2.1.length := by
          rw [List.toFinset_card_of_nodup (hok.nodup _ _ hfd), List.length_map]
        have hf : ∀ t : Tag, laplace e.2.1 e.2.2 t.grammemes = smoothed m corpus ts (e.2.1.map Prod.fst).toFinset e.1 t := by
          intro t
          unfold laplace smoothed
          rw [hok.count _ _ hfd, obs_count m corpus obs hobs, htot, hbins, hc, Nat.cast_max]
        have hmap : ∀ (ps : List (Parse Rat)) d, ps.foldl (fun d p => tagSet p.tag (laplace e.2.1 e.2.2 p.tag.grammemes) d) d =
            (ps.map Parse.tag).foldl (fun d t => tagSet t (laplace e.2.1 e.2.2 t.grammemes) d) d := by
          intro ps
          induction ps with
          | nil => intro d; rfl
          | cons p ps ih => intro d; simp only [List.foldl_cons, List.map_cons, ih]
        rw [hmap, tagFold_eq (fun t => laplace e.2.1 e.2.2 t.grammemes) (fun a b hab => by
          show laplace _ _ a.grammemes = laplace _ _ b.grammemes
          rw [Tag.eqv_grammemes hab])]
        simp only [hf]
  · intro w h0 hmin
    rw [hrk]
    have hw : w ∈ (condFreq obs).map Prod.fst := by
      rw [hok.keys]
      rw [← obs_total m corpus obs hobs, List.countP_pos_iff] at h0
      obtain ⟨e, he, hew⟩ := h0
      rw [decide_eq_true_eq] at hew
      exact ⟨e.2, by rw [← hew]; exact he⟩
    rw [← hkeys] at hw
    obtain ⟨e, he, rfl⟩ := List.mem_map.1 hw
    obtain ⟨ts, hts, hfd, _⟩ := hcpdmem e he
    refine List.mem_map.2 ⟨e, List.mem_filter.2 ⟨he, ?_⟩, rfl⟩
    rw [decide_eq_true_eq, hok.total _ _ hfd, obs_total m corpus obs hobs]
    exact hmin

theorem not_allTheSame (l : List (Tag × Rat)) : allTheSame l = false ↔ ∃ a ∈ l, ∃ b ∈ l, a.2 ≠ b.2 := by
  unfold allTheSame
  rw [decide_eq_false_iff_not, not_le, Finset.one_lt_card]
  simp only [List.mem_toFinset, List.mem_map]
  constructor
  · rintro ⟨x, ⟨a, ha, rfl⟩, y, ⟨b, hb, rfl⟩, hab⟩; exact ⟨a, ha, b, hb, hab⟩
  · rintro ⟨a, ha, b, hb, hab⟩; exact ⟨_, ⟨a, ha, rfl⟩, _, ⟨b, hb, rfl⟩, hab⟩

/-- C63: exactly which entries the table has, and their values. -/
theorem c63_entries (m : Morph Rat) (corpus : List (Str × List (Str × Str))) (minFreq : Int) (data : List ((Str × Tag) × Rat))
    (h : estimate m corpus minFreq = .ok data) (w : Str) (t : Tag) (q : Rat) :
    ((w, t), q) ∈ data ↔
      0 < obsTotal m corpus w ∧ minFreq ≤ obsTotal m corpus w ∧
      ∃ (ps : List (Parse Rat)) (ts : List Tag) (gs : Finset Grams), m.parse w = .ok ps ∧ m.tag w = .ok ts ∧ (∀ g, g ∈ gs ↔ ∃ e ∈ corpus, IsObs m e w g) ∧
        FirstTag (ps.map Parse.tag) t ∧
        (∃ p ∈ ps, ∃ p' ∈ ps, obsCount m corpus w p.tag.grammemes ≠ obsCount m corpus w p'.tag.grammemes) ∧
        q = ((obsCount m corpus w t.grammemes : Rat) + 1) / (obsTotal m corpus w + max ts.length gs.card) := by
  obtain ⟨recs, hnd, hwe, hall, rfl⟩ := estimate_spec m corpus minFreq data h
  have hsame : ∀ r ∈ recs, ∀ (ps : List (Parse Rat)) ts gs, 0 < obsTotal m corpus r.1 → r.2 = (firstTags (List.map Parse.tag ps)).map (fun t => (t, smoothed m corpus ts gs r.1 t)) →
      (allTheSame r.2 = false ↔ ∃ p ∈ ps, ∃ p' ∈ ps, obsCount m corpus r.1 p.tag.grammemes ≠ obsCount m corpus r.1 p'.tag.grammemes) := by
    intro r _ ps ts gs h0 hl
    rw [not_allTheSame, hl]
    obtain ⟨s1, _, s3⟩ := firstTags_spec (ps.map Parse.tag)
    constructor
    · rintro ⟨a, ha, b, hb, hab⟩
      obtain ⟨ta, hta, rfl⟩ := List.mem_map.1 ha
      obtain ⟨tb, htb, rfl⟩ := List.mem_map.1 hb
      obtain ⟨pre, post, he, _⟩ := (s1 ta).1 hta
      obtain ⟨pre', post', he', _⟩ := (s1 tb).1 htb
      obtain ⟨p, hp, rfl⟩ := List.mem_map.1 (show ta ∈ ps.map Parse.tag by rw [he]; simp)
      obtain ⟨p', hp', rfl⟩ := List.mem_map.1 (show tb ∈ ps.map Parse.tag by rw [he']; simp)
      exact ⟨p, hp, p', hp', fun hc => hab ((smoothed_inj h0 _ _).1.2 hc)⟩
    · rintro ⟨p, hp, p', hp', hc⟩
      obtain ⟨ta, hta, ea⟩ := s3 p.tag (List.mem_map_of_mem hp)
      obtain ⟨tb, htb, eb⟩ := s3 p'.tag (List.mem_map_of_mem hp')
      refine ⟨_, List.mem_map_of_mem hta, _, List.mem_map_of_mem htb, fun he => hc ?_⟩
      have := (smoothed_inj h0 _ _).1.1 he
      rwa [Tag.eqv_grammemes ea, Tag.eqv_grammemes eb] at this
  constructor
  · intro hm
    obtain ⟨r, hr, hrm⟩ := List.mem_flatMap.1 hm
    rw [List.mem_filter, Bool.not_eq_true'] at hr
    obtain ⟨tp, htp, he⟩ := List.mem_map.1 hrm
    obtain ⟨he1, rfl⟩ := Prod.mk.inj he
    obtain ⟨rfl, rfl⟩ := Prod.mk.inj he1
    obtain ⟨h0, hmin, ps, ts, gs, hps, hts, hgs, hl⟩ := hwe r hr.1
    refine ⟨h0, hmin, ps, ts, gs, hps, hts, hgs, ?_, (hsame r hr.1 ps ts gs h0 hl).1 hr.2, ?_⟩
    · rw [hl] at htp
      obtain ⟨t, ht, rfl⟩ := List.mem_map.1 htp
      exact ((firstTags_spec _).1 t).1 ht
    · rw [hl] at htp
      obtain ⟨t, ht, rfl⟩ := List.mem_map.1 htp
      rfl
  · rintro ⟨h0, hmin, ps, ts, gs, hps, hts, hgs, hft, hne, rfl⟩
    obtain ⟨r, hr, rfl⟩ := List.mem_map.1 (hall w h0 hmin)
    obtain ⟨_, _, ps', ts', gs', hps', hts', hgs', hl⟩ := hwe r hr
    rw [hps] at hps'; rw [hts] at hts'
    simp only [Except.ok.injEq] at hps' hts'
    subst hps'; subst hts'
    have : gs' = gs := by ext g; rw [hgs, hgs']
    subst this
    refine List.mem_flatMap.2 ⟨r, List.mem_filter.2 ⟨hr, ?_⟩, ?_⟩
    · rw [Bool.not_eq_true']; exact (hsame r hr ps ts gs' h0 hl).2 hne
    · refine List.mem_map.2 ⟨(t, smoothed m corpus ts gs' r.1 t), ?_, rfl⟩
      rw [hl]
      exact List.mem_map.2 ⟨t, ((firstTags_spec _).1 t).2 hft, rfl⟩

theorem obsCount_le (m : Morph Rat) (corpus : List (Str × List (Str × Str))) (w : Str) (g : Grams) : obsCount m corpus w g ≤ obsTotal m corpus w := by
  classical
  unfold obsCount obsTotal
  apply List.countP_mono_left
  intro e _ h
  simp only [decide_eq_true_eq] at *
  exact ⟨g, h⟩

theorem sum_ite_le {α : Type} (l : List α) (P : α → Prop) [DecidablePred P] (hnd : l.Nodup) (h : ∀ a ∈ l, ∀ b ∈ l, P a → P b → a = b) :
    (l.map fun a => if P a then 1 else 0).sum ≤ 1 := by
  induction l with
  | nil => simp
  | cons a l ih =>
    rw [List.nodup_cons] at hnd
    rw [List.map_cons, List.sum_cons]
    by_cases ha : P a
    · have : (l.map fun a => if P a then 1 else 0).sum = 0 := by
        rw [List.sum_eq_zero]
        intro x hx
        obtain ⟨b, hb, rfl⟩ := List.mem_map.1 hx
        rw [if_neg]
        intro hPb
        exact hnd.1 (h a (by simp) b (by simp [hb]) ha hPb ▸ hb)
      rw [if_pos ha, this]
    · rw [if_neg ha, Nat.zero_add]
      exact ih hnd.2 fun x hx y hy => h x (by simp [hx]) y (by simp [hy])

theorem sum_obsCount_le (m : Morph Rat) (corpus : List (Str × List (Str × Str))) (w : Str) (gs : List Grams) (hnd : gs.Nodup) :
    (gs.map (obsCount m corpus w)).sum ≤ obsTotal m corpus w := by
  classical
  induction corpus with
  | nil =>
    have : ∀ g, obsCount m [] w g = 0 := fun g => by simp [obsCount]
    rw [List.sum_eq_zero]
    · exact Nat.zero_le _
    · intro x hx
      obtain ⟨g, _, rfl⟩ := List.mem_map.1 hx
      exact this g
  | cons e corpus ih =>
    have h1 : gs.map (obsCount m (e :: corpus) w) = gs.map fun g => obsCount m corpus w g + if IsObs m e w g then 1 else 0 := by
      apply List.map_congr_left
      intro g _
      simp only [obsCount, List.countP_cons, decide_eq_true_eq]
    have h2 : obsTotal m (e :: corpus) w = obsTotal m corpus w + if ∃ g, IsObs m e w g then 1 else 0 := by
      simp only [obsTotal, List.countP_cons, decide_eq_true_eq]
    rw [h1, h2, List.sum_map_add]
    refine Nat.add_le_add ih ?_
    by_cases hx : ∃ g, IsObs m e w g
    · rw [if_pos hx]
      exact sum_ite_le gs (fun g => IsObs m e w g) hnd fun a _ b _ ha hb => (ha.inj hb).2
    · rw [if_neg hx, Nat.le_zero, List.sum_eq_zero]
      intro x hx'
      obtain ⟨g, _, rfl⟩ := List.mem_map.1 hx'
      rw [if_neg]
      intro hg; exact hx ⟨g, hg⟩

/-- C63: every value is a positive probability. -/
theorem c63_probability (m : Morph Rat) (corpus : List (Str × List (Str × Str))) (minFreq : Int) (data : List ((Str × Tag) × Rat))
    (h : estimate m corpus minFreq = .ok data) (e : (Str × Tag) × Rat) (he : e ∈ data) : 0 < e.2 ∧ e.2 ≤ 1 := by
  obtain ⟨⟨w, t⟩, q⟩ := e
  obtain ⟨h0, _, ps, ts, gs, hps, hts, hgs, _, _, rfl⟩ := (c63_entries m corpus minFreq data h w t q).1 he
  have hgs1 : 1 ≤ gs.card := by
    classical
    obtain ⟨e, he, h⟩ := List.countP_pos_iff.1 h0
    obtain ⟨g, hg⟩ := of_decide_eq_true h
    exact Finset.card_pos.2 ⟨g, (hgs g).2 ⟨e, he, hg⟩⟩
  have h1 : (0 : Rat) ≤ obsCount m corpus w t.grammemes := by positivity
  have h2 : (obsCount m corpus w t.grammemes : Rat) ≤ obsTotal m corpus w := by exact_mod_cast obsCount_le m corpus w _
  have h3 : (1 : Rat) ≤ max (ts.length : Rat) gs.card := le_max_of_le_right (by exact_mod_cast hgs1)
  simp only [Nat.cast_max]
  show 0 < ((obsCount m corpus w t.grammemes : Rat) + 1) / (obsTotal m corpus w + max (ts.length : Rat) gs.card) ∧
    ((obsCount m corpus w t.grammemes : Rat) + 1) / (obsTotal m corpus w + max (ts.length : Rat) gs.card) ≤ 1
  have hd : (0 : Rat) < obsTotal m corpus w + max (ts.length : Rat) gs.card := by linarith
  exact ⟨div_pos (by linarith) hd, (div_le_one hd).2 (by linarith)⟩

/-- C63: of two tags of a word the one observed more often has the larger value. -/
theorem c63_monotone (m : Morph Rat) (corpus : List (Str × List (Str × Str))) (minFreq : Int) (data : List ((Str × Tag) × Rat))
    (h : estimate m corpus minFreq = .ok data) (w : Str) (t t' : Tag) (q q' : Rat) (he : ((w, t), q) ∈ data) (he' : ((w, t'), q') ∈ data) :
    (q < q' ↔ obsCount m corpus w t.grammemes < obsCount m corpus w t'.grammemes) ∧
    (q = q' ↔ obsCount m corpus w t.grammemes = obsCount m corpus w t'.grammemes) := by
  obtain ⟨h0, _, ps, ts, gs, hps, hts, hgs, _, _, rfl⟩ := (c63_entries m corpus minFreq data h w t q).1 he
  obtain ⟨_, _, ps', ts', gs', hps', hts', hgs', _, _, rfl⟩ := (c63_entries m corpus minFreq data h w t' q').1 he'
  rw [hts] at hts'
  simp only [Except.ok.injEq] at hts'
  subst hts'
  have : gs' = gs := by ext g; rw [hgs, hgs']
  subst this
  have := smoothed_inj (ts := ts) (gs := gs') h0 t t'
  exact ⟨this.2, this.1⟩

theorem estimate_keys_nodup (m : Morph Rat) (corpus : List (Str × List (Str × Str))) (minFreq : Int) (data : List ((Str × Tag) × Rat))
    (h : estimate m corpus minFreq = .ok data) : (data.map Prod.fst).Nodup := by
  obtain ⟨recs, hnd, hwe, _, rfl⟩ := estimate_spec m corpus minFreq data h
  have hnd' : ((recs.filter fun r => !allTheSame r.2).map Prod.fst).Nodup := hnd.sublist ((List.filter_sublist).map _)
  have hwe' : ∀ r ∈ recs.filter fun r => !allTheSame r.2, WordEntries m corpus minFreq r.1 r.2 := fun r hr => hwe r (List.mem_filter.1 hr).1
  generalize recs.filter (fun r => !allTheSame r.2) = l at hnd' hwe'
  induction l with
  | nil => simp
  | cons r l ih =>
    rw [List.map_cons, List.nodup_cons] at hnd'
    rw [List.flatMap_cons, List.map_append, List.nodup_append]
    refine ⟨?_, ih hnd'.2 fun r hr => hwe' r (by simp [hr]), ?_⟩
    · obtain ⟨_, _, ps, ts, gs, _, _, _, hl⟩ := hwe' r (by simp)
      rw [hl]
      simp only [List.map_map]
      obtain ⟨_, s2, _⟩ := firstTags_spec (ps.map Parse.tag)
      have hn : (firstTags (ps.map Parse.tag)).Nodup := s2.imp fun {a b} hab he => by
        rw [he, Tag.eqv_refl] at hab; simp at hab
      refine hn.map ?_
      intro a b hab
      simpa using hab
    · intro a ha b hb hab
      subst hab
      obtain ⟨x, hx, rfl⟩ := List.mem_map.1 ha
      obtain ⟨tp, _, rfl⟩ := List.mem_map.1 hx
      obtain ⟨y, hy, he⟩ := List.mem_map.1 hb
      obtain ⟨r', hr', hy⟩ := List.mem_flatMap.1 hy
      obtain ⟨tp', _, rfl⟩ := List.mem_map.1 hy
      obtain ⟨he1, _⟩ := Prod.mk.inj he
      exact hnd'.1 (he1 ▸ List.mem_map_of_mem hr')

/-- C63: the values of a word add up to at most 1 (the rest is left for tags the analyzer does not offer), when different tags of
the word have different grammemes. -/
theorem c63_sum (m : Morph Rat) (hm : IsRu m ∨ IsUk m) (hlow : m.env.LowerStable) (hd : m.dict.WF)
    (corpus : List (Str × List (Str × Str))) (minFreq : Int) (data : List ((Str × Tag) × Rat))
    (h : estimate m corpus minFreq = .ok data) (w : Str)
    (hdist : ∀ ps, m.parse w = .ok ps → ∀ p ∈ ps, ∀ p' ∈ ps, p.tag.grammemes = p'.tag.grammemes → p.tag.eqv p'.tag = true) :
    ((data.filter fun e => decide (e.1.1 = w)).map Prod.snd).sum ≤ 1 := by
  obtain ⟨recs, hnd, hwe, _, rfl⟩ := estimate_spec m corpus minFreq data h
  have hnd' : ((recs.filter fun r => !allTheSame r.2).map Prod.fst).Nodup := hnd.sublist ((List.filter_sublist).map _)
  have hwe' : ∀ r ∈ recs.filter fun r => !allTheSame r.2, WordEntries m corpus minFreq r.1 r.2 := fun r hr => hwe r (List.mem_filter.1 hr).1
  clear h
  generalize recs.filter (fun r => !allTheSame r.2) = l at hnd' hwe'
  have hnone : ∀ l : List (Str × List (Tag × Rat)), w ∉ l.map Prod.fst →
      (l.flatMap fun r => r.2.map fun tp => ((r.1, tp.1), tp.2)).filter (fun e => decide (e.1.1 = w)) = [] := by
    intro l hl
    rw [List.filter_eq_nil_iff]
    intro e he hew
    obtain ⟨r, hr, he⟩ := List.mem_flatMap.1 he
    obtain ⟨tp, _, rfl⟩ := List.mem_map.1 he
    exact hl (of_decide_eq_true hew ▸ List.mem_map_of_mem hr)
  induction l with
  | nil => simp
  | cons r l ih =>
    rw [List.map_cons, List.nodup_cons] at hnd'
    rw [List.flatMap_cons, List.filter_append, List.map_append, List.sum_append]
    by_cases hw : r.1 = w
    · rw [hnone l (hw ▸ hnd'.1)]
      obtain ⟨h0, _, ps, ts, gs, hps, hts, hgs, hl⟩ := hwe' r (by simp)
      rw [hw] at h0 hps hts hgs hl
      have hall : (r.2.map fun tp => ((r.1, tp.1), tp.2)).filter (fun e => decide (e.1.1 = w)) = r.2.map fun tp => ((r.1, tp.1), tp.2) := by
        rw [List.filter_eq_self]
        intro e he
        obtain ⟨tp, _, rfl⟩ := List.mem_map.1 he
        simpa using hw
      rw [hall, hl]
      simp only [List.map_map, List.map_nil, List.sum_nil, add_zero]
      have hsum : ∀ L : List Tag, (L.map (Prod.snd ∘ (fun tp : Tag × Rat => ((r.1, tp.1), tp.2)) ∘ fun t => (t, smoothed m corpus ts gs w t))).sum =
          (((L.map fun t => obsCount m corpus w t.grammemes).sum : Nat) + (L.length : Rat)) / (obsTotal m corpus w + max (ts.length : Rat) gs.card) := by
        intro L
        induction L with
        | nil => simp
        | cons t L ih =>
          rw [List.map_cons, List.sum_cons, ih]
          simp only [Function.comp, smoothed, List.map_cons, List.sum_cons, List.length_cons]
          push_cast
          rw [← add_div]
          congr 1
          ring
      rw [hsum]
      obtain ⟨s1, s2, _⟩ := firstTags_spec (ps.map Parse.tag)
      have hin : ∀ t ∈ firstTags (ps.map Parse.tag), ∃ p ∈ ps, p.tag = t := by
        intro t ht
        obtain ⟨pre, post, he, _⟩ := (s1 t).1 ht
        obtain ⟨p, hp, hpt⟩ := List.mem_map.1 (show t ∈ ps.map Parse.tag by rw [he]; simp)
        exact ⟨p, hp, hpt⟩
      have hg : ((firstTags (ps.map Parse.tag)).map Tag.grammemes).Nodup := by
        rw [List.nodup_iff_pairwise_ne, List.pairwise_map]
        refine List.Pairwise.imp_of_mem ?_ s2
        intro a b ha hb hab he
        obtain ⟨p, hp, rfl⟩ := hin a ha
        obtain ⟨p', hp', rfl⟩ := hin b hb
        rw [hdist ps hps p hp p' hp' he] at hab
        simp at hab
      have hc : ((firstTags (ps.map Parse.tag)).map fun t => obsCount m corpus w t.grammemes).sum ≤ obsTotal m corpus w := by
        have := sum_obsCount_le m corpus w _ hg
        simpa only [List.map_map, Function.comp_def] using this
      have hk : (firstTags (ps.map Parse.tag)).length ≤ ts.length := by
        have hn : ((firstTags (ps.map Parse.tag)).map Tag.tuple).Nodup := by
          rw [List.nodup_iff_pairwise_ne, List.pairwise_map]
          refine s2.imp ?_
          intro a b hab he
          rw [(Tag.eqv_iff a b).2 he] at hab
          simp at hab
        have hsub : ((firstTags (ps.map Parse.tag)).map Tag.tuple).toFinset ⊆ (ts.map Tag.tuple).toFinset := by
          intro x hx
          rw [List.mem_toFinset] at *
          obtain ⟨t, ht, rfl⟩ := List.mem_map.1 hx
          obtain ⟨p, hp, rfl⟩ := hin t ht
          obtain ⟨t', ht', he⟩ := (c02_same_tags m hm hlow hd w ps ts hps hts).2 p hp
          exact List.mem_map.2 ⟨t', ht', (Tag.eqv_iff _ _).1 he⟩
        have h1 := Finset.card_le_card hsub
        rw [List.toFinset_card_of_nodup hn, List.length_map] at h1
        exact h1.trans ((List.toFinset_card_le _).trans (by simp))
      have h1 : (((firstTags (ps.map Parse.tag)).map fun t => obsCount m corpus w t.grammemes).sum : Rat) ≤ obsTotal m corpus w := by exact_mod_cast hc
      have h2 : ((firstTags (ps.map Parse.tag)).length : Rat) ≤ ts.length := by exact_mod_cast hk
      have h3 : (ts.length : Rat) ≤ max (ts.length : Rat) gs.card := le_max_left _ _
      have h4 : (0 : Rat) < obsTotal m corpus w := by exact_mod_cast h0
      have h5 : (0 : Rat) ≤ ts.length := by positivity
      exact (div_le_one (by linarith)).2 (by push_cast; push_cast at h1; linarith)
    · have : (r.2.map fun tp => ((r.1, tp.1), tp.2)).filter (fun e => decide (e.1.1 = w)) = [] := by
        rw [List.filter_eq_nil_iff]
        intro e he hew
        obtain ⟨tp, _, rfl⟩ := List.mem_map.1 he
        exact hw (of_decide_eq_true hew)
      rw [this]
      simp only [List.map_nil, List.sum_nil, zero_add]
      exact ih hnd'.2 fun r hr => hwe' r (by simp [hr])

/-- C63, end to end: an analyzer with the estimated table scores a result with the estimate for its tag, up to a millionth. -/
theorem c63_scores (m₀ : Morph Rat) (corpus : List (Str × List (Str × Str))) (minFreq : Int) (data : List ((Str × Tag) × Rat))
    (hest : estimate m₀ corpus minFreq = .ok data) (hcol : ∀ e ∈ data, ':' ∉ e.1.2.str)
    (m : Morph Rat) (hm : IsRu m ∨ IsUk m) (hlow : m.env.LowerStable) (hdata : m.est = some (cpdDawg data))
    (x : Str) (ps : List (Parse Rat)) (h : m.parse x = .ok ps)
    (hex : ∃ p ∈ ps, ∃ q, ((m.env.lower x, p.tag), q) ∈ data ∧ 1 / 1000000 ≤ q) :
    (∀ p ∈ ps, ∀ q, ((m.env.lower x, p.tag), q) ∈ data → p.score ≤ q ∧ q - 1 / 1000000 < p.score) ∧
    (∀ p ∈ ps, ':' ∉ p.tag.str → (∀ q, ((m.env.lower x, p.tag), q) ∉ data) → p.score = 0) ∧
    ps.Pairwise (fun a b => b.score ≤ a.score) := by
  have hpos : ∀ e ∈ data, 0 ≤ e.2 := fun e he => (c63_probability m₀ corpus minFreq data hest e he).1.le
  have hnd := estimate_keys_nodup m₀ corpus minFreq data hest
  obtain ⟨p0, hp0, q0, hq0, hq1⟩ := hex
  obtain ⟨hs, hp, _⟩ := c11_with_data m hm hlow _ hdata x ps h ⟨p0, hp0, ne_of_gt (c39_nonzero data hcol hnd hpos _ _ _ hq0 hq1)⟩
  refine ⟨?_, ?_, hs⟩
  · intro p hpp q hq
    rw [hp p hpp]
    exact c39_stored data hcol hnd hpos _ _ _ hq
  · intro p hpp hc hno
    rw [hp p hpp]
    exact c39_not_stored data hcol _ _ hc hno

/-! ### A concrete case: the hypotheses are met -/

def Demo.morphE : Morph Rat := { Demo.morphZ with est := none }

theorem Demo.morphE_isRu : IsRu Demo.morphE := by
  refine ⟨Demo.cls, ?_⟩
  unfold mkMorph
  show (initUnits (ruUnits (S := Rat)) Demo.cls >>= fun r =>
    pure (⟨Demo.morphE.env, Demo.morphE.dict, r.1, Demo.morphE.sub, r.2, Demo.morphE.est⟩ : Morph Rat)) = _
  rw [Demo.bound_ok]; rfl

/-- A corpus: three disambiguated occurrences of an ambiguous word (one of them capitalised), one that is not disambiguated, one marked as
unknown, and an unambiguous word. -/
def Demo.corpus : List (Str × List (Str × Str)) :=
  [(c!"Кош", [(c!"кош", c!"CONJ")]), (c!"кош", [(c!"кош", c!"NOUN,anim,femn sing,nomn")]), (c!"что", [(c!"что", c!"CONJ")]),
   (c!"кош", [(c!"кош", c!"CONJ"), (c!"кош", c!"NOUN,anim,femn sing,nomn")]), (c!"кош", [(c!"кош", c!"UNKN")]), (c!"кош", [(c!"кош", c!"CONJ")])]

theorem c63_demo : IsRu Demo.morphE ∧ Demo.morphE.env.LowerStable ∧ Demo.morphE.dict.WF ∧
    estimate Demo.morphE Demo.corpus 3 = .ok [((c!"кош", ⟨c!"CONJ"⟩), 3 / 5), ((c!"кош", ⟨c!"NOUN,anim,femn sing,nomn"⟩), 2 / 5)] ∧
    estimate Demo.morphE Demo.corpus 4 = .ok [] :=
  ⟨Demo.morphE_isRu, demoEnv_lowerStable, Demo.dictZ_wf, by decide +kernel, by decide +kernel⟩

def Demo.morphS : Morph Rat := { Demo.morphU with est := some [(c!"кош:NOUN,anim,femn sing,nomn", 666666)] }

theorem Demo.morphS_isRu : IsRu Demo.morphS := by
  refine ⟨Demo.cls, ?_⟩
  unfold mkMorph
  show (initUnits (ruUnits (S := Rat)) Demo.cls >>= fun r =>
    pure (⟨Demo.morphS.env, Demo.morphS.dict, r.1, Demo.morphS.sub, r.2, Demo.morphS.est⟩ : Morph Rat)) = _
  rw [Demo.bound_ok]; rfl

/-- Every result of a word gets the value of its tag, so the scores of a word that has two results with one tag can add up to more than 1. -/
theorem c63_scores_not_distribution : IsRu Demo.morphS ∧ Demo.morphS.dict.WF ∧
    (Demo.morphS.parse (c!"кош")).toOption.map (List.map Parse.score) = some [333333 / 500000, 333333 / 500000] :=
  ⟨Demo.morphS_isRu, Dict.check_wf _ (by decide +kernel), by decide +kernel⟩

end Verif
