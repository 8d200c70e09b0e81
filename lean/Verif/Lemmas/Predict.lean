/-
Prediction by endings: the loops stop at the longest known ending.
-/
import Verif.Spec.Predict
import Verif.Props.C08

set_option linter.unusedSectionVars false

namespace Verif

variable {S : Type} [Score S]

theorem predictionSplits_sorted (n : Nat) : (predictionSplits n).Pairwise (· > ·) := by
  unfold predictionSplits
  rw [List.pairwise_reverse, List.pairwise_map]
  exact List.pairwise_lt_range.imp (fun h => by omega)

theorem cntSum_pos {cs : List SfxCand} (hpos : ∀ c ∈ cs, 1 ≤ c.cnt) (hne : cs ≠ []) : 1 ≤ cntSum cs := by
  cases cs with
  | nil => exact absurd rfl hne
  | cons c cs =>
    have := hpos c (by simp)
    simp only [cntSum, List.map_cons, List.sum_cons]
    omega

/-- The loop over ending lengths uses the first length for which there is a candidate. -/
theorem sfxLoop_first (cands : Nat → Except PyErr (List SfxCand)) (hpos : ∀ i cs, cands i = .ok cs → ∀ c ∈ cs, 1 ≤ c.cnt) (is : List Nat)
    (seen : Seen) (r : List SfxCand × Nat × Seen) (h : sfxLoop cands is 1 seen = .ok r) :
    (r = ([], 1, seen) ∧ ∀ i ∈ is, cands i = .ok []) ∨
    ∃ before i after cs, is = before ++ i :: after ∧ (∀ j ∈ before, cands j = .ok []) ∧ cands i = .ok cs ∧ cs ≠ [] ∧
      r = ((dedupCands cs seen).1, 1 + cntSum cs, (dedupCands cs seen).2) := by
  induction is generalizing r with
  | nil => simp [sfxLoop] at h; subst h; exact .inl ⟨rfl, by simp⟩
  | cons i is ih =>
    rw [sfxLoop, bind_ok_iff] at h
    obtain ⟨cs, hcs, h⟩ := h
    by_cases hne : cs = []
    · subst hne
      have e1 : ¬ (1 + cntSum [] > 1) := by simp [cntSum]
      simp only [e1, if_false, dedupCands, bind_ok_iff, pure_eq_ok, Except.ok.injEq, List.nil_append] at h
      obtain ⟨r', hr', rfl⟩ := h
      have e2 : 1 + cntSum [] = 1 := rfl
      rw [e2] at hr'
      rcases ih _ hr' with ⟨rfl, h2⟩ | ⟨b, j, a, cs, h1, h2, h3⟩
      · exact .inl ⟨rfl, by simpa [hcs] using h2⟩
      · exact .inr ⟨i :: b, j, a, cs, by rw [h1]; rfl, by simpa [hcs] using h2, h3⟩
    · right
      have hs := cntSum_pos (hpos i cs hcs) hne
      have e1 : 1 + cntSum cs > 1 := by omega
      simp only [e1, if_true, pure_eq_ok, Except.ok.injEq] at h
      exact ⟨[], i, is, cs, rfl, by simp, hcs, hne, h.symm⟩

/-- The candidates for one ending are exactly the productive entries. -/
theorem sfxCands_iff (d : Dict) (sub : Subst) (wl : Str) (k i : Nat) (pre : Str) (t : Dawg (Nat × Nat × Nat)) (hpre : d.prefixes[k]? = some pre)
    (hw : pre <+: wl) (ht : d.pred[k]? = some t) (hi : i ∈ predictionSplits d.maxSuffixLength)
    (cs : List SfxCand) (h : sfxCands d sub t wl i = .ok cs) (c : SfxCand) :
    c ∈ cs ↔ d.Predicts sub wl k i c.suffix c.cnt c.para c.idx c.tag ∧ c.word = dropRight wl i ++ c.suffix := by
  constructor
  · intro hc
    obtain ⟨h1, h2, h3, h4, h5⟩ := sfxCands_mem d sub t wl i cs h c hc
    exact ⟨⟨⟨pre, hpre, hw⟩, ⟨t, ht, h5⟩, (mem_predictionSplits _ _).1 hi, h4, h2, h1⟩, h3⟩
  · rintro ⟨⟨_, ⟨t', ht', hs⟩, _, h4, h2, h1⟩, h3⟩
    rw [ht] at ht'; cases ht'
    simp only [sfxCands, bind_ok_iff, pure_eq_ok, Except.ok.injEq] at h
    obtain ⟨cs', hcs', rfl⟩ := h
    rw [List.mem_filter]
    refine ⟨?_, h1⟩
    obtain ⟨c', hc', hf⟩ := mapE_mem' hcs' ((mem_lookup _ _ _ _ _).2 ⟨h4, hs⟩)
    simp only [bind_ok_iff, pure_eq_ok, Except.ok.injEq] at hf
    obtain ⟨tag, htag, rfl⟩ := hf
    rw [h2] at htag; cases htag
    have : c = SfxCand.mk c.cnt (dropRight wl i ++ c.suffix) c.suffix c.tag c.para c.idx := by rw [← h3]
    rw [this]; exact hc'

theorem lookup_perm {V : Type} (d : Dawg V) (sub : Subst) (hs : sub.Proper) (w : Str) :
    (lookup d sub w).Perm (d.filter fun e => decide (Spells sub w e.1)) := by
  unfold lookup Dawg.similarItems Dawg.similarKeys
  have hn := nodup_variants sub hs w
  have hv : ∀ x, Spells sub w x ↔ x ∈ variants sub w := fun x => (mem_variants_iff sub w x).symm
  have : (d.filter fun e => decide (Spells sub w e.1)) = d.filter fun e => decide (e.1 ∈ variants sub w) := by
    apply List.filter_congr
    intro e _
    simp [hv]
  rw [this]
  generalize variants sub w = vs at hn
  clear hv this
  rw [List.flatMap_map]
  have key : ∀ v, (d.vals v).map (fun r => (v, r)) = d.filter fun e => decide (e.1 = v) := by
    intro v
    unfold Dawg.vals
    rw [List.map_map]
    conv_rhs => rw [← List.map_id (d.filter fun e => decide (e.1 = v))]
    apply List.map_congr_left
    intro e he
    have := (List.mem_filter.1 he).2
    simp only [decide_eq_true_eq] at this
    simp [← this]
  have hskip : ∀ l : List Str, (l.filter d.has).flatMap (fun v => (d.vals v).map (fun r => (v, r))) = l.flatMap fun v => d.filter fun e => decide (e.1 = v) := by
    intro l
    induction l with
    | nil => rfl
    | cons v l ih =>
      rw [List.filter_cons, List.flatMap_cons]
      split
      · rw [List.flatMap_cons, ih, key]
      · next hh =>
        rw [ih]
        have : d.filter (fun e => decide (e.1 = v)) = [] := by
          rw [List.filter_eq_nil_iff]
          intro e he h'
          simp only [decide_eq_true_eq] at h'
          exact hh ((Dawg.has_iff d v).2 ⟨e.2, by rw [← h']; exact he⟩)
        rw [this]; rfl
  show List.Perm ((vs.filter d.has).flatMap fun v => (d.vals v).map (fun r => (v, r))) _
  rw [hskip]
  induction vs with
  | nil => simp
  | cons v vs ih =>
    rw [List.nodup_cons] at hn
    rw [List.flatMap_cons]
    refine (List.Perm.append_left _ (ih hn.2)).trans ?_
    clear ih hskip key
    induction d with
    | nil => simp
    | cons e d ih =>
      rw [List.filter_cons, List.filter_cons, List.filter_cons]
      by_cases h1 : e.1 = v
      · have h2 : e.1 ∉ vs := h1 ▸ hn.1
        rw [if_pos (by simpa using h1), if_neg (by simpa using h2), if_pos (by simp [h1]), List.cons_append]
        exact ih.cons e
      · by_cases h2 : e.1 ∈ vs
        · rw [if_neg (by simpa using h1), if_pos (by simpa using h2), if_pos (by simp [h2])]
          exact List.perm_middle.trans (ih.cons e)
        · rw [if_neg (by simpa using h1), if_neg (by simpa using h2), if_neg (by simp [h1, h2])]
          exact ih

theorem cntSum_eq (d : Dict) (sub : Subst) (hs : sub.Proper) (wl : Str) (k i : Nat) (t : Dawg (Nat × Nat × Nat)) (ht : d.pred[k]? = some t)
    (cs : List SfxCand) (h : sfxCands d sub t wl i = .ok cs) : cntSum cs = d.endingCount sub wl k i := by
  simp only [sfxCands, bind_ok_iff, pure_eq_ok, Except.ok.injEq] at h
  obtain ⟨cs', hcs', rfl⟩ := h
  unfold Dict.endingCount
  rw [ht, Option.getD_some]
  let prod : Str × Nat × Nat × Nat → Bool := fun e => match d.tagInfo e.2.2.1 e.2.2.2 with
    | .ok t => t.isProductive
    | .error _ => false
  have e1 : cntSum (cs'.filter fun c => c.tag.isProductive) =
      (((lookup t sub (takeRight wl i)).filter prod).map fun e => e.2.1).sum := by
    have hf := (mapE_ok_iff _ _ _).1 hcs'
    clear hcs' ht
    generalize lookup t sub (takeRight wl i) = l at hf
    unfold cntSum
    induction hf with
    | nil => rfl
    | @cons a b l₁ l₂ hab _ ih =>
      simp only [bind_ok_iff, pure_eq_ok, Except.ok.injEq] at hab
      obtain ⟨tag, htag, rfl⟩ := hab
      have hp : prod a = tag.isProductive := by simp only [prod, htag]
      simp only [List.filter_cons, hp]
      split
      · simp only [List.map_cons, List.sum_cons, ih]
      · exact ih
  rw [e1]
  have hp := ((lookup_perm t sub hs (takeRight wl i)).filter prod).map fun e => e.2.1
  rw [hp.sum_nat, List.filter_filter]
  congr 2
  apply List.filter_congr
  intro e _
  rw [Bool.and_comm]
  rfl

/-- The predictions of all prefixes of the word. -/
theorem sfxPrefixLoop_longest (d : Dict) (hd : d.WF) (sub : Subst) (hs : sub.Proper) (wl : Str) (ips : List (Nat × Str))
    (hips : ∀ ip ∈ ips, ip ∈ sfxPrefixes d wl) (seen : Seen)
    (r : List (SfxCand × Nat) × Seen) (h : sfxPrefixLoop d sub wl ips seen = .ok r) :
    (∀ c ∈ r.1, ∃ ip ∈ ips, ∃ i, d.LongestEnding sub wl ip.1 i ∧ d.Predicts sub wl ip.1 i c.1.suffix c.1.cnt c.1.para c.1.idx c.1.tag ∧
      c.1.word = dropRight wl i ++ c.1.suffix ∧ c.2 = 1 + d.endingCount sub wl ip.1 i) ∧
    (∀ ip ∈ ips, ∀ i, d.LongestEnding sub wl ip.1 i → ∀ c : SfxCand, d.Predicts sub wl ip.1 i c.suffix c.cnt c.para c.idx c.tag →
      c.word = dropRight wl i ++ c.suffix → c.key ∈ seen ∨ ∃ c' ∈ r.1, c'.1.key = c.key) := by
  induction ips generalizing seen r with
  | nil => simp [sfxPrefixLoop] at h; subst h; simp
  | cons ip ips ih =>
    simp only [sfxPrefixLoop, bind_ok_iff, pure_eq_ok, Except.ok.injEq, pyGet_ok_iff] at h
    obtain ⟨t, ht, r1, hr1, r2, hr2, rfl⟩ := h
    obtain ⟨ih1, ih2⟩ := ih (fun ip hip => hips ip (by simp [hip])) _ _ hr2
    obtain ⟨hp1, hp2⟩ := (mem_sfxPrefixes d wl ip).1 (hips ip (by simp))
    have hpos : ∀ i cs, sfxCands d sub t wl i = .ok cs → ∀ c ∈ cs, 1 ≤ c.cnt := by
      intro i cs hcs c hc
      obtain ⟨_, _, _, _, h5⟩ := sfxCands_mem d sub t wl i cs hcs c hc
      exact (hd.pred ip.1 t ht _ h5).1
    have iff := fun i hi cs hcs c => sfxCands_iff d sub wl ip.1 i ip.2 t hp1 hp2 ht hi cs hcs c
    have toP : ∀ i, i ∈ predictionSplits d.maxSuffixLength → sfxCands d sub t wl i = .ok [] →
        ¬ ∃ sfx cnt para idx tag, d.Predicts sub wl ip.1 i sfx cnt para idx tag := by
      rintro i hi hcs ⟨sfx, cnt, para, idx, tag, hpr⟩
      have := (iff i hi [] hcs ⟨cnt, dropRight wl i ++ sfx, sfx, tag, para, idx⟩).2 ⟨hpr, rfl⟩
      simp at this
    obtain ⟨sp1, sp2, sp3⟩ := sfxLoop_spec _ _ _ _ _ hr1
    rcases sfxLoop_first _ hpos _ _ _ hr1 with ⟨rfl, hnone⟩ | ⟨before, i, after, cs, hsplit, hbefore, hcs, hne, rfl⟩
    · simp only [List.map_nil, List.nil_append]
      refine ⟨fun c hc => ?_, fun ip' hip' i hl c hc hcw => ?_⟩
      · obtain ⟨ip', hip', rest⟩ := ih1 c hc
        exact ⟨ip', by simp [hip'], rest⟩
      · rcases List.mem_cons.1 hip' with rfl | hip'
        · exact absurd ⟨_, _, _, _, _, hc⟩ (toP i ((mem_predictionSplits _ _).2 hc.len) (hnone i ((mem_predictionSplits _ _).2 hc.len)))
        · exact ih2 ip' hip' i hl c hc hcw
    · have hi : i ∈ predictionSplits d.maxSuffixLength := by rw [hsplit]; simp
      have hsorted := predictionSplits_sorted d.maxSuffixLength
      rw [hsplit, List.pairwise_append] at hsorted
      have hlong : d.LongestEnding sub wl ip.1 i := by
        constructor
        · obtain ⟨c, hc⟩ := List.exists_mem_of_ne_nil cs hne
          exact ⟨_, _, _, _, _, ((iff i hi cs hcs c).1 hc).1⟩
        · intro j hj hp
          have hjm : j ∈ predictionSplits d.maxSuffixLength := by
            obtain ⟨_, _, _, _, _, hp⟩ := hp
            exact (mem_predictionSplits _ _).2 hp.len
          have hjb : j ∈ before := by
            rw [hsplit] at hjm
            rcases List.mem_append.1 hjm with h | h
            · exact h
            · rcases List.mem_cons.1 h with h | h
              · omega
              · have := (List.pairwise_cons.1 hsorted.2.1).1 j h; omega
          exact toP j hjm (hbefore j hjb) hp
      have huniq : ∀ i', d.LongestEnding sub wl ip.1 i' → i' = i := by
        intro i' hl'
        rcases Nat.lt_trichotomy i' i with h | h | h
        · exact absurd hlong.1 (hl'.2 i h)
        · exact h
        · exact absurd hl'.1 (hlong.2 i' h)
      refine ⟨fun c hc => ?_, fun ip' hip' i' hl c hc hcw => ?_⟩
      · rcases List.mem_append.1 hc with hc | hc
        · obtain ⟨c', hc', rfl⟩ := List.mem_map.1 hc
          have hc2 := (iff i hi cs hcs c').1 ((dedupCands_sub _ _).subset hc')
          exact ⟨ip, by simp, i, hlong, hc2.1, hc2.2, by rw [← cntSum_eq d sub hs wl ip.1 i t ht cs hcs]⟩
        · obtain ⟨ip', hip', rest⟩ := ih1 c hc
          exact ⟨ip', by simp [hip'], rest⟩
      · rcases List.mem_cons.1 hip' with rfl | hip'
        · have := huniq i' hl
          subst this
          have hc2 : c ∈ cs := (iff i' hi cs hcs c).2 ⟨hc, hcw⟩
          have hkey : c.key ∈ (dedupCands cs seen).2 := by
            clear sp1 sp2 sp3 hr2 hr1 ih1 ih2 hcs hne
            have : ∀ (cs : List SfxCand) (seen : Seen), c ∈ cs ∨ c.key ∈ seen → c.key ∈ (dedupCands cs seen).2 := by
              intro cs
              induction cs with
              | nil => intro seen h; simpa [dedupCands] using h
              | cons a cs ih =>
                intro seen h
                rw [dedupCands]
                split
                · next hs =>
                  apply ih
                  rcases h with h | h
                  · rcases List.mem_cons.1 h with rfl | h
                    · exact .inr hs
                    · exact .inl h
                  · exact .inr h
                · apply ih
                  rcases h with h | h
                  · rcases List.mem_cons.1 h with rfl | h
                    · exact .inr (by simp)
                    · exact .inl h
                  · exact .inr (by simp [h])
            exact this cs seen (.inl hc2)
          rcases (sp3 _).1 hkey with h | h
          · exact .inl h
          · obtain ⟨c', hc', he⟩ := List.mem_map.1 h
            exact .inr ⟨(c', 1 + cntSum cs), List.mem_append_left _ (List.mem_map.2 ⟨c', hc', rfl⟩), he⟩
        · rcases ih2 ip' hip' i' hl c hc hcw with h | ⟨c', hc', he⟩
          · rcases (sp3 _).1 h with h | h
            · exact .inl h
            · obtain ⟨c', hc', he⟩ := List.mem_map.1 h
              exact .inr ⟨(c', 1 + cntSum cs), List.mem_append_left _ (List.mem_map.2 ⟨c', hc', rfl⟩), he⟩
          · exact .inr ⟨c', List.mem_append_right _ hc', he⟩

/-! ### Where the members of `seen_parses` come from -/

theorem addParses_seen (ps : List (Parse S)) (seen : Seen) (p : Parse S) (hp : p ∈ ps) : p.key ∈ (addParses ps seen).2 := by
  have : ∀ (ps : List (Parse S)) (seen : Seen), p ∈ ps ∨ p.key ∈ seen → p.key ∈ (addParses ps seen).2 := by
    intro ps
    induction ps with
    | nil => intro seen h; simpa [addParses] using h
    | cons a ps ih =>
      intro seen h
      rw [addParses]
      split
      · next hs =>
        apply ih
        rcases h with h | h
        · rcases List.mem_cons.1 h with rfl | h
          · exact .inr hs
          · exact .inl h
        · exact .inr h
      · apply ih
        rcases h with h | h
        · rcases List.mem_cons.1 h with rfl | h
          · exact .inr (by simp)
          · exact .inl h
        · exact .inr (by simp [h])
  exact this ps seen (.inl hp)

/-- What is in `seen_parses` after a unit was there before, or belongs to a result of the unit, or was put there by the adverb unit. -/
theorem unitParse_seen_origin (m : Morph S) (rec : Rec S) (u : BUnit S) (word wl : Str) (seen : Seen)
    (r : List (Parse S) × Seen) (h : unitParse m rec u word wl seen = .ok r) (k : SeenKey) (hk : k ∈ r.2) :
    k ∈ seen ∨ (∃ p ∈ r.1, p.key = k) ∨ ∃ x, k = .full x := by
  have fin : ∀ (x : List (Parse S)) (s : Seen), (∀ k, k ∈ s ↔ k ∈ seen ∨ k ∈ x.map Parse.key) → k ∈ s →
      k ∈ seen ∨ (∃ p ∈ x, p.key = k) ∨ ∃ x, k = .full x := by
    intro x s h1 h2
    rcases (h1 k).1 h2 with h | h
    · exact .inl h
    · exact .inr (.inl (List.mem_map.1 h))
  unfold unitParse at h
  split at h
  case h_8 =>
    split at h
    · simp at h; subst h; exact .inl hk
    · simp only [bind_ok_iff, pure_eq_ok, Except.ok.injEq] at h
      obtain ⟨ps, _, rfl⟩ := h
      exact fin _ _ (addParses_spec _ seen).2.2 hk
  case h_9 =>
    simp only [bind_ok_iff, pure_eq_ok, Except.ok.injEq] at h
    obtain ⟨b, _, rfl⟩ := h
    cases b
    · exact .inl hk
    · simp only [if_true, List.mem_cons] at hk
      rcases hk with rfl | hk
      · exact .inr (.inr ⟨_, rfl⟩)
      · exact .inl hk
  case h_11 | h_12 =>
    simp only [bind_ok_iff, pure_eq_ok, Except.ok.injEq] at h
    obtain ⟨ps, _, rfl⟩ := h
    exact fin _ _ (addParses_spec _ seen).2.2 hk
  case h_13 =>
    unfold suffixParse at h
    split at h
    · simp at h; subst h; exact .inl hk
    · simp only [bind_ok_iff, pure_eq_ok, Except.ok.injEq] at h
      obtain ⟨r', hr', ps, hps, rfl⟩ := h
      rcases ((sfxPrefixLoop_spec _ _ _ _ _ _ hr').2.2 k).1 hk with h | h
      · exact .inl h
      · obtain ⟨c, hc, rfl⟩ := List.mem_map.1 h
        obtain ⟨p, hp, hb⟩ := mapE_mem' hps hc
        simp only [sfxBuild, bind_ok_iff, pure_eq_ok, Except.ok.injEq] at hb
        obtain ⟨nf, hnf, rfl⟩ := hb
        exact .inr (.inl ⟨_, (sortByScore_perm ps).mem_iff.2 hp, rfl⟩)
  all_goals
    left
    first
      | (simp only [Except.ok.injEq] at h; subst h; exact hk)
      | (simp only [bind_ok_iff, pure_eq_ok, Except.ok.injEq] at h
         obtain ⟨ps, _, rfl⟩ := h
         exact hk)

/-- Each unit of a group is run; what it finds already in `seen_parses` belongs to another result of the group (or was put there by the
adverb unit). -/
theorem groupParse_unit_seen (m : Morph S) (rec : Rec S) (word wl : Str) (g : List (BUnit S)) (out : List (Parse S))
    (h : groupParse m rec word wl g [] = .ok out) (u : BUnit S) (hu : u ∈ g) :
    ∃ seen r, unitParse m rec u word wl seen = .ok r ∧ (∀ p ∈ r.1, p ∈ out) ∧ ∀ k ∈ seen, (∃ p ∈ out, p.key = k) ∨ ∃ x, k = .full x := by
  have key : ∀ (g : List (BUnit S)) (seen : Seen) (done out : List (Parse S)), groupParse m rec word wl g seen = .ok out → u ∈ g →
      (∀ k ∈ seen, (∃ p ∈ done, p.key = k) ∨ ∃ x, k = .full x) →
      ∃ seen r, unitParse m rec u word wl seen = .ok r ∧ (∀ p ∈ r.1, p ∈ done ++ out) ∧
        ∀ k ∈ seen, (∃ p ∈ done ++ out, p.key = k) ∨ ∃ x, k = .full x := by
    intro g
    induction g with
    | nil => intro _ _ _ _ h; simp at h
    | cons v g ih =>
      intro seen done out h hu hseen
      simp only [groupParse, bind_ok_iff, pure_eq_ok, Except.ok.injEq] at h
      obtain ⟨r, hr, rest, hrest, rfl⟩ := h
      rcases List.mem_cons.1 hu with rfl | hu
      · refine ⟨seen, r, hr, fun p hp => by simp [hp], fun k hk => ?_⟩
        rcases hseen k hk with ⟨p, hp, he⟩ | hx
        · exact .inl ⟨p, by simp [hp], he⟩
        · exact .inr hx
      · have hs' : ∀ k ∈ r.2, (∃ p ∈ done ++ r.1, p.key = k) ∨ ∃ x, k = .full x := by
          intro k hk
          rcases unitParse_seen_origin m rec v word wl seen r hr k hk with h | ⟨p, hp, he⟩ | h
          · rcases hseen k h with ⟨p, hp, he⟩ | hx
            · exact .inl ⟨p, by simp [hp], he⟩
            · exact .inr hx
          · exact .inl ⟨p, by simp [hp], he⟩
          · exact .inr h
        have := ih r.2 (done ++ r.1) rest hrest hu hs'
        rwa [List.append_assoc] at this
  have := key g [] [] out h hu (by simp)
  simpa using this

end Verif
