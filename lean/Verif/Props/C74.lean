/-
C74 — in what order results come.
-/
import Verif.Spec.Order
import Verif.Lemmas.DoubleSim
import Verif.Props.C02
import Verif.Props.C11
import Verif.Props.C13
import Verif.Props.C23
import Verif.Props.C40
import Verif.Props.C59
import Verif.Props.C71

set_option linter.unusedSectionVars false

namespace Verif

variable {S : Type} [Score S]

/-! ### Spellings -/

theorem variants_ne (sub : Subst) (x : Str) : ∃ vs, variants sub x = x :: vs := by
  induction x with
  | nil => exact ⟨[], rfl⟩
  | cons c cs ih =>
    obtain ⟨vs, h⟩ := ih
    simp [variants, h]

/-- The spelling `u` of `x` is tried before `v`: where they first differ, `u` has a substituted letter, or has no substituted letters from
there on. -/
def TriedBefore (sub : Subst) (x u v : Str) : Prop :=
  ∃ a b c u' v', u = a ++ b :: u' ∧ v = a ++ c :: v' ∧ b ≠ c ∧ (b :: u' = x.drop a.length ∨ ∃ x' ∈ x[a.length]?, b ∈ sub x')

theorem TriedBefore.cons {sub : Subst} {x u v : Str} (h : TriedBefore sub x u v) (d f : Char) : TriedBefore sub (d :: x) (f :: u) (f :: v) := by
  obtain ⟨a, b, c, u', v', rfl, rfl, h1, h2⟩ := h
  exact ⟨f :: a, b, c, u', v', rfl, rfl, h1, by simpa using h2⟩

/-- **C74**, spellings.  The spellings of `x` and the order in which they are tried: `x` itself first. -/
theorem c74_spellings (sub : Subst) (hs : sub.Proper) (x : Str) :
    (∀ v, v ∈ variants sub x ↔ Spells sub x v) ∧ (variants sub x).head? = some x ∧ (variants sub x).Pairwise (TriedBefore sub x) := by
  refine ⟨fun v => mem_variants_iff sub x v, ?_, ?_⟩
  · obtain ⟨vs, h⟩ := variants_ne sub x
    rw [h]; rfl
  · induction x with
    | nil => simp [variants]
    | cons d ds ih =>
      obtain ⟨vs, h⟩ := variants_ne sub ds
      have e : variants sub (d :: ds) = (d :: ds) :: (((sub d).flatMap fun c' => (ds :: vs).map (c' :: ·)) ++ vs.map (d :: ·)) := by
        simp [variants, h]
      rw [e]
      rw [h] at ih
      have first : ∀ v ∈ ((sub d).flatMap fun c' => (ds :: vs).map (c' :: ·)) ++ vs.map (d :: ·), TriedBefore sub (d :: ds) (d :: ds) v := by
        intro v hv
        rcases List.mem_append.1 hv with hv | hv
        · obtain ⟨c', hc', hv⟩ := List.mem_flatMap.1 hv
          obtain ⟨v', _, rfl⟩ := List.mem_map.1 hv
          refine ⟨[], d, c', ds, v', rfl, rfl, ?_, .inl rfl⟩
          rintro rfl
          exact absurd hc' (hs _).2
        · obtain ⟨v', hv', rfl⟩ := List.mem_map.1 hv
          exact ((List.pairwise_cons.1 ih).1 v' hv').cons d d
      refine List.pairwise_cons.2 ⟨first, ?_⟩
      rw [List.pairwise_append]
      refine ⟨?_, ?_, ?_⟩
      · rw [List.flatMap, List.pairwise_flatten]
        constructor
        · intro l hl
          obtain ⟨c', _, rfl⟩ := List.mem_map.1 hl
          rw [List.pairwise_map]
          exact ih.imp fun h => h.cons d c'
        · rw [List.pairwise_map]
          refine List.Pairwise.imp_of_mem ?_ (hs d).1
          intro b c hb _ hbc u hu v hv
          obtain ⟨u', _, rfl⟩ := List.mem_map.1 hu
          obtain ⟨v', _, rfl⟩ := List.mem_map.1 hv
          exact ⟨[], b, c, u', v', rfl, rfl, hbc, .inr ⟨d, by simp, hb⟩⟩
      · rw [List.pairwise_map]
        exact (List.pairwise_cons.1 ih).2.imp fun h => h.cons d d
      · intro u hu v hv
        obtain ⟨c', hc', hu⟩ := List.mem_flatMap.1 hu
        obtain ⟨u', _, rfl⟩ := List.mem_map.1 hu
        obtain ⟨v', _, rfl⟩ := List.mem_map.1 hv
        refine ⟨[], c', d, u', v', rfl, rfl, ?_, .inr ⟨d, by simp, hc'⟩⟩
        rintro rfl
        exact absurd hc' (hs _).2

theorem lookup_inOrder {V : Type} (d : Dawg V) (sub : Subst) (w : Str) : lookup d sub w = d.inOrder sub w := by
  unfold lookup Dawg.similarItems Dawg.similarKeys Dawg.inOrder
  generalize variants sub w = vs
  rw [List.flatMap_map]
  have key : ∀ v, (d.vals v).map (fun r => (v, r)) = d.filter fun e => decide (e.1 = v) := by
    intro v
    unfold Dawg.vals
    rw [List.map_map]
    conv_rhs => rw [← List.map_id (d.filter fun e => decide (e.1 = v))]
    apply List.map_congr_left
    intro e he
    have := (List.mem_filter.1 he).2
    simp only [decide_eq_true_eq] at this
    simp [← this]
  induction vs with
  | nil => rfl
  | cons v l ih =>
    rw [List.filter_cons, List.flatMap_cons]
    split
    · rw [List.flatMap_cons, ih]
      dsimp only
      rw [key]
    · next hh =>
      rw [ih]
      have : d.filter (fun e => decide (e.1 = v)) = [] := by
        rw [List.filter_eq_nil_iff]
        intro e he h'
        simp only [decide_eq_true_eq] at h'
        exact hh ((Dawg.has_iff d v).2 ⟨e.2, by rw [← h']; exact he⟩)
      rw [this]; rfl

/-! ### P(t|w) -/

theorem prior_eq (m : Morph Rat) (dawg : List (Str × Nat)) (he : m.est = some dawg) (wl : Str) (t : Tag) : m.prior wl t = prob dawg wl t := by
  unfold Morph.prior prob
  rw [he]
  simp [Score.div, Score.ofNat]

theorem stableBy_const {α : Type} (key : α → Rat) (l : List α) (h : ∀ a ∈ l, key a = 0) : StableBy key l l :=
  ⟨.refl _, by rw [List.pairwise_iff_forall_sublist]; intro a b hab; rw [h a (hab.subset (by simp)), h b (hab.subset (by simp))], fun _ => rfl⟩

theorem insertionSort_stableBy {α : Type} (key : α → Rat) (r : α → α → Prop) [DecidableRel r] (hr : ∀ a b, r a b ↔ key b ≤ key a) (l : List α) :
    StableBy key l (l.insertionSort r) := by
  have tot : Std.Total r := ⟨fun a b => by rw [hr, hr]; exact le_total _ _⟩
  have tr : IsTrans α r := ⟨fun a b c => by rw [hr, hr, hr]; exact fun h1 h2 => le_trans h2 h1⟩
  refine ⟨List.perm_insertionSort _ _, (List.pairwise_insertionSort r l).imp fun h => (hr _ _).1 h, fun s => ?_⟩
  have h1 : (l.filter fun p => decide (key p = s)).Sublist (l.insertionSort r) := by
    apply List.sublist_insertionSort
    · rw [List.pairwise_iff_forall_sublist]
      intro a b hab
      have ha : a ∈ l.filter fun p => decide (key p = s) := hab.subset (by simp)
      have hb : b ∈ l.filter fun p => decide (key p = s) := hab.subset (by simp)
      simp only [List.mem_filter, decide_eq_true_eq] at ha hb
      rw [hr, ha.2, hb.2]
    · exact List.filter_sublist
  have h2 := h1.filter fun p => decide (key p = s)
  rw [List.filter_filter] at h2
  simp only [Bool.and_self] at h2
  exact (h2.eq_of_length ((List.perm_insertionSort r l).filter _).length_eq.symm).symm

theorem StableBy.of_map {α β : Type} {f : α → β} {key : β → Rat} {l₀ l : List α} (h : StableBy (fun a => key (f a)) l₀ l) :
    StableBy key (l₀.map f) (l.map f) := by
  refine ⟨h.perm.map f, List.pairwise_map.2 h.sorted, fun s => ?_⟩
  rw [List.filter_map, List.filter_map]
  exact congrArg _ (h.stable s)

/-- The order of the answer of `parse`. -/
theorem parse_order (m : Morph Rat) (rec : Rec Rat) (w : Str) (ps : List (Parse Rat)) (h : parseStep m rec w = .ok ps) :
    ∃ res, runParse m rec w (m.env.lower w) m.units [] [] = .ok res ∧
      StableBy (fun c => m.prior (m.env.lower w) c.2.1) (res.map Parse.core) (ps.map Parse.core) := by
  unfold parseStep at h
  rw [bind_ok_iff] at h
  obtain ⟨res, h1, h2⟩ := h
  refine ⟨res, h1, ?_⟩
  cases he : m.est with
  | none =>
    rw [he] at h2
    simp only [pure_eq_ok, Except.ok.injEq] at h2
    subst h2
    exact stableBy_const _ _ fun _ _ => by simp [Morph.prior, he]
  | some dawg =>
    rw [he] at h2
    simp only at h2
    unfold applyToParses at h2
    split at h2
    · next hn => simp at h2; subst h2; subst hn; exact stableBy_const _ _ (by simp)
    · dsimp only at h2
      split at h2
      · next hz =>
        split at h2
        · simp at h2
        · simp at h2; subst h2
          rw [List.map_map]
          refine stableBy_const _ _ ?_
          intro c hc
          obtain ⟨p, hp, rfl⟩ := List.mem_map.1 hc
          rw [sumS_eq] at hz
          have hz : (res.map fun p => (prob dawg (m.env.lower w) p.tag : Rat)).sum = 0 := by simpa [Score.isZero] using hz
          have hle := List.single_le_sum (l := res.map fun p => (prob dawg (m.env.lower w) p.tag : Rat)) (by
            intro x hx; obtain ⟨p, _, rfl⟩ := List.mem_map.1 hx; exact prob_nonneg _ _ _) _ (List.mem_map.2 ⟨p, hp, rfl⟩)
          rw [hz] at hle
          rw [prior_eq m dawg he]
          exact le_antisymm hle (prob_nonneg _ _ _)
      · simp at h2; subst h2
        have := insertionSort_stableBy (fun p : Parse Rat => p.score) (fun a b => Score.le b.score a.score = true)
          (by intro a b; simp [Score.le]) (res.map fun p => { p with score := prob dawg (m.env.lower w) p.tag })
        have hmem : ∀ p ∈ sortByScore (res.map fun p => ({ p with score := prob dawg (m.env.lower w) p.tag } : Parse Rat)),
            p.score = m.prior (m.env.lower w) p.tag := by
          intro p hp
          obtain ⟨q, _, rfl⟩ := List.mem_map.1 ((sortByScore_perm _).mem_iff.1 hp)
          rw [prior_eq m dawg he]
        have e : res.map Parse.core = (res.map fun p => ({ p with score := prob dawg (m.env.lower w) p.tag } : Parse Rat)).map Parse.core := by
          rw [List.map_map]; rfl
        rw [e]
        apply StableBy.of_map (f := Parse.core)
        refine ⟨this.perm, ?_, fun s => ?_⟩
        · refine List.Pairwise.imp_of_mem ?_ this.sorted
          intro a b ha hb hab
          show m.prior _ b.tag ≤ m.prior _ a.tag
          rw [← hmem a ha, ← hmem b hb]; exact hab
        · have h3 := this.stable s
          rw [List.filter_congr (q := fun a => decide (m.prior (m.env.lower w) a.core.2.1 = s))] at h3
          · rw [show List.insertionSort _ _ = sortByScore _ from rfl] at h3
            refine h3.trans (List.filter_congr ?_)
            intro p hp
            rw [hmem p ((sortByScore_perm _).mem_iff.2 hp)]; rfl
          · intro p hp
            rw [hmem p hp]; rfl

/-- The order of the answer of `tag`. -/
theorem tag_order (m : Morph Rat) (rec : Rec Rat) (w : Str) (ts : List Tag) (h : tagStep m rec w = .ok ts) :
    ∃ res, runTag m rec w (m.env.lower w) m.units [] [] = .ok res ∧ StableBy (m.prior (m.env.lower w)) res ts := by
  unfold tagStep at h
  rw [bind_ok_iff] at h
  obtain ⟨res, h1, h2⟩ := h
  refine ⟨res, h1, ?_⟩
  cases he : m.est with
  | none =>
    rw [he] at h2
    simp only [pure_eq_ok, Except.ok.injEq] at h2
    subst h2
    exact stableBy_const _ _ fun _ _ => by simp [Morph.prior, he]
  | some dawg =>
    rw [he] at h2
    simp only [pure_eq_ok, Except.ok.injEq] at h2
    subst h2
    exact insertionSort_stableBy _ _ (fun a b => by rw [prior_eq m dawg he, prior_eq m dawg he]; simp [Score.le]) _

/-! ### Predictions -/

/-- The prediction made by a line of a table. -/
def Ending.cand (wl : Str) (e : Ending) : SfxCand := ⟨e.cnt, dropRight wl e.i ++ e.sfx, e.sfx, e.tag, e.para, e.idx⟩

theorem sfxTagLoop_none (cands : Nat → Except PyErr (List SfxCand)) (is : List Nat) (seen : SeenTags) (h : ∀ i ∈ is, cands i = .ok []) :
    sfxTagLoop cands is seen = .ok ([], seen) := by
  induction is with
  | nil => rfl
  | cons i is ih =>
    rw [sfxTagLoop, h i (by simp), ok_bind]
    simp only [dedupTagCands, ne_eq, not_true_eq_false, if_false]
    rw [ih fun j hj => h j (by simp [hj])]
    rfl

theorem sfxTagLoop_first (cands : Nat → Except PyErr (List SfxCand)) (before : List Nat) (i : Nat) (after : List Nat) (cs : List SfxCand) (seen : SeenTags)
    (h : ∀ j ∈ before, cands j = .ok []) (hi : cands i = .ok cs) (hne : cs ≠ []) :
    sfxTagLoop cands (before ++ i :: after) seen = .ok (dedupTagCands cs seen) := by
  induction before with
  | nil => rw [List.nil_append, sfxTagLoop, hi, ok_bind]; simp [hne]
  | cons j js ih =>
    rw [List.cons_append, sfxTagLoop, h j (by simp), ok_bind]
    simp only [dedupTagCands, ne_eq, not_true_eq_false, if_false]
    rw [ih fun j hj => h j (by simp [hj])]
    rfl

theorem dedupTagCands_append (a b : List SfxCand) (seen : SeenTags) : dedupTagCands (a ++ b) seen =
    ((dedupTagCands a seen).1 ++ (dedupTagCands b (dedupTagCands a seen).2).1, (dedupTagCands b (dedupTagCands a seen).2).2) := by
  induction a generalizing seen with
  | nil => simp [dedupTagCands]
  | cons c a ih =>
    simp only [List.cons_append, dedupTagCands]
    split
    · exact ih seen
    · simp only [ih, List.cons_append]

theorem sfxCands_lines (d : Dict) (sub : Subst) (t : Dawg (Nat × Nat × Nat)) (wl : Str) (i : Nat) (cs : List SfxCand) (h : sfxCands d sub t wl i = .ok cs) :
    cs.map (fun c => (c.suffix, (c.cnt, c.para, c.idx))) = (t.inOrder sub (takeRight wl i)).filter fun x => d.productiveForm x.2.2.1 x.2.2.2 := by
  simp only [sfxCands, bind_ok_iff, pure_eq_ok, Except.ok.injEq] at h
  obtain ⟨cs', hcs', rfl⟩ := h
  rw [lookup_inOrder] at hcs'
  have hf := (mapE_ok_iff _ _ _).1 hcs'
  clear hcs'
  generalize t.inOrder sub (takeRight wl i) = l at hf
  induction hf with
  | nil => rfl
  | @cons a b l₁ l₂ hab _ ih =>
    simp only [bind_ok_iff, pure_eq_ok, Except.ok.injEq] at hab
    obtain ⟨tag, htag, rfl⟩ := hab
    have hp : d.productiveForm a.2.2.1 a.2.2.2 = tag.isProductive := by simp only [Dict.productiveForm, htag]
    simp only [List.filter_cons, hp]
    split
    · simp only [List.map_cons, ih]
    · exact ih

/-- The lines used for one paradigm prefix. -/
structure Dict.Block (d : Dict) (sub : Subst) (wl : Str) (k : Nat) (E : List Ending) : Prop where
  sound : ∀ e ∈ E, e.k = k ∧ d.LongestEnding sub wl e.k e.i ∧ d.Predicts sub wl e.k e.i e.sfx e.cnt e.para e.idx e.tag
  lines : ∀ (i : Nat) (t : Dawg (Nat × Nat × Nat)), d.LongestEnding sub wl k i → d.pred[k]? = some t →
    E.map (fun e => (e.sfx, (e.cnt, e.para, e.idx))) = (t.inOrder sub (takeRight wl i)).filter fun x => d.productiveForm x.2.2.1 x.2.2.2

theorem sfxLoop_block (d : Dict) (hd : d.WF) (sub : Subst) (hs : sub.Proper) (wl : Str) (ip : Nat × Str) (hip : ip ∈ sfxPrefixes d wl)
    (t : Dawg (Nat × Nat × Nat)) (ht : d.pred[ip.1]? = some t) (seen : Seen) (seenT : SeenTags) (r : List SfxCand × Nat × Seen)
    (rt : List (Nat × Tag) × SeenTags)
    (h : sfxLoop (sfxCands d sub t wl) (predictionSplits d.maxSuffixLength) 1 seen = .ok r)
    (hT : sfxTagLoop (sfxCands d sub t wl) (predictionSplits d.maxSuffixLength) seenT = .ok rt) :
    ∃ E, d.Block sub wl ip.1 E ∧ r.1 = (dedupCands (E.map (Ending.cand wl)) seen).1 ∧
      (∀ e ∈ E, r.2.1 = 1 + d.endingCount sub wl e.k e.i) ∧ rt = dedupTagCands (E.map (Ending.cand wl)) seenT := by
  obtain ⟨hp1, hp2⟩ := (mem_sfxPrefixes d wl ip).1 hip
  have hpos : ∀ i cs, sfxCands d sub t wl i = .ok cs → ∀ c ∈ cs, 1 ≤ c.cnt := by
    intro i cs hcs c hc
    obtain ⟨_, _, _, _, h5⟩ := sfxCands_mem d sub t wl i cs hcs c hc
    exact (hd.pred ip.1 t ht _ h5).1
  have iff := fun i hi cs hcs c => sfxCands_iff d sub wl ip.1 i ip.2 t hp1 hp2 ht hi cs hcs c
  have toP : ∀ i, i ∈ predictionSplits d.maxSuffixLength → sfxCands d sub t wl i = .ok [] →
      ¬ ∃ sfx cnt para idx tag, d.Predicts sub wl ip.1 i sfx cnt para idx tag := by
    rintro i hi hcs ⟨sfx, cnt, para, idx, tag, hpr⟩
    have := (iff i hi [] hcs ⟨cnt, dropRight wl i ++ sfx, sfx, tag, para, idx⟩).2 ⟨hpr, rfl⟩
    simp at this
  have inS : ∀ i, (∃ sfx cnt para idx tag, d.Predicts sub wl ip.1 i sfx cnt para idx tag) → i ∈ predictionSplits d.maxSuffixLength := by
    rintro i ⟨_, _, _, _, _, hp⟩
    exact (mem_predictionSplits _ _).2 hp.len
  rcases sfxLoop_first _ hpos _ _ _ h with ⟨rfl, hnone⟩ | ⟨before, i, after, cs, hsplit, hbefore, hcs, hne, rfl⟩
  · rw [sfxTagLoop_none _ _ _ hnone] at hT
    simp only [Except.ok.injEq] at hT
    refine ⟨[], ⟨by simp, ?_⟩, rfl, by simp, hT.symm⟩
    intro i t' hl _
    exact absurd hl.1 (toP i (inS i hl.1) (hnone i (inS i hl.1)))
  · rw [hsplit, sfxTagLoop_first _ _ _ _ _ _ hbefore hcs hne] at hT
    simp only [Except.ok.injEq] at hT
    have hi : i ∈ predictionSplits d.maxSuffixLength := by rw [hsplit]; simp
    have hsorted := predictionSplits_sorted d.maxSuffixLength
    rw [hsplit, List.pairwise_append] at hsorted
    have hlong : d.LongestEnding sub wl ip.1 i := by
      constructor
      · obtain ⟨c, hc⟩ := List.exists_mem_of_ne_nil cs hne
        exact ⟨_, _, _, _, _, ((iff i hi cs hcs c).1 hc).1⟩
      · intro j hj hp
        have hjm := inS j hp
        have hjb : j ∈ before := by
          rw [hsplit] at hjm
          rcases List.mem_append.1 hjm with h | h
          · exact h
          · rcases List.mem_cons.1 h with h | h
            · omega
            · have := (List.pairwise_cons.1 hsorted.2.1).1 j h; omega
        exact toP j (inS j hp) (hbefore j hjb) hp
    have huniq : ∀ i', d.LongestEnding sub wl ip.1 i' → i' = i := by
      intro i' hl'
      rcases Nat.lt_trichotomy i' i with h | h | h
      · exact absurd hlong.1 (hl'.2 i h)
      · exact h
      · exact absurd hl'.1 (hlong.2 i' h)
    have hcand : (cs.map fun c => (⟨ip.1, i, c.suffix, c.cnt, c.para, c.idx, c.tag⟩ : Ending)).map (Ending.cand wl) = cs := by
      rw [List.map_map]
      conv_rhs => rw [← List.map_id cs]
      apply List.map_congr_left
      intro c hc
      have := ((iff i hi cs hcs c).1 hc).2
      simp only [Function.comp_apply, Ending.cand, id]
      rw [← this]
    refine ⟨cs.map fun c => ⟨ip.1, i, c.suffix, c.cnt, c.para, c.idx, c.tag⟩, ⟨?_, ?_⟩, ?_, ?_, ?_⟩
    · intro e he
      obtain ⟨c, hc, rfl⟩ := List.mem_map.1 he
      exact ⟨rfl, hlong, ((iff i hi cs hcs c).1 hc).1⟩
    · intro i' t' hl ht'
      rw [huniq i' hl]
      rw [ht] at ht'
      cases ht'
      rw [← sfxCands_lines d sub t wl i cs hcs, List.map_map]
      rfl
    · rw [hcand]
    · intro e he
      obtain ⟨c, hc, rfl⟩ := List.mem_map.1 he
      dsimp only
      rw [cntSum_eq d sub hs wl ip.1 i t ht cs hcs]
    · rw [hcand]; exact hT.symm

theorem sfxPrefixes_sorted (d : Dict) (wl : Str) : (sfxPrefixes d wl).Pairwise fun a b => b.1 < a.1 := by
  unfold sfxPrefixes paradigmPrefixes
  apply List.Pairwise.filter
  rw [List.pairwise_reverse, List.mapIdx_eq_zipIdx_map, List.pairwise_map, List.zipIdx_eq_zip_range', List.pairwise_iff_getElem]
  intro i j hi hj hij
  simp [hij]

theorem sfxPrefixLoop_order (d : Dict) (hd : d.WF) (sub : Subst) (hs : sub.Proper) (wl : Str) (ips : List (Nat × Str))
    (hips : ∀ ip ∈ ips, ip ∈ sfxPrefixes d wl) (hsort : ips.Pairwise fun a b => b.1 < a.1) (seen : Seen) (seenT : SeenTags)
    (r : List (SfxCand × Nat) × Seen) (rt : List (Nat × Tag) × SeenTags) (h : sfxPrefixLoop d sub wl ips seen = .ok r)
    (hT : sfxTagPrefixLoop d sub wl ips seenT = .ok rt) :
    ∃ E, (∀ e ∈ E, (∃ ip ∈ ips, e.k = ip.1) ∧ d.LongestEnding sub wl e.k e.i ∧ d.Predicts sub wl e.k e.i e.sfx e.cnt e.para e.idx e.tag) ∧
      (E.Pairwise fun e f => f.k ≤ e.k) ∧
      (∀ ip ∈ ips, ∀ (i : Nat) (t : Dawg (Nat × Nat × Nat)), d.LongestEnding sub wl ip.1 i → d.pred[ip.1]? = some t →
        (E.filter fun e => decide (e.k = ip.1)).map (fun e => (e.sfx, (e.cnt, e.para, e.idx))) =
          (t.inOrder sub (takeRight wl i)).filter fun x => d.productiveForm x.2.2.1 x.2.2.2) ∧
      (∃ E₀ : List Ending, E₀.Sublist E ∧ r.1 = E₀.map fun e => (e.cand wl, 1 + d.endingCount sub wl e.k e.i)) ∧
      rt = dedupTagCands (E.map (Ending.cand wl)) seenT := by
  induction ips generalizing seen seenT r rt with
  | nil =>
    simp only [sfxPrefixLoop, sfxTagPrefixLoop, Except.ok.injEq] at h hT
    subst h hT
    exact ⟨[], by simp, by simp, by simp, ⟨[], by simp, rfl⟩, rfl⟩
  | cons ip ips ih =>
    simp only [sfxPrefixLoop, sfxTagPrefixLoop, bind_ok_iff, pure_eq_ok, Except.ok.injEq, pyGet_ok_iff] at h hT
    obtain ⟨t, ht, r1, hr1, r2, hr2, rfl⟩ := h
    obtain ⟨t', ht', rt1, hrt1, rt2, hrt2, rfl⟩ := hT
    rw [ht] at ht'; cases ht'
    obtain ⟨E1, hb, e1, e2, rfl⟩ := sfxLoop_block d hd sub hs wl ip (hips ip (by simp)) t ht seen seenT r1 rt1 hr1 hrt1
    rw [List.pairwise_cons] at hsort
    obtain ⟨E2, g1, g2, g3, ⟨E₀, g4, g5⟩, rfl⟩ := ih (fun ip hip => hips ip (by simp [hip])) hsort.2 _ _ _ _ hr2 hrt2
    have hlt : ∀ e ∈ E2, e.k < ip.1 := by
      intro e he
      obtain ⟨⟨ip', hip', h1⟩, _⟩ := g1 e he
      rw [h1]; exact hsort.1 ip' hip'
    refine ⟨E1 ++ E2, ?_, ?_, ?_, ?_, ?_⟩
    · intro e he
      rcases List.mem_append.1 he with he | he
      · obtain ⟨h1, h2⟩ := hb.sound e he
        exact ⟨⟨ip, by simp, h1⟩, h2⟩
      · obtain ⟨⟨ip', hip', h1⟩, h2⟩ := g1 e he
        exact ⟨⟨ip', by simp [hip'], h1⟩, h2⟩
    · rw [List.pairwise_append]
      refine ⟨?_, g2, ?_⟩
      · rw [List.pairwise_iff_forall_sublist]
        intro a b hab
        rw [(hb.sound a (hab.subset (by simp))).1, (hb.sound b (hab.subset (by simp))).1]
      · intro e he f hf
        rw [(hb.sound e he).1]
        exact (hlt f hf).le
    · intro ip' hip' i t' hl ht'
      rw [List.filter_append]
      rcases List.mem_cons.1 hip' with rfl | hip'
      · rw [ht] at ht'; cases ht'
        rw [List.filter_eq_self.2 (fun e he => by simpa using (hb.sound e he).1),
          List.filter_eq_nil_iff.2 (fun e he => by have := hlt e he; simp; omega), List.append_nil]
        exact hb.lines i _ hl ht
      · have h0 : E1.filter (fun e => decide (e.k = ip'.1)) = [] := by
          rw [List.filter_eq_nil_iff]
          intro e he
          have h1 := (hb.sound e he).1
          have h2 := hsort.1 ip' hip'
          simp; omega
        rw [h0, List.nil_append]
        exact g3 ip' hip' i t' hl ht'
    · have hsub := dedupCands_sub (E1.map (Ending.cand wl)) seen
      rw [← e1, List.sublist_map_iff] at hsub
      obtain ⟨F, hF, hF'⟩ := hsub
      refine ⟨F ++ E₀, hF.append g4, ?_⟩
      rw [List.map_append, ← g5, hF', List.map_map]
      refine congrArg (· ++ r2.1) ?_
      apply List.map_congr_left
      intro e he
      simp only [Function.comp_apply]
      rw [e2 e (hF.subset he)]
    · rw [List.map_append, dedupTagCands_append]

theorem dedupTagCands_first (wl : Str) (E : List Ending) (seen : SeenTags) (x : Nat × Tag) (hx : x ∈ (dedupTagCands (E.map (Ending.cand wl)) seen).1) :
    x.2.tuple ∉ seen ∧ ∃ before e after, E = before ++ e :: after ∧ x = (e.cnt, e.tag) ∧ ∀ f ∈ before, f.tag.eqv e.tag = false := by
  induction E generalizing seen with
  | nil => simp [dedupTagCands] at hx
  | cons e E ih =>
    rw [List.map_cons, dedupTagCands] at hx
    split at hx
    · next hs =>
      obtain ⟨h1, b, f, a, rfl, rfl, h4⟩ := ih _ hx
      refine ⟨h1, e :: b, f, a, rfl, rfl, ?_⟩
      intro g hg
      rcases List.mem_cons.1 hg with rfl | hg
      · simp only [Tag.eqv, beq_eq_false_iff_ne]
        intro he
        exact h1 (by rw [← he]; exact hs)
      · exact h4 g hg
    · next hs =>
      rcases List.mem_cons.1 hx with rfl | hx
      · exact ⟨hs, [], e, E, rfl, rfl, by simp⟩
      · obtain ⟨h1, b, f, a, rfl, rfl, h4⟩ := ih _ hx
        rw [List.mem_cons, not_or] at h1
        refine ⟨h1.2, e :: b, f, a, rfl, rfl, ?_⟩
        intro g hg
        rcases List.mem_cons.1 hg with rfl | hg
        · simp only [Tag.eqv, beq_eq_false_iff_ne]
          intro he
          exact h1.1 he.symm
        · exact h4 g hg

/-- Descending order of `(count, tag)` pairs. -/
theorem cntTag_sorted (l : List (Nat × Tag)) (hn : (l.map fun x => x.2.tuple).Nodup) :
    (l.insertionSort (fun a b => cntTagLt a b = false)).Pairwise fun x y => y.1 < x.1 ∨ (x.1 = y.1 ∧ y.2.lt x.2 = true) := by
  have dec : ∀ a b : Nat × Tag, cntTagLt a b = false ↔ b.1 < a.1 ∨ (a.1 = b.1 ∧ (a.2.eqv b.2 = true ∨ b.2.lt a.2 = true)) := by
    intro a b
    obtain ⟨o1, o2, o3, o4, _⟩ := c23_order a.2 b.2 b.2
    unfold cntTagLt
    by_cases h : a.1 = b.1
    · rw [if_pos h]
      by_cases he : a.2.eqv b.2 = true
      · simp [he, h]
      · rw [if_neg he]
        simp only [h, lt_irrefl, false_or, true_and]
        simp only [he, false_or] at o1 o2 ⊢
        cases hl : a.2.lt b.2
        · simp only [hl, Bool.false_eq_true, false_or] at o1; simp [o1]
        · simp only [hl, true_and] at o3; simp [o3]
    · rw [if_neg h]
      simp only [decide_eq_false_iff_not, not_lt, h, false_and, or_false]
      omega
  have tot : Std.Total (fun a b : Nat × Tag => cntTagLt a b = false) := ⟨by
    intro a b
    rw [dec, dec]
    rcases Nat.lt_trichotomy a.1 b.1 with h | h | h
    · exact .inr (.inl h)
    · obtain ⟨o1, _⟩ := c23_order a.2 b.2 b.2
      rcases o1 with o | o | o
      · exact .inr (.inr ⟨h.symm, .inr o⟩)
      · exact .inl (.inr ⟨h, .inl o⟩)
      · exact .inl (.inr ⟨h, .inr o⟩)
    · exact .inl (.inl h)⟩
  have tr : IsTrans (Nat × Tag) (fun a b => cntTagLt a b = false) := ⟨by
    intro a b c
    rw [dec, dec, dec]
    rintro (h1 | ⟨h1, h2⟩) (h3 | ⟨h3, h4⟩)
    · exact .inl (by omega)
    · exact .inl (by omega)
    · exact .inl (by omega)
    · refine .inr ⟨by omega, ?_⟩
      obtain ⟨_, _, _, hsym, htr⟩ := c23_eq a.2 b.2 c.2
      rcases h2 with h2 | h2 <;> rcases h4 with h4 | h4
      · exact .inl ((c23_eq a.2 b.2 c.2).2.2.2.1 h2 h4)
      · exact .inr (by rw [((c23_order a.2 b.2 c.2).2.2.2.2.2.1 h2).2]; exact h4)
      · exact .inr (by rw [← ((c23_order b.2 c.2 a.2).2.2.2.2.2.1 h4).1]; exact h2)
      · exact .inr ((c23_order c.2 b.2 a.2).2.2.2.2.1 h4 h2)⟩
  have hs := List.pairwise_insertionSort (fun a b : Nat × Tag => cntTagLt a b = false) l
  have hn' : ((l.insertionSort (fun a b => cntTagLt a b = false)).map fun x => x.2.tuple).Nodup :=
    (((List.perm_insertionSort _ l).map _).nodup_iff).2 hn
  rw [List.Nodup, List.pairwise_map] at hn'
  refine (hs.and hn').imp ?_
  rintro a b ⟨h1, h2⟩
  rcases (dec a b).1 h1 with h | ⟨h, he | hl⟩
  · exact .inl h
  · exact absurd ((c23_eq a.2 b.2 b.2).1.1 he) h2
  · exact .inr ⟨h, hl⟩

/-! ### The groups -/

/-- The group answers in the order the rule says. -/
def OrderedBy (m : Morph S) (D : RuleData) (w : Str) (rec : Rec S) (g : List (BUnit S)) (ρ : Rule) : Prop :=
  ∀ r rt, groupParse m rec w (m.env.lower w) g [] = .ok r → groupTag m rec w (m.env.lower w) g [] = .ok rt → r ≠ [] → ρ.ordered m D w r rt

theorem dictParse_order (m : Morph S) (u : UObj) (wl : Str) (ps : List (Parse S)) (h : dictParse m u wl = .ok ps) :
    ps.map Parse.stack = (m.dict.words.inOrder m.sub wl).map (fun e => .single (.dict u e.1 e.2.1 e.2.2)) ∧
    List.Forall₂ (fun (e : Str × Nat × Nat) (p : Parse S) => m.dict.tagInfo e.2.1 e.2.2 = .ok p.tag) (m.dict.words.inOrder m.sub wl) ps := by
  unfold dictParse at h
  rw [lookup_inOrder] at h
  have hf := (mapE_ok_iff _ _ _).1 h
  clear h
  generalize m.dict.words.inOrder m.sub wl = L at hf ⊢
  induction hf with
  | nil => exact ⟨rfl, .nil⟩
  | cons h _ ih =>
    simp only [dictParse1, bind_ok_iff, pure_eq_ok, Except.ok.injEq] at h
    obtain ⟨nf, _, t, ht, rfl⟩ := h
    exact ⟨by rw [List.map_cons, List.map_cons, ih.1], .cons ht ih.2⟩

theorem dictParse_entry_order (m : Morph S) (u : UObj) (wl : Str) (ps : List (Parse S)) (h : dictParse m u wl = .ok ps) :
    ps.map Parse.dictEntry = (m.dict.words.inOrder m.sub wl).map some := by
  have h1 := (dictParse_order m u wl ps h).1
  have e : ∀ l : List (Parse S), l.map Parse.dictEntry = (l.map Parse.stack).map fun s => match s with
      | .push .nil (.dict _ v para idx) => some (v, para, idx)
      | _ => none := by
    intro l; rw [List.map_map]; rfl
  rw [e, h1, List.map_map]
  rfl

theorem order_word (m : Morph S) (D : RuleData) (letters : List Str) (rec : Rec S) (w : Str) (n1 n2 n3 : Nat) (p1 p2 : Str → Str → Str) (s1 s2 : S) :
    OrderedBy m D w rec [⟨n1, .dictionary⟩, ⟨n2, (UnitSpec.firstName letters p1 s1).bound⟩, ⟨n3, (UnitSpec.patronymic letters p2 s2).bound⟩] .word := by
  intro r rt hr hrt _
  refine ⟨group_listwise m rec _ (by simp [UnitSpec.bound, UnitCfg.listwise]) w _ _ _ r rt hr hrt, ?_⟩
  simp only [groupParse, unitParse, UnitSpec.bound, bind_ok_iff, pure_eq_ok, Except.ok.injEq, exists_eq_left', List.append_nil] at hr
  obtain ⟨r1, ⟨ps, hps, rfl⟩, rfl⟩ := hr
  refine ⟨ps, _, rfl, dictParse_entry_order m _ _ _ hps, ?_⟩
  intro p hp
  rcases List.mem_append.1 hp with hp | hp
  · exact (initials_initial _ (.inl ⟨_, _, rfl⟩) _ _ _ _ _ p hp).1
  · exact (initials_initial _ (.inr ⟨_, rfl⟩) _ _ _ _ _ p hp).1

theorem foreign_order (u1 u2 : UObj) (s1 s2 : S) (w wl : Str) (b1 b2 : Bool) :
    ((shapeParse u1 s1 w wl (if b1 then some ⟨c!"ROMN"⟩ else none) ++ shapeParse u2 s2 w wl (if b2 then some ⟨c!"LATN"⟩ else none)).map
      fun p => p.tag.str).Sublist [c!"ROMN", c!"LATN"] := by
  cases b1 <;> cases b2 <;> simp [shapeParse]

theorem order_foreign (m : Morph S) (D : RuleData) (rec : Rec S) (w : Str) (n1 n2 : Nat) (s1 s2 : S) :
    OrderedBy m D w rec [⟨n1, (UnitSpec.roman s1).bound⟩, ⟨n2, (UnitSpec.latin s2).bound⟩] .foreign := by
  intro r rt hr hrt _
  refine ⟨group_listwise m rec _ (by simp [UnitSpec.bound, UnitCfg.listwise]) w _ _ _ r rt hr hrt, ?_⟩
  simp only [groupParse, unitParse, UnitSpec.bound, shapeTag, bind_ok_iff, pure_eq_ok, Except.ok.injEq, exists_eq_left',
    List.append_nil] at hr
  obtain ⟨r1, ⟨a, ⟨t, ⟨b, hb, rfl⟩, rfl⟩, rfl⟩, rfl⟩ := hr
  exact foreign_order _ _ _ _ _ _ _ _

theorem order_wordOrForeign (m : Morph S) (D : RuleData) (letters : List Str) (rec : Rec S) (w : Str) (n1 n2 n3 n4 n5 : Nat) (p1 p2 : Str → Str → Str)
    (s1 s2 s3 s4 : S) :
    OrderedBy m D w rec [⟨n1, .dictionary⟩, ⟨n2, (UnitSpec.firstName letters p1 s1).bound⟩, ⟨n3, (UnitSpec.patronymic letters p2 s2).bound⟩,
      ⟨n4, (UnitSpec.roman s3).bound⟩, ⟨n5, (UnitSpec.latin s4).bound⟩] .wordOrForeign := by
  intro r rt hr hrt _
  refine ⟨group_listwise m rec _ (by simp [UnitSpec.bound, UnitCfg.listwise]) w _ _ _ r rt hr hrt, ?_⟩
  simp only [groupParse, unitParse, UnitSpec.bound, shapeTag, bind_ok_iff, pure_eq_ok, Except.ok.injEq, exists_eq_left', List.append_nil] at hr
  obtain ⟨r1, ⟨ps, hps, rfl⟩, r2, ⟨r3, ⟨r4, ⟨r5, ⟨a, ⟨t, ⟨b, hb, rfl⟩, rfl⟩, rfl⟩, rfl⟩, rfl⟩, rfl⟩, rfl⟩ := hr
  have hsplit : ∀ x1 x2 x3 x4 x5 : List (Parse S),
      x1.map Parse.dictEntry = (m.dict.words.inOrder m.sub (m.env.lower w)).map some → (∀ p ∈ x2, p.isInitial = true) → (∀ p ∈ x3, p.isInitial = true) →
      ((x4 ++ x5).map fun p => p.tag.str).Sublist [c!"ROMN", c!"LATN"] →
      ∃ ds is fs, x1 ++ (x2 ++ (x3 ++ (x4 ++ x5))) = ds ++ is ++ fs ∧
        ds.map Parse.dictEntry = (m.dict.words.inOrder m.sub (m.env.lower w)).map some ∧ (∀ p ∈ is, p.isInitial = true) ∧
        (fs.map fun p => p.tag.str).Sublist [c!"ROMN", c!"LATN"] := fun x1 x2 x3 x4 x5 h1 h2 h3 h4 =>
    ⟨x1, x2 ++ x3, x4 ++ x5, by simp only [List.append_assoc], h1, fun p hp => (List.mem_append.1 hp).elim (h2 p) (h3 p), h4⟩
  exact hsplit _ _ _ _ _ (dictParse_entry_order m _ _ _ hps)
    (fun p hp => (initials_initial _ (.inl ⟨_, _, rfl⟩) _ _ _ _ _ p hp).1)
    (fun p hp => (initials_initial _ (.inr ⟨_, rfl⟩) _ _ _ _ _ p hp).1) (foreign_order _ _ _ _ _ _ _ _)

theorem order_particle (m : Morph S) (D : RuleData) (hyph : ∀ p ∈ D.particles, '-' ∈ p) (w : Str) (n : Nat) (s : S) :
    OrderedBy m D w ⟨m.parse, m.tag⟩ [⟨n, .particle D.particles s⟩] .particle := by
  have h0 : [] ∉ D.particles := fun h => by simpa using hyph _ h
  intro r rt hr hrt hne
  simp only [groupParse, unitParse, bind_ok_iff, pure_eq_ok, Except.ok.injEq] at hr
  obtain ⟨a, ha, hr⟩ := hr
  simp only [exists_eq_left', List.append_nil] at hr
  subst hr
  simp only [groupTag, unitTag, bind_ok_iff, pure_eq_ok, Except.ok.injEq] at hrt
  obtain ⟨b, hb, hrt⟩ := hrt
  simp only [exists_eq_left', List.append_nil] at hrt
  subst hrt
  cases hs : particleSplit D.particles (m.env.lower w) with
  | none =>
    rw [hs] at ha
    simp only [Except.ok.injEq] at ha
    subst ha
    exact absurd rfl hne
  | some y =>
    obtain ⟨rest, part⟩ := y
    rw [hs] at ha hb
    simp only [bind_ok_iff, pure_eq_ok, Except.ok.injEq] at ha hb
    obtain ⟨qs, hqs, rfl⟩ := ha
    obtain ⟨ts, hts, rfl⟩ := hb
    refine ⟨rest, part, (particleSplit_iff _ _ _ _ h0).1 hs, hts, qs, hqs, BUnit.obj ⟨n, .particle D.particles s⟩, ?_⟩
    have := (addParses_sub (qs.map (particleDeco (BUnit.obj ⟨n, .particle D.particles s⟩) part s)) []).map Parse.core
    rw [List.map_map] at this
    exact this

theorem order_compound (m : Morph S) (D : RuleData) (w : Str) (n : Nat) (s : S) :
    OrderedBy m D w ⟨m.parse, m.tag⟩ [⟨n, .hyphenated D.prefixes s⟩] .compound := by
  intro r rt hr hrt hne
  simp only [groupParse, unitParse, bind_ok_iff, pure_eq_ok, Except.ok.injEq, exists_eq_left', List.append_nil] at hr
  simp only [groupTag, unitTag, bind_ok_iff, pure_eq_ok, Except.ok.injEq, exists_eq_left', List.append_nil] at hrt
  obtain ⟨x, ⟨ps, hps, rfl⟩, rfl⟩ := hr
  obtain ⟨x, ⟨ps', hps', rfl⟩, rfl⟩ := hrt
  rw [hps] at hps'
  simp only [Except.ok.injEq] at hps'
  subst hps'
  refine ⟨addTags_sub _ _, ?_⟩
  unfold hyphenParse at hps
  split at hps
  swap
  · simp at hps; subst hps; exact absurd rfl hne
  next hsh =>
  simp only [bind_ok_iff, pure_eq_ok, Except.ok.injEq] at hps
  obtain ⟨lp, hlp, rp, hrp, rfl⟩ := hps
  obtain ⟨⟨a, b, he, _, _, ha, _⟩, _⟩ := (c52_should_parse _ _).1 hsh
  have hsp : splitHyphen (m.env.lower w) = (a, b) := by
    rw [he]
    unfold splitHyphen
    have hp : ∀ c ∈ a, decide (c ≠ '-') = true := fun c hc => by simp; rintro rfl; exact ha hc
    rw [List.takeWhile_append_of_pos hp, List.dropWhile_append_of_pos hp]
    simp
  rw [hsp] at hlp hrp
  rw [hsp]
  refine ⟨a, b, he, ha, lp, rp, hlp, hrp, BUnit.obj ⟨n, .hyphenated D.prefixes s⟩, _, _, rfl, ?_, ?_⟩
  · unfold parseBoth
    rw [List.map_flatMap]
    generalize lp = l
    induction l with
    | nil => simp
    | cons p l ih =>
      simp only [List.flatMap_cons]
      refine List.Sublist.append ?_ ih
      split
      · simp
      · rw [List.map_map]
        exact List.filter_sublist.map _
  · unfold parseFixed
    rw [List.map_map]
    exact List.filter_sublist.map _

theorem prefixCands_order (u : UObj) (mult : S) (f : Str → Except PyErr (List (Parse S))) (sp : List (Str × Str)) (out : List (Parse S))
    (h : prefixCands u mult f sp = .ok out) : ∃ Q : List (List (Parse S)), List.Forall₂ (fun s qs => f s.2 = .ok qs) sp Q ∧
      (out.map Parse.core).Sublist ((sp.zip Q).flatMap fun x => x.2.map fun q => (x.1.1 ++ q.word, q.tag, x.1.1 ++ q.nf, .push q.stack (.simple u x.1.1))) := by
  simp only [prefixCands, bind_ok_iff, pure_eq_ok, Except.ok.injEq] at h
  obtain ⟨ps, hps, rfl⟩ := h
  have hf := (mapE_ok_iff _ _ _).1 hps
  clear hps
  induction hf with
  | nil => exact ⟨[], .nil, by simp⟩
  | @cons s r l₁ l₂ h _ ih =>
    simp only [bind_ok_iff, pure_eq_ok, Except.ok.injEq] at h
    obtain ⟨qs, hqs, rfl⟩ := h
    obtain ⟨Q, h1, h2⟩ := ih
    refine ⟨qs :: Q, .cons hqs h1, ?_⟩
    simp only [List.flatten_cons, List.map_append, List.zip_cons_cons, List.flatMap_cons]
    refine List.Sublist.append ?_ h2
    unfold prefixDeco
    rw [List.map_map]
    exact List.filter_sublist.map _

theorem prefixTagCands_order (f : Str → Except PyErr (List Tag)) (sp : List (Str × Str)) (out : List Tag) (h : prefixTagCands f sp = .ok out) :
    ∃ T : List (List Tag), List.Forall₂ (fun s ts => f s.2 = .ok ts) sp T ∧ out.Sublist T.flatten := by
  simp only [prefixTagCands, bind_ok_iff, pure_eq_ok, Except.ok.injEq] at h
  obtain ⟨ps, hps, rfl⟩ := h
  have hf := (mapE_ok_iff _ _ _).1 hps
  clear hps
  induction hf with
  | nil => exact ⟨[], .nil, by simp⟩
  | @cons s r l₁ l₂ h _ ih =>
    simp only [bind_ok_iff, pure_eq_ok, Except.ok.injEq] at h
    obtain ⟨qs, hqs, rfl⟩ := h
    obtain ⟨Q, h1, h2⟩ := ih
    exact ⟨qs :: Q, .cons hqs h1, by
      simp only [List.flatten_cons]
      exact List.filter_sublist.append h2⟩

theorem order_prefixed (m : Morph S) (D : RuleData) (hn : D.prefixes.Nodup) (w : Str) (n : Nat) (s : S) (k : Nat) :
    OrderedBy m D w ⟨m.parse, m.tag⟩ [⟨n, .knownPrefix D.prefixes s k⟩] .prefixed := by
  intro r rt hr hrt hne
  simp only [groupParse, unitParse, bind_ok_iff, pure_eq_ok, Except.ok.injEq, exists_eq_left', List.append_nil] at hr
  simp only [groupTag, unitTag, bind_ok_iff, pure_eq_ok, Except.ok.injEq, exists_eq_left', List.append_nil] at hrt
  obtain ⟨x, ⟨ps, hps, rfl⟩, rfl⟩ := hr
  obtain ⟨x, ⟨ts, hts, rfl⟩, rfl⟩ := hrt
  refine ⟨possibleSplits D.prefixes k (m.env.lower w), c42_splits_strict _ hn _ _, ?_, ?_, ?_⟩
  · intro s hs
    obtain ⟨h1, h2, _⟩ := (c42_splits_mem _ _ _ _ _).1 hs
    exact ⟨h1, h2⟩
  · obtain ⟨Q, h1, h2⟩ := prefixCands_order _ _ _ _ _ hps
    exact ⟨Q, h1, _, ((addParses_sub ps []).map Parse.core).trans h2⟩
  · obtain ⟨T, h1, h2⟩ := prefixTagCands_order _ _ _ hts
    exact ⟨T, h1, (addTags_sub ts []).trans h2⟩

theorem order_single (m : Morph S) (D : RuleData) (rec : Rec S) (w : Str) (u : BUnit S) (ρ : Rule)
    (hρ : ρ = .number ∨ ρ = .punct ∨ ρ = .adverb)
    (hu : (∃ n s, u = ⟨n, (UnitSpec.number s).bound⟩) ∨ (∃ n s, u = ⟨n, (UnitSpec.punct s).bound⟩) ∨ ∃ n s, u = ⟨n, (UnitSpec.adverb s).bound⟩) :
    OrderedBy m D w rec [u] ρ := by
  intro r rt hr hrt hne
  have key : rt = r.map Parse.tag ∧ r.length = 1 := by
    rcases hu with ⟨n, s, rfl⟩ | ⟨n, s, rfl⟩ | ⟨n, s, rfl⟩
    · refine ⟨group_listwise m rec _ (by simp [UnitSpec.bound, UnitCfg.listwise]) w _ _ _ r rt hr hrt, ?_⟩
      simp only [groupParse, unitParse, UnitSpec.bound, shapeTag, bind_ok_iff, pure_eq_ok, Except.ok.injEq, exists_eq_left', List.append_nil] at hr
      subst hr
      generalize numberShape _ _ _ _ = o at hne
      cases o
      · exact absurd rfl hne
      · rfl
    · refine ⟨group_listwise m rec _ (by simp [UnitSpec.bound, UnitCfg.listwise]) w _ _ _ r rt hr hrt, ?_⟩
      simp only [groupParse, unitParse, UnitSpec.bound, shapeTag, bind_ok_iff, pure_eq_ok, Except.ok.injEq, exists_eq_left', List.append_nil] at hr
      subst hr
      split at hne
      · next h => simp [h, shapeParse]
      · exact absurd rfl hne
    · simp only [groupParse, unitParse, UnitSpec.bound, bind_ok_iff, pure_eq_ok, Except.ok.injEq, exists_eq_left', List.append_nil] at hr
      simp only [groupTag, unitTag, UnitSpec.bound, bind_ok_iff, pure_eq_ok, Except.ok.injEq, exists_eq_left', List.append_nil] at hrt
      obtain ⟨x, ⟨b, hb, rfl⟩, rfl⟩ := hr
      obtain ⟨x, ⟨b', hb', rfl⟩, rfl⟩ := hrt
      rw [hb] at hb'
      simp only [Except.ok.injEq] at hb'
      subst hb'
      cases b
      · exact absurd rfl hne
      · exact ⟨rfl, rfl⟩
  rcases hρ with rfl | rfl | rfl <;> exact key


/-! ### The last rule -/

theorem prefix_inOrder (m : Morph S) (u v : UObj) (L : List (Str × Str)) (Q : List (List (Parse S))) (T : List (List Tag))
    (h1 : List.Forall₂ (fun (s : Str × Str) qs => dictParse m v s.2 = .ok qs) L Q) (h2 : List.Forall₂ (fun (s : Str × Str) ts => dictTag m s.2 = .ok ts) L T) :
    ((L.zip Q).flatMap fun x => x.2.map fun q => Stack.push q.stack (.simple u x.1.1)) = (L.flatMap fun s => (m.dict.words.inOrder m.sub s.2).map fun e =>
      .push (.single (.dict v e.1 e.2.1 e.2.2)) (.simple u s.1)) ∧
    List.Forall₂ (fun (e : Str × Nat × Nat) t => m.dict.tagInfo e.2.1 e.2.2 = .ok t) (L.flatMap fun s => m.dict.words.inOrder m.sub s.2) T.flatten := by
  induction h1 generalizing T with
  | nil => cases h2; exact ⟨rfl, .nil⟩
  | @cons s qs L Q h _ ih =>
    cases h2 with
    | @cons _ ts _ T ht hT =>
      obtain ⟨i1, i2⟩ := ih T hT
      obtain ⟨d1, d2⟩ := dictParse_order m v s.2 qs h
      refine ⟨?_, ?_⟩
      · simp only [List.zip_cons_cons, List.flatMap_cons, i1]
        refine congrArg (· ++ _) ?_
        have := congrArg (List.map fun st => Stack.push st (.simple u s.1)) d1
        rw [List.map_map, List.map_map] at this
        exact this
      · simp only [List.flatMap_cons, List.flatten_cons]
        refine List.rel_append ?_ i2
        rw [dictTag_eq m v s.2 qs ts h ht]
        exact List.forall₂_map_right_iff.2 d2

theorem prefix_part (m : Morph S) (w : Str) (n : Nat) (s : S) (rec : Rec S) (pre : List (Parse S)) (preT : List Tag) (seen : Seen) (seenT : SeenTags)
    (hp : unitParse m rec ⟨n, .unknownPrefix s⟩ w (m.env.lower w) [] = .ok (pre, seen))
    (hpT : unitTag m rec ⟨n, .unknownPrefix s⟩ w (m.env.lower w) [] = .ok (preT, seenT)) :
    ∃ L : List (Str × Str), (L.Pairwise fun s t => s.1.length < t.1.length) ∧ (∀ s ∈ L, m.env.lower w = s.1 ++ s.2) ∧
      (∃ u v, (pre.map Parse.stack).Sublist (L.flatMap fun s => (m.dict.words.inOrder m.sub s.2).map fun e =>
        .push (.single (.dict v e.1 e.2.1 e.2.2)) (.simple u s.1))) ∧
      ∃ T, List.Forall₂ (fun (e : Str × Nat × Nat) t => m.dict.tagInfo e.2.1 e.2.2 = .ok t) (L.flatMap fun s => m.dict.words.inOrder m.sub s.2) T ∧
        preT.Sublist T := by
  simp only [unitParse, unitTag, bind_ok_iff, pure_eq_ok, Except.ok.injEq, Prod.mk.injEq] at hp hpT
  obtain ⟨ps, hps, he⟩ := hp
  obtain ⟨ts, hts, heT⟩ := hpT
  obtain ⟨Q, q1, q2⟩ := prefixCands_order _ _ _ _ _ hps
  obtain ⟨T, t1, t2⟩ := prefixTagCands_order _ _ _ hts
  obtain ⟨k1, k2⟩ := prefix_inOrder m (BUnit.obj ⟨n, .unknownPrefix s⟩) _ _ Q T q1 t1
  have e1 : pre = (addParses ps []).1 := by rw [he]
  have e2 : preT = (addTags ts []).1 := by rw [heT]
  refine ⟨wordSplits (m.env.lower w), (c40_word_splits_sorted _ _ _).1, ?_, ⟨BUnit.obj ⟨n, .unknownPrefix s⟩, BUnit.inner ⟨n, .unknownPrefix s⟩, ?_⟩, _, k2, ?_⟩
  · intro s hs
    exact (((c40_word_splits_mem _ _ _ _ _).1 hs).1).symm
  · rw [← k1, e1]
    refine ((addParses_sub ps []).map _).trans ?_
    have := q2.map fun c => c.2.2.2
    rw [List.map_map, List.map_flatMap] at this
    simp only [List.map_map] at this
    exact this
  · rw [e2]
    exact (addTags_sub ts []).trans t2

theorem suffix_part (m : Morph Rat) (hd : m.dict.WF) (hs : m.sub.Proper) (w : Str) (n : Nat) (rec : Rec Rat) (seen0 : Seen) (seenT0 : SeenTags)
    (sfx : List (Parse Rat)) (sfxT : List Tag) (seen : Seen) (seenT : SeenTags)
    (hp : unitParse m rec ⟨n, .knownSuffix (dec 5 10) 4⟩ w (m.env.lower w) seen0 = .ok (sfx, seen))
    (hpT : unitTag m rec ⟨n, .knownSuffix (dec 5 10) 4⟩ w (m.env.lower w) seenT0 = .ok (sfxT, seenT)) :
    (w.length < 4 ∧ sfx = [] ∧ sfxT = []) ∨ ∃ E, m.dict.EndingsOf m.sub (m.env.lower w) E ∧
      (∃ E₀ E₁ u v, E₀.Sublist E ∧ StableBy (m.dict.share m.sub (m.env.lower w)) E₀ E₁ ∧
        sfx.map Parse.stack = E₁.map fun e => .push (.single (.dict v (dropRight (m.env.lower w) e.i ++ e.sfx) e.para e.idx)) (.simple u e.sfx)) ∧
      ∃ B : List (Nat × Tag), sfxT = B.map Prod.snd ∧
        (∀ x ∈ B, ∃ before e after, E = before ++ e :: after ∧ x = (e.cnt, e.tag) ∧ ∀ f ∈ before, f.tag.eqv e.tag = false) ∧
        B.Pairwise fun x y => y.1 < x.1 ∨ (x.1 = y.1 ∧ y.2.lt x.2 = true) := by
  simp only [unitParse, unitTag, suffixParse, suffixTag] at hp hpT
  split at hp
  · next hl =>
    rw [if_pos hl] at hpT
    simp only [Except.ok.injEq, Prod.mk.injEq] at hp hpT
    exact .inl ⟨hl, hp.1.symm, hpT.1.symm⟩
  · next hl =>
    rw [if_neg hl] at hpT
    right
    simp only [bind_ok_iff, pure_eq_ok, Except.ok.injEq, Prod.mk.injEq] at hp hpT
    obtain ⟨r, hr, ps, hps, rfl, rfl⟩ := hp
    obtain ⟨rt, hrt, rfl, rfl⟩ := hpT
    obtain ⟨E, h1, h2, h3, ⟨E₀, h4, h5⟩, h6⟩ := sfxPrefixLoop_order m.dict hd m.sub hs (m.env.lower w) _ (fun _ h => h) (sfxPrefixes_sorted _ _) _ _ _ _ hr hrt
    refine ⟨E, ⟨fun e he => (h1 e he).2, h2, ?_⟩, ?_, ?_⟩
    · intro k i t hl ht
      obtain ⟨⟨sfx, cnt, para, idx, tag, hP⟩, _⟩ := id hl
      obtain ⟨pre, h7, h8⟩ := hP.pre
      exact h3 (k, pre) (mem_sfxPrefixes_of _ _ _ _ h7 h8) i t hl ht
    · have hf : List.Forall₂ (fun (e : Ending) (p : Parse Rat) => p.score = m.dict.share m.sub (m.env.lower w) e / 2 ∧
          p.stack = .push (.single (.dict (BUnit.inner ⟨n, .knownSuffix (dec 5 10 : Rat) 4⟩) (dropRight (m.env.lower w) e.i ++ e.sfx) e.para e.idx))
            (.simple (BUnit.obj ⟨n, .knownSuffix (dec 5 10 : Rat) 4⟩) e.sfx)) E₀ ps := by
        have hf := (mapE_ok_iff _ _ _).1 hps
        rw [h5, List.forall₂_map_left_iff] at hf
        refine hf.imp ?_
        intro e p he
        simp only [sfxBuild, bind_ok_iff, pure_eq_ok, Except.ok.injEq] at he
        obtain ⟨nf, _, rfl⟩ := he
        refine ⟨?_, rfl⟩
        show Score.mul _ _ = _
        simp only [Score.mul, Score.div, Score.ofNat, dec, Dict.share, Ending.cand]
        norm_num
        rw [mul_one_div]
      refine ⟨E₀, E₀.insertionSort (fun a b => m.dict.share m.sub (m.env.lower w) b ≤ m.dict.share m.sub (m.env.lower w) a),
        BUnit.obj ⟨n, .knownSuffix (dec 5 10 : Rat) 4⟩, BUnit.inner ⟨n, .knownSuffix (dec 5 10 : Rat) 4⟩, h4, insertionSort_stableBy _ _ (fun _ _ => Iff.rfl) _, ?_⟩
      have hs := forall₂_insertionSort (s := fun a b : Parse Rat => Score.le b.score a.score = true)
        (r := fun a b => m.dict.share m.sub (m.env.lower w) b ≤ m.dict.share m.sub (m.env.lower w) a) (by
          rintro a p a' p' ⟨e1, _⟩ ⟨e2, _⟩
          simp only [Score.le, e1, e2]
          rw [decide_eq_true_iff]
          constructor <;> intro h <;> linarith) hf
      rw [show ps.insertionSort _ = sortByScore ps from rfl] at hs
      generalize sortByScore ps = l at hs ⊢
      generalize E₀.insertionSort (fun a b => m.dict.share m.sub (m.env.lower w) b ≤ m.dict.share m.sub (m.env.lower w) a) = l' at hs ⊢
      induction hs with
      | nil => rfl
      | cons h _ ih => rw [List.map_cons, List.map_cons, ih, h.2]
    · refine ⟨rt.1.insertionSort (fun a b => cntTagLt a b = false), rfl, ?_, cntTag_sorted _ (sfxTagPrefixLoop_spec _ _ _ _ _ _ hrt).1⟩
      intro x hx
      have hx := (List.perm_insertionSort _ _).mem_iff.1 hx
      rw [h6] at hx
      exact (dedupTagCands_first _ _ _ _ hx).2


theorem group_nil (m : Morph S) (hd : m.dict.WF) (rec : Rec S) (w : Str) (hrec : rec.TagsBelow (m.env.lower w)) (g : List (BUnit S))
    (hu : ∀ u ∈ g, u.cfg.properPrefixes) (hk : ∀ u ∈ g, u.cfg.kind ≠ .unkn) (r : List (Parse S)) (rt : List Tag)
    (hr : groupParse m rec w (m.env.lower w) g [] = .ok r) (hrt : groupTag m rec w (m.env.lower w) g [] = .ok rt) : r = [] ↔ rt = [] := by
  have := group_sameTags (fun _ => False) m hd rec g hu hk w (m.env.lower w) hrec [] [] (by simp [SeenIn]) (by simp [SeenTIn]) r rt hr hrt
  exact sameTags_nil fun τ => by simpa using this τ

/-- The last two groups. -/
theorem order_guess_tail (m : Morph Rat) (hd : m.dict.WF) (hs : m.sub.Proper) (D : RuleData) (rec : Rec Rat) (w : Str) (hrec : rec.TagsBelow (m.env.lower w))
    (n1 n2 n3 : Nat) (r : List (Parse Rat)) (rt : List Tag)
    (hr : firstGroup (fun g => groupParse m rec w (m.env.lower w) g [])
      [[⟨n1, .unknownPrefix (dec 5 10)⟩, ⟨n2, .knownSuffix (dec 5 10) 4⟩], [⟨n3, .unkn ⟨c!"UNKN"⟩⟩]] = .ok r)
    (hrt : firstGroup (fun g => groupTag m rec w (m.env.lower w) g [])
      [[⟨n1, .unknownPrefix (dec 5 10)⟩, ⟨n2, .knownSuffix (dec 5 10) 4⟩], [⟨n3, .unkn ⟨c!"UNKN"⟩⟩]] = .ok rt) : Rule.guess.ordered m D w r rt := by
  rw [firstGroup, bind_ok_iff] at hr hrt
  obtain ⟨a, ha, hr⟩ := hr
  obtain ⟨b, hb, hrt⟩ := hrt
  have hnil := group_nil m hd rec w hrec _ (by simp [UnitCfg.properPrefixes]) (by simp [UnitCfg.kind]) a b ha hb
  cases a with
  | nil =>
    have := hnil.1 rfl
    subst this
    simp only [firstGroup, (unkn_run m rec w (m.env.lower w) n3 ⟨c!"UNKN"⟩).1, ok_bind, pure_eq_ok, Except.ok.injEq] at hr
    simp only [firstGroup, (unkn_run m rec w (m.env.lower w) n3 ⟨c!"UNKN"⟩).2, ok_bind, pure_eq_ok, Except.ok.injEq] at hrt
    subst hr hrt
    exact .inl ⟨⟨_, rfl⟩, rfl⟩
  | cons p ps =>
    cases b with
    | nil => simp at hnil
    | cons t ts =>
      simp only [pure_eq_ok, Except.ok.injEq] at hr hrt
      subst hr hrt
      right
      simp only [groupParse, bind_ok_iff, pure_eq_ok, Except.ok.injEq] at ha
      simp only [groupTag, bind_ok_iff, pure_eq_ok, Except.ok.injEq] at hb
      obtain ⟨⟨pre, seen⟩, hx, y, ⟨⟨sfx, seen'⟩, hz, t', rfl, rfl⟩, he⟩ := ha
      obtain ⟨⟨preT, seenT⟩, hxT, yT, ⟨⟨sfxT, seenT'⟩, hzT, t'', rfl, rfl⟩, heT⟩ := hb
      simp only [List.append_nil] at he heT
      exact ⟨pre, sfx, preT, sfxT, he.symm, heT.symm, prefix_part m w n1 _ rec pre preT seen seenT hx hxT,
        suffix_part m hd hs w n2 rec seen seenT sfx sfxT seen' seenT' hz hzT⟩

/-! ### The default analyzers -/

theorem first_rule_order {m : Morph S} {D : RuleData} {w : Str} {rec : Rec S} {gs : List (List (BUnit S))} {ρs : List Rule}
    (h : List.Forall₂ (fun g ρ => Implements m D w (fun g => groupParse m rec w (m.env.lower w) g []) g ρ ∧ OrderedBy m D w rec g ρ) gs ρs)
    (hnil : ∀ g ∈ gs, ∀ r rt, groupParse m rec w (m.env.lower w) g [] = .ok r → groupTag m rec w (m.env.lower w) g [] = .ok rt → (r = [] ↔ rt = []))
    (tail : List (List (BUnit S))) (res : List (Parse S)) (rest : List Tag)
    (hr : firstGroup (fun g => groupParse m rec w (m.env.lower w) g []) (gs ++ tail) = .ok res)
    (hrt : firstGroup (fun g => groupTag m rec w (m.env.lower w) g []) (gs ++ tail) = .ok rest) :
    (∀ before ρ after, ρs = before ++ ρ :: after → (∀ σ ∈ before, ¬ σ.applies m D w) → ρ.applies m D w → ρ.ordered m D w res rest) ∧
    ((∀ σ ∈ ρs, ¬ σ.applies m D w) → firstGroup (fun g => groupParse m rec w (m.env.lower w) g []) tail = .ok res ∧
      firstGroup (fun g => groupTag m rec w (m.env.lower w) g []) tail = .ok rest) := by
  induction h with
  | nil => exact ⟨fun b ρ a h => absurd h (by simp), fun _ => ⟨hr, hrt⟩⟩
  | @cons g ρ gs ρs h1 _ ih =>
    rw [List.cons_append, firstGroup, bind_ok_iff] at hr hrt
    obtain ⟨r, hg, hr⟩ := hr
    obtain ⟨rt, hgt, hrt⟩ := hrt
    obtain ⟨k1, -⟩ := h1.1 r hg
    have hn := hnil g (by simp) r rt hg hgt
    cases r with
    | nil =>
      have := hn.1 rfl
      subst this
      have hn : ¬ ρ.applies m D w := fun ha => (k1.2 ha) rfl
      obtain ⟨i1, i2⟩ := ih (fun g hg => hnil g (by simp [hg])) hr hrt
      refine ⟨?_, fun hall => i2 fun σ hσ => hall σ (List.mem_cons_of_mem _ hσ)⟩
      intro b σ a he hb hσ
      cases b with
      | nil =>
        simp only [List.nil_append, List.cons.injEq] at he
        exact absurd (he.1 ▸ hσ) hn
      | cons x b =>
        simp only [List.cons_append, List.cons.injEq] at he
        exact i1 b σ a he.2 (fun τ hτ => hb τ (List.mem_cons_of_mem _ hτ)) hσ
    | cons p r =>
      cases rt with
      | nil => simp at hn
      | cons t rt =>
        simp only [pure_eq_ok, Except.ok.injEq] at hr hrt
        subst hr hrt
        have ha : ρ.applies m D w := k1.1 (by simp)
        refine ⟨?_, fun hall => absurd ha (hall ρ (by simp))⟩
        intro b σ a he hb hσ
        cases b with
        | nil =>
          simp only [List.nil_append, List.cons.injEq] at he
          rw [← he.1]
          exact h1.2 _ _ hg hgt (by simp)
        | cons x b =>
          simp only [List.cons_append, List.cons.injEq] at he
          exact absurd ha (he.1 ▸ hb x (by simp))

/-- Assembly. -/
theorem rules_order (m : Morph Rat) (hm : IsRu m ∨ IsUk m) (hlow : m.env.LowerStable) (hd : m.dict.WF) (hs : m.sub.Proper) (D : RuleData) (rules : List Rule)
    (w : Str) (gs : List (List (BUnit Rat))) (n1 n2 n3 : Nat)
    (hg : IsGroups (gs ++ [[⟨n1, .unknownPrefix (dec 5 10)⟩, ⟨n2, .knownSuffix (dec 5 10) 4⟩], [⟨n3, .unkn ⟨c!"UNKN"⟩⟩]]) m.units)
    (hk : ∀ g ∈ gs, ∀ u ∈ g, u.cfg.kind ≠ .unkn)
    (hi : List.Forall₂ (fun g ρ => Implements m D w (fun g => groupParse m ⟨m.parse, m.tag⟩ w (m.env.lower w) g []) g ρ ∧
      OrderedBy m D w ⟨m.parse, m.tag⟩ g ρ) gs rules)
    (ps : List (Parse Rat)) (h : m.parse w = .ok ps) (ts : List Tag) (ht : m.tag w = .ok ts) (before : List Rule) (ρ : Rule) (after : List Rule)
    (hsplit : rules ++ [.guess] = before ++ ρ :: after) (hb : ∀ σ ∈ before, ¬ σ.applies m D w) (ha : ρ.applies m D w) :
    ∃ ps₀ ts₀, StableBy (fun c => m.prior (m.env.lower w) c.2.1) (ps₀.map Parse.core) (ps.map Parse.core) ∧
      StableBy (m.prior (m.env.lower w)) ts₀ ts ∧ ρ.ordered m D w ps₀ ts₀ := by
  have hpp := default_properPrefixes m hm
  obtain ⟨e1, e2⟩ := parse_unfold m hlow hpp w
  rw [e1] at h
  rw [e2] at ht
  obtain ⟨res, hres, so⟩ := parse_order m _ w ps h
  obtain ⟨rest, hrest, soT⟩ := tag_order m _ w ts ht
  refine ⟨res, rest, so, soT, ?_⟩
  rw [runParse_eq_firstGroup m _ w _ _ _ hg] at hres
  rw [runTag_eq_firstGroup m _ w _ _ _ hg] at hrest
  obtain ⟨groups, g1, g2, g3⟩ := default_groups m hm
  have hrec : Rec.TagsBelow (m.env.lower w) ⟨m.parse, m.tag⟩ := fun x _ _ ps ts h1 h2 => parse_tag_sameTags m hlow hd groups g1 g2 g3 x ps ts h1 h2
  have hpg : ∀ g ∈ gs, ∀ u ∈ g, u.cfg.properPrefixes := by
    intro g hgg u hu
    obtain ⟨t, hmem⟩ := (mem_of_isGroups hg u).2 ⟨g, by simp [hgg], hu⟩
    exact hpp _ hmem
  obtain ⟨h1, h2⟩ := first_rule_order hi (fun g hgg r rt => group_nil m hd _ w hrec g (hpg g hgg) (hk g hgg) r rt) _ res rest hres hrest
  rcases List.eq_nil_or_concat after with rfl | ⟨as, a, rfl⟩
  · have := List.append_inj' hsplit rfl
    simp only [List.cons.injEq, and_true] at this
    rw [← this.2]
    obtain ⟨t1, t2⟩ := h2 fun σ hσ => hb σ (this.1 ▸ hσ)
    exact order_guess_tail m hd hs D _ w hrec n1 n2 n3 res rest t1 t2
  · rw [List.concat_eq_append, ← List.cons_append, ← List.append_assoc] at hsplit
    have := List.append_inj' hsplit rfl
    exact h1 before ρ as this.1 hb ha

/-- **C74**, Russian: the results of `parse` and of `tag` come in the order the answering rule gives, rearranged by P(t|w) only where that differs. -/
theorem c74_ru (m : Morph Rat) (hm : IsRu m) (hlow : m.env.LowerStable) (hd : m.dict.WF) (hs : m.sub.Proper) (w : Str) (ps : List (Parse Rat))
    (h : m.parse w = .ok ps) (ts : List Tag) (ht : m.tag w = .ok ts)
    (before : List Rule) (ρ : Rule) (after : List Rule) (hsplit : ruRules = before ++ ρ :: after)
    (hb : ∀ σ ∈ before, ¬ σ.applies m ruData w) (ha : ρ.applies m ruData w) :
    ∃ ps₀ ts₀, StableBy (fun c => m.prior (m.env.lower w) c.2.1) (ps₀.map Parse.core) (ps.map Parse.core) ∧
      StableBy (m.prior (m.env.lower w)) ts₀ ts ∧ ρ.ordered m ruData w ps₀ ts₀ := by
  have hne := default_parse_ne m (.inl hm) hlow
  have hm' := hm
  obtain ⟨cls, hm⟩ := hm
  refine rules_order m (.inl hm') hlow hd hs ruData [.word, .number, .punct, .foreign, .particle, .adverb, .compound, .prefixed] w
    [[⟨0, .dictionary⟩, ⟨1, (UnitSpec.firstName ruInitialLetters firstNamePattern (dec 1 10)).bound⟩,
      ⟨2, (UnitSpec.patronymic ruInitialLetters patronymicPattern (dec 1 10)).bound⟩],
     [⟨3, (UnitSpec.number (dec 9 10)).bound⟩], [⟨4, (UnitSpec.punct (dec 9 10)).bound⟩],
     [⟨5, (UnitSpec.roman (dec 9 10)).bound⟩, ⟨6, (UnitSpec.latin (dec 9 10)).bound⟩],
     [⟨7, .particle ruData.particles (dec 9 10)⟩], [⟨8, (UnitSpec.adverb (dec 7 10)).bound⟩],
     [⟨9, .hyphenated ruData.prefixes (dec 75 100)⟩], [⟨10, .knownPrefix ruData.prefixes (dec 75 100) 3⟩]]
    11 12 13 (mkMorph_units hm).2.2.2.2 (by simp [UnitSpec.bound, UnitCfg.kind]) ?_ ps h ts ht before ρ after hsplit hb ha
  refine .cons ⟨group_word m ruData _ ruInitial_iff _ w _ _ _ _ _ _ _, order_word m ruData _ _ w _ _ _ _ _ _ _⟩
    (.cons ⟨group_number m _ _ w _ _, order_single m _ _ w _ _ (.inl rfl) (.inl ⟨_, _, rfl⟩)⟩
    (.cons ⟨group_punct m _ _ w _ _, order_single m _ _ w _ _ (.inr (.inl rfl)) (.inr (.inl ⟨_, _, rfl⟩))⟩
    (.cons ⟨group_foreign m _ _ w _ _ _ _, order_foreign m _ _ w _ _ _ _⟩
    (.cons ⟨group_particle m _ (by decide) hne w _ _, order_particle m _ (by decide) w _ _⟩
    (.cons ⟨group_adverb m _ w _ _, order_single m _ _ w _ _ (.inr (.inr rfl)) (.inr (.inr ⟨_, _, rfl⟩))⟩
    (.cons ⟨group_compound m _ w _ _, order_compound m _ w _ _⟩
    (.cons ⟨group_prefixed m _ w _ _, order_prefixed m _ c42_default_nodup.1 w _ _ _⟩ .nil)))))))

/-- **C74**, Ukrainian. -/
theorem c74_uk (m : Morph Rat) (hm : IsUk m) (hlow : m.env.LowerStable) (hd : m.dict.WF) (hs : m.sub.Proper) (w : Str) (ps : List (Parse Rat))
    (h : m.parse w = .ok ps) (ts : List Tag) (ht : m.tag w = .ok ts)
    (before : List Rule) (ρ : Rule) (after : List Rule) (hsplit : ukRules = before ++ ρ :: after)
    (hb : ∀ σ ∈ before, ¬ σ.applies m ukData w) (ha : ρ.applies m ukData w) :
    ∃ ps₀ ts₀, StableBy (fun c => m.prior (m.env.lower w) c.2.1) (ps₀.map Parse.core) (ps.map Parse.core) ∧
      StableBy (m.prior (m.env.lower w)) ts₀ ts ∧ ρ.ordered m ukData w ps₀ ts₀ := by
  have hne := default_parse_ne m (.inr hm) hlow
  have hm' := hm
  obtain ⟨cls, hm⟩ := hm
  refine rules_order m (.inr hm') hlow hd hs ukData [.wordOrForeign, .number, .punct, .particle, .compound, .prefixed] w
    [[⟨0, .dictionary⟩, ⟨1, (UnitSpec.firstName ukInitialLetters firstNamePattern (dec 1 10)).bound⟩,
      ⟨2, (UnitSpec.patronymic ukInitialLetters patronymicPattern (dec 1 10)).bound⟩,
      ⟨3, (UnitSpec.roman (dec 9 10)).bound⟩, ⟨4, (UnitSpec.latin (dec 9 10)).bound⟩],
     [⟨5, (UnitSpec.number (dec 9 10)).bound⟩], [⟨6, (UnitSpec.punct (dec 9 10)).bound⟩],
     [⟨7, .particle ukData.particles (dec 9 10)⟩],
     [⟨8, .hyphenated ukData.prefixes (dec 75 100)⟩], [⟨9, .knownPrefix ukData.prefixes (dec 75 100) 3⟩]]
    10 11 12 (mkMorph_units hm).2.2.2.2 (by simp [UnitSpec.bound, UnitCfg.kind]) ?_ ps h ts ht before ρ after hsplit hb ha
  refine .cons ⟨group_wordOrForeign m ukData _ ukInitial_iff _ w _ _ _ _ _ _ _ _ _ _ _, order_wordOrForeign m ukData _ _ w _ _ _ _ _ _ _ _ _ _ _⟩
    (.cons ⟨group_number m _ _ w _ _, order_single m _ _ w _ _ (.inl rfl) (.inl ⟨_, _, rfl⟩)⟩
    (.cons ⟨group_punct m _ _ w _ _, order_single m _ _ w _ _ (.inr (.inl rfl)) (.inr (.inl ⟨_, _, rfl⟩))⟩
    (.cons ⟨group_particle m _ (by decide) hne w _ _, order_particle m _ (by decide) w _ _⟩
    (.cons ⟨group_compound m _ w _ _, order_compound m _ w _ _⟩
    (.cons ⟨group_prefixed m _ w _ _, order_prefixed m _ c42_default_nodup.2 w _ _ _⟩ .nil)))))

/-! ### Non-vacuity -/

/-- The demo dictionary with a prediction table that has two lines for one ending. -/
def Demo.dict74 : Dict := 
  { Demo.dict with pred := [[(c!"ка", 1, 4, 0), (c!"ка", 1, 0, 0)], [], []], paradigms := Demo.dict.paradigms ++ [[0, 2, 0]] }
def Demo.morph74 : Morph Rat := { Demo.morph with dict := Demo.dict74 }

theorem Demo.dict74_wf : Demo.dict74.WF := Dict.check_wf _ (by decide +kernel)

/-- A guessed word: the hypotheses of the theorem hold for it. -/
example : ∃ ps ts, Demo.morph74.parse (c!"пышка") = .ok ps ∧ Demo.morph74.tag (c!"пышка") = .ok ts ∧
    ∃ ps₀ ts₀, StableBy (fun c => Demo.morph74.prior (Demo.morph74.env.lower (c!"пышка")) c.2.1) (ps₀.map Parse.core) (ps.map Parse.core) ∧
      StableBy (Demo.morph74.prior (Demo.morph74.env.lower (c!"пышка"))) ts₀ ts ∧ Rule.guess.ordered Demo.morph74 ruData (c!"пышка") ps₀ ts₀ := by
  obtain ⟨ps, hps, -⟩ := ok_of_any (Demo.morph74.parse (c!"пышка")) (fun _ => true) (by decide +kernel)
  obtain ⟨ts, hts, -⟩ := ok_of_any (Demo.morph74.tag (c!"пышка")) (fun _ => true) (by decide +kernel)
  refine ⟨ps, ts, hps, hts, c74_ru Demo.morph74 (Demo.isRu_of _ _) demoEnv_lowerStable Demo.dict74_wf c05_default_targets.2.2.1 _ ps hps ts hts
    [.word, .number, .punct, .foreign, .particle, .adverb, .compound, .prefixed] .guess [] rfl ?_ trivial⟩
  intro σ hσ
  have hh : '-' ∉ Demo.morph74.env.lower (c!"пышка") := by decide +kernel
  simp only [List.mem_cons, List.not_mem_nil, or_false] at hσ
  rcases hσ with rfl | rfl | rfl | rfl | rfl | rfl | rfl | rfl
  · rintro (h | h)
    · have h1 : Demo.morph74.wordIsKnown (c!"пышка") = false := by decide +kernel
      rw [h1] at h; simp at h
    · have h2 : (c!"пышка") ∉ ruInitialLetters := by decide
      exact h2 ((ruInitial_iff _).1 h)
  · unfold Rule.applies SaysFloat; decide +kernel
  · unfold Rule.applies; decide +kernel
  · unfold Rule.applies; decide +kernel
  · rintro ⟨rest, part, hp, _, he⟩
    have : ∀ p ∈ ruData.particles, '-' ∈ p := by decide
    exact hh (by rw [he]; simp [this part hp])
  · rintro ⟨rest, he, _⟩
    exact hh (by rw [he]; simp)
  · rintro ⟨a, b, he, _⟩
    exact hh (by rw [he]; simp)
  · rintro ⟨pre, hp, rest, he, _⟩
    have : ∀ p ∈ ruData.prefixes, startsWith (Demo.morph74.env.lower (c!"пышка")) p = false := by decide +kernel
    have h2 := this pre hp
    rw [(startsWith_iff _ _).2 ⟨rest, he.symm⟩] at h2
    simp at h2

/-- Guesses need not come in the same order from `parse` and from `tag`. -/
theorem c74_orders_differ : ((Demo.morph74.parse (c!"пышка")).toOption.map fun ps => ps.map fun p => p.tag) =
      some [⟨c!"ADJF,Qual masc,sing,nomn"⟩, ⟨c!"NOUN,anim,femn sing,nomn"⟩] ∧
    (Demo.morph74.tag (c!"пышка")).toOption = some [⟨c!"NOUN,anim,femn sing,nomn"⟩, ⟨c!"ADJF,Qual masc,sing,nomn"⟩] := by
  constructor <;> decide +kernel

end Verif
