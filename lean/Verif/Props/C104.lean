/-
C104: what the `parse` command prints when scores are floats.
-/
import Verif.Props.C103
import Verif.Props.C58

set_option linter.unusedSectionVars false

namespace Verif

/-! ### Specification -/

/-- The float scores of the parses with normal form `l`, added up in the order of the parses. -/
def lemmaTotalD (ps : List (Parse Dbl)) (l : Str) : Dbl := sumS ((ps.filter fun p => p.nf = l).map Parse.score)

/-- The table of lemmas of a token, with float totals: each normal form of its parses whose total reaches the threshold, once; higher
totals first, and of equal ones the one that occurs first among the parses. -/
structure LemmaTableD (thresh : Dbl) (ps : List (Parse Dbl)) (t : List (Str × Dbl)) : Prop where
  once : (t.map Prod.fst).Nodup
  entries : ∀ l w, (l, w) ∈ t ↔ (∃ p ∈ ps, p.nf = l) ∧ w = lemmaTotalD ps l ∧ thresh.val ≤ w.val
  order : t.Pairwise fun a b => b.2.val < a.2.val ∨ (a.2 = b.2 ∧ (ps.map Parse.nf).idxOf a.1 < (ps.map Parse.nf).idxOf b.1)

/-- One analysis: normal form (with `-l`), score (with `-s`), tag. -/
def analysisD (o : CliOpts Dbl) (p : Parse Dbl) : Str :=
  (if o.normalForm then p.nf ++ c!":" else []) ++ (if o.score then fmtScore p.score.val ++ c!"=" else []) ++ p.tag.str

/-- What stands between the braces (compare `Printed`, the same for exact arithmetic). -/
inductive PrintedD (m : Morph Dbl) (o : CliOpts Dbl) (tok : Str) : List Str → Prop
  | tags (ts : List Tag) (hn : o.normalForm = false) (ht : o.tag = true) (hs : o.score = false) (h0 : o.thresh.val = 0) (h : m.tag tok = .ok ts) :
      PrintedD m o tok (ts.map Tag.str)
  | analyses (ps : List (Parse Dbl)) (ht : o.tag = true) (hx : o.normalForm = true ∨ o.score = true ∨ o.thresh.val ≠ 0) (h : m.parse tok = .ok ps) :
      PrintedD m o tok ((ps.filter fun p => o.thresh.val ≤ p.score.val).map (analysisD o))
  | lemmas (ps : List (Parse Dbl)) (t : List (Str × Dbl)) (hn : o.normalForm = true) (ht : o.tag = false) (h : m.parse tok = .ok ps)
      (hl : LemmaTableD o.thresh ps t) : PrintedD m o tok (t.map fun e => e.1 ++ if o.score then c!":" ++ fmtScore e.2.val else [])

/-- The number format of the command. -/
def fmtDbl (x : Dbl) : Str := fmtScore x.val

/-! ### The table of lemmas -/

theorem Dbl.ext' {a b : Dbl} (h : a.val = b.val) : a = b := by
  cases a; cases b; simp only at h; subst h; rfl

theorem lemmaWeights_fold {S : Type} [Score S] (ps : List (Parse S)) : ∀ d : List (Str × S), (d.map Prod.fst).Nodup →
    ((lemmaWeights ps d).map Prod.fst).Nodup ∧
    ∀ l, dictGet l (lemmaWeights ps d) = if l ∈ ps.map Parse.nf ∨ l ∈ d.map Prod.fst then
      some (((ps.filter fun p => p.nf = l).map Parse.score).foldl Score.add ((dictGet l d).getD Score.zero)) else none := by
  induction ps with
  | nil =>
    intro d hd
    refine ⟨hd, fun l => ?_⟩
    simp only [lemmaWeights, List.map_nil, List.not_mem_nil, false_or, List.filter_nil, List.foldl_nil]
    split
    next h =>
      obtain ⟨v, hv⟩ := (dictGet_isSome_iff l d).2 h
      simp [hv]
    next h => exact (dictGet_none_iff l d).2 h
  | cons p ps ih =>
    intro d hd
    simp only [lemmaWeights]
    obtain ⟨h1, h2⟩ := ih (dictSet p.nf (Score.add ((dictGet p.nf d).getD Score.zero) p.score) d) (keys_dictSet_nodup _ _ _ hd)
    refine ⟨h1, fun l => ?_⟩
    rw [h2 l]
    have hkeys : l ∈ (dictSet p.nf (Score.add ((dictGet p.nf d).getD Score.zero) p.score) d).map Prod.fst ↔ l = p.nf ∨ l ∈ d.map Prod.fst := by
      rw [← dictGet_isSome_iff, ← dictGet_isSome_iff, dictGet_dictSet]
      by_cases hl : l = p.nf
      · simp [hl]
      · simp [hl]
    simp only [hkeys, dictGet_dictSet]
    by_cases hl : l = p.nf
    · subst hl
      simp only [true_or, or_true, List.map_cons, List.mem_cons, if_true, Option.getD_some]
      rw [List.filter_cons_of_pos (by simp)]
      rfl
    · have hl' : ¬ p.nf = l := fun h => hl h.symm
      rw [List.filter_cons_of_neg (by simpa using hl')]
      simp only [hl, if_false, List.map_cons, List.mem_cons, false_or]

/-- **C104.** The table of lemmas is the one described in the specification: totals are the float sums in the order of the parses. -/
theorem c104_lemma_table (thresh : Dbl) (ps : List (Parse Dbl)) (t : List (Str × Dbl)) : LemmaTableD thresh ps t ↔ t = lemmaItems thresh ps := by
  have key : LemmaTableD thresh ps (lemmaItems thresh ps) := by
    obtain ⟨h1, h2⟩ := lemmaWeights_fold ps [] (by simp)
    have hperm : (lemmaItems thresh ps).Perm ((lemmaWeights ps []).filter fun e => Score.le thresh e.2) := List.perm_insertionSort _ _
    refine ⟨(hperm.map Prod.fst).nodup_iff.2 (h1.sublist (List.filter_sublist.map _)), fun l w => ?_, ?_⟩
    · rw [hperm.mem_iff, List.mem_filter]
      have hle : (Score.le thresh w = true) ↔ thresh.val ≤ w.val := by simp [Score.le]
      have hmem : (l, w) ∈ lemmaWeights ps [] ↔ (∃ p ∈ ps, p.nf = l) ∧ w = lemmaTotalD ps l := by
        constructor
        · intro h
          have hg := dictGet_of_mem l _ w h1 h
          rw [h2 l] at hg
          split at hg
          next hc =>
            simp only [List.map_nil, List.not_mem_nil, or_false, List.mem_map] at hc
            simp only [dictGet, Option.getD_none, Option.some.injEq] at hg
            exact ⟨hc, hg.symm⟩
          · cases hg
        · rintro ⟨hp, rfl⟩
          apply dictGet_mem'
          rw [h2 l, if_pos (by left; simpa using hp)]
          rfl
      rw [hmem, hle, and_assoc]
    · have hT : ((lemmaWeights ps []).filter fun e => Score.le thresh e.2).Pairwise
          fun a b => (ps.map Parse.nf).idxOf a.1 < (ps.map Parse.nf).idxOf b.1 := by
        apply List.Pairwise.filter
        rw [← List.pairwise_map (f := Prod.fst) (R := fun a b : Str => (ps.map Parse.nf).idxOf a < (ps.map Parse.nf).idxOf b), lemmaWeights_keys]
        exact idxOf_normalFormsLoop ps []
      have := pairwise_insertionSort_stable (fun a b : Str × Dbl => Score.le b.2 a.2 = true)
        (by intro a b; simpa [Score.le] using le_total b.2.val a.2.val)
        (by intro a b c; simp only [Score.le, decide_eq_true_eq]; exact fun h1 h2 => h2.trans h1) _ _ hT
      refine this.imp ?_
      rintro a b ⟨h1, h2⟩
      simp only [Score.le, decide_eq_true_eq] at h1 h2
      rcases h1.lt_or_eq with h | h
      · exact .inl h
      · exact .inr ⟨Dbl.ext' h.symm, h2.resolve_left (by simp [h])⟩
  constructor
  · intro h
    have hp : t.Perm (lemmaItems thresh ps) := by
      rw [List.perm_ext_iff_of_nodup (List.Nodup.of_map _ h.once) (List.Nodup.of_map _ key.once)]
      rintro ⟨l, w⟩
      rw [h.entries, key.entries]
    refine hp.eq_of_pairwise ?_ h.order key.order
    rintro a b _ _ h1 h2
    exfalso
    rcases h1 with h1 | ⟨h1, h1'⟩ <;> rcases h2 with h2 | ⟨h2, h2'⟩
    · exact absurd h1 (not_lt.2 h2.le)
    · rw [h2] at h1; exact lt_irrefl _ h1
    · rw [h1] at h2; exact lt_irrefl _ h2
    · omega
  · rintro rfl; exact key

/-- **C104.** What is printed for a token when scores are floats: the token and, between braces and separated by bars, the items of the
specification. -/
theorem c104_items (m : Morph Dbl) (o : CliOpts Dbl) (tok chunk : Str) : formatToken fmtDbl m o tok = .ok chunk ↔
    ∃ items, PrintedD m o tok items ∧ chunk = tok ++ c!"{" ++ joinC '|' items ++ c!"}" ++ (if o.newlines then c!"\n" else c!" ") := by
  have kl : ∀ seq, o.line tok seq = tok ++ c!"{" ++ joinC '|' seq ++ c!"}" ++ (if o.newlines then c!"\n" else c!" ") := by
    intro seq; simp [CliOpts.line]
  have hz : (Score.isZero o.thresh = true) ↔ o.thresh.val = 0 := by simp [Score.isZero]
  have hf : ∀ ps : List (Parse Dbl), (ps.filter fun p => Score.le o.thresh p.score) = ps.filter fun p => decide (o.thresh.val ≤ p.score.val) := fun _ => rfl
  obtain ⟨sc, nf, tg, nl, th⟩ := o
  simp only at kl hz hf
  have ha : analysisD ⟨sc, nf, tg, nl, th⟩ = fun p => (if nf then p.nf ++ c!":" else []) ++ (if sc then fmtDbl p.score ++ c!"=" else []) ++ p.tag.str := rfl
  constructor
  · intro h
    cases nf <;> cases tg
    · simp [formatToken] at h
    · by_cases hc : sc = false ∧ th.val = 0
      · obtain ⟨rfl, h0⟩ := hc
        unfold formatToken at h
        rw [if_neg (by simp), if_pos (by simp [Score.isZero, h0])] at h
        obtain ⟨ts, hts, h⟩ := (bind_ok_iff _ _ _).1 h
        cases h
        rw [kl]
        exact ⟨_, .tags ts rfl rfl rfl h0 hts, rfl⟩
      · have hx : sc = true ∨ th.val ≠ 0 := by
          cases sc
          · right; intro h0; exact hc ⟨rfl, h0⟩
          · left; rfl
        unfold formatToken at h
        rw [if_neg (by simp), if_neg (by simp only [Bool.and_eq_true, Bool.not_eq_true', hz]; tauto)] at h
        obtain ⟨ps, hps, h⟩ := (bind_ok_iff _ _ _).1 h
        refine ⟨_, .analyses ps rfl (.inr hx) hps, ?_⟩
        rw [ha]
        cases sc
        · cases h; rw [kl]; rfl
        · cases h; rw [kl]; simp [hf]
    · unfold formatToken at h
      rw [if_neg (by simp), if_neg (by simp)] at h
      obtain ⟨ps, hps, h⟩ := (bind_ok_iff _ _ _).1 h
      refine ⟨_, .lemmas ps _ rfl rfl hps ((c104_lemma_table _ _ _).2 rfl), ?_⟩
      cases sc
      · cases h; rw [kl]; simp
      · cases h; rw [kl]; rfl
    · unfold formatToken at h
      rw [if_neg (by simp), if_neg (by simp)] at h
      obtain ⟨ps, hps, h⟩ := (bind_ok_iff _ _ _).1 h
      refine ⟨_, .analyses ps rfl (.inl rfl) hps, ?_⟩
      rw [ha]
      cases sc
      · cases h; rw [kl]; simp [hf]
      · cases h; rw [kl]; simp [hf]
  · rintro ⟨items, hp, rfl⟩
    unfold formatToken
    cases hp with
    | tags ts hn ht hs h0 h =>
      simp only at hn ht hs h0
      subst hn ht hs
      rw [if_neg (by simp), if_pos (by simp [hz.2 h0]), h, ok_bind, kl]
      rfl
    | analyses ps ht hx h =>
      simp only at ht hx
      subst ht
      rw [if_neg (by simp), if_neg (by simp only [Bool.and_eq_true, Bool.not_eq_true', hz]; rcases hx with rfl | rfl | h0 <;> simp_all), h, ok_bind, ha]
      simp only [kl, hf]
      cases nf <;> cases sc
      · rfl
      · simp
      · simp
      · simp
    | lemmas ps t hn ht h hl =>
      simp only at hn ht
      subst hn ht
      rw [(c104_lemma_table _ _ _).1 hl, if_neg (by simp), if_neg (by simp), h, ok_bind]
      simp only [kl]
      cases sc
      · simp
      · rfl

/-! ### Floats and exact arithmetic -/

/-- **C104.** Without a threshold, tags (with or without lemmas) are printed as if scores were exact: the same line for every token, or
the same exception. -/
theorem c104_same_lines (m : Morph Rat) (d : Morph Dbl) (h : SameCall m d) (hc : m.dict.SmallCounts m.sub)
    (hd : ∀ dawg, m.est = some dawg → ∀ e ∈ dawg, e.2 < 2 ^ 50) (nf nl : Bool) (fmt : Rat → Str) (tok : Str) :
    formatToken fmtDbl d ⟨false, nf, true, nl, toDbl 0⟩ tok = formatToken fmt m ⟨false, nf, true, nl, 0⟩ tok := by
  have hR : Roundable m := ⟨default_posScores m h.default, hc, hd⟩
  have hp := parse_sim m hR tok
  have ht := tag_sim m hR tok
  rw [h.eq]
  have hz : (toDbl 0).val = 0 := fl_zero
  cases nf
  · have e1 : formatToken fmtDbl m.toDbl ⟨false, false, true, nl, toDbl 0⟩ tok = (m.toDbl.tag tok >>= fun ts =>
        pure ((⟨false, false, true, nl, toDbl 0⟩ : CliOpts Dbl).line tok (ts.map Tag.str))) := by
      unfold formatToken
      rw [if_neg (by simp), if_pos (by simp [Score.isZero, hz])]
    have e2 : formatToken fmt m ⟨false, false, true, nl, 0⟩ tok = (m.tag tok >>= fun ts =>
        pure ((⟨false, false, true, nl, 0⟩ : CliOpts Rat).line tok (ts.map Tag.str))) := by
      unfold formatToken
      rw [if_neg (by simp), if_pos (by simp [Score.isZero])]
    rw [e1, e2, ← ht]
    rfl
  · unfold formatToken
    rw [if_neg (by simp), if_neg (by simp), if_neg (by simp), if_neg (by simp)]
    generalize m.parse tok = x at hp ⊢
    generalize m.toDbl.parse tok = y at hp ⊢
    cases hp with
    | err e => rfl
    | ok hab =>
      rw [ok_bind, ok_bind]
      have := forall₂_map_eq (forall₂_filter hab (fun p => Score.le (0 : Rat) p.score) (fun p => Score.le (toDbl 0) p.score) (fun a b hab => by
          simp [Score.le, hz, hab.score.1, hab.score.2.1])) (fun p => p.nf ++ ':' :: p.tag.str) (fun p => p.nf ++ ':' :: p.tag.str)
        (fun a b hab => by rw [hab.nf, hab.tag])
      simp only [if_true]
      show Except.ok _ = Except.ok _
      simp only [this, CliOpts.line]

/-- **C104.** Without a threshold, the lemmas printed are the lemmas printed in exact arithmetic: the normal forms of the token. -/
theorem c104_same_lemmas (m : Morph Rat) (d : Morph Dbl) (h : SameCall m d) (hc : m.dict.SmallCounts m.sub)
    (hd : ∀ dawg, m.est = some dawg → ∀ e ∈ dawg, e.2 < 2 ^ 50) (tok : Str) (ps : List (Parse Rat)) (hps : m.parse tok = .ok ps) :
    ∃ qs, d.parse tok = .ok qs ∧ ∀ t u, LemmaTable 0 ps t → LemmaTableD (toDbl 0) qs u → (t.map Prod.fst).Perm (u.map Prod.fst) := by
  have hR : Roundable m := ⟨default_posScores m h.default, hc, hd⟩
  have hp := parse_sim m hR tok
  rw [← h.eq, hps] at hp
  generalize d.parse tok = y at hp ⊢
  cases hp with
  | ok hab =>
    rename_i qs
    refine ⟨qs, rfl, fun t u ht hu => ?_⟩
    have hz : (toDbl 0).val = 0 := fl_zero
    rw [List.perm_ext_iff_of_nodup ht.once hu.once]
    intro l
    have e1 : (∃ p ∈ ps, p.nf = l) ↔ ∃ q ∈ qs, q.nf = l := by
      constructor
      · rintro ⟨p, hp, rfl⟩
        obtain ⟨q, hq, hpq⟩ := forall₂_mem_left hab hp
        exact ⟨q, hq, hpq.nf.symm⟩
      · rintro ⟨q, hq, rfl⟩
        obtain ⟨p, hp, hpq⟩ := forall₂_mem_right hab hq
        exact ⟨p, hp, hpq.nf⟩
    have n1 : 0 ≤ lemmaTotal ps l := by
      unfold lemmaTotal
      apply List.sum_nonneg
      intro x hx
      obtain ⟨p, hp, rfl⟩ := List.mem_map.1 hx
      obtain ⟨q, _, hpq⟩ := forall₂_mem_left hab (List.mem_filter.1 hp).1
      exact hpq.score.1
    have n2 : 0 ≤ (lemmaTotalD qs l).val := by
      refine (sumS_dbl _ ?_).2.1
      intro x hx
      obtain ⟨q, hq, rfl⟩ := List.mem_map.1 hx
      obtain ⟨p, _, hpq⟩ := forall₂_mem_right hab (List.mem_filter.1 hq).1
      exact hpq.score.2.1
    constructor
    · intro hl
      obtain ⟨⟨_, w⟩, hw, rfl⟩ := List.mem_map.1 hl
      have := ((ht.entries _ _).1 hw).1
      exact List.mem_map.2 ⟨_, (hu.entries _ _).2 ⟨e1.1 this, rfl, by rw [hz]; exact n2⟩, rfl⟩
    · intro hl
      obtain ⟨⟨_, w⟩, hw, rfl⟩ := List.mem_map.1 hl
      have := ((hu.entries _ _).1 hw).1
      exact List.mem_map.2 ⟨_, (ht.entries _ _).2 ⟨e1.2 this, rfl, n1⟩, rfl⟩

theorem sumS_rat (xs : List Rat) : sumS xs = xs.sum := by
  unfold sumS
  have : ∀ (a : Rat), xs.foldl Score.add a = a + xs.sum := by
    induction xs with
    | nil => intro a; simp
    | cons x xs ih => intro a; rw [List.foldl_cons, ih, List.sum_cons]; show a + x + _ = _; ring
  rw [this]; show (0 : Rat) + _ = _; ring

/-- The totals of a lemma in the two arithmetics. -/
theorem near_total {k N : Nat} {ps : List (Parse Rat)} {qs : List (Parse Dbl)} (h : List.Forall₂ (PNear k) ps qs) (hN : ps.length ≤ N)
    (l : Str) : Near (k + N) (lemmaTotal ps l) (lemmaTotalD qs l) := by
  have hf := forall₂_filter h (fun p => decide (p.nf = l)) (fun p => decide (p.nf = l)) (fun a b hab => by rw [hab.nf])
  have hs := Near.sumS (forall₂_map₂ hf Parse.score Parse.score fun a b hab => hab.score)
  rw [sumS_rat] at hs
  refine hs.mono ?_
  have := List.length_filter_le (fun p : Parse Rat => decide (p.nf = l)) ps
  simp only [List.length_map]
  omega

/-- **C104.** Totals are accurate, and the order of lemmas follows the exact totals: lemmas whose exact totals differ by more than the
rounding error are never printed in the wrong order, whatever the threshold. -/
theorem c104_lemma_order (m : Morph Rat) (d : Morph Dbl) (h : SameCall m d) (hlow : m.env.LowerStable) (hc : m.dict.SmallCounts m.sub)
    (hd : ∀ dawg, m.est = some dawg → ∀ e ∈ dawg, e.2 < 2 ^ 50) (w : Str) (N : Nat)
    (few : ∀ x, x = w ∨ x <:+: m.env.lower w → ∀ ps, m.parse x = .ok ps → ps.length ≤ N)
    (hsize : (N + 9) * 2 ^ ((m.env.lower w).length + 2) ≤ 2 ^ 51) (ps : List (Parse Rat)) (hps : m.parse w = .ok ps) :
    ∃ qs, d.parse w = .ok qs ∧
      (∀ l, |(lemmaTotalD qs l).val - lemmaTotal ps l| ≤ lemmaTotal ps l * scoreError N (m.env.lower w).length) ∧
      ∀ l l', lemmaTotal ps l' * (1 + 2 * scoreError N (m.env.lower w).length) < lemmaTotal ps l →
        (lemmaTotalD qs l').val < (lemmaTotalD qs l).val ∧
        ∀ thresh t, LemmaTableD thresh qs t → ¬ [l', l].Sublist (t.map Prod.fst) := by
  have hn := near_parse m d h hlow hc hd w N few
  rw [hps] at hn
  generalize hq : d.parse w = y at hn ⊢
  cases hn with
  | ok hab =>
    rename_i qs
    refine ⟨qs, rfl, ?_⟩
    have hlen := few w (.inl rfl) ps hps
    have hr := roundings_le m.est.isSome N ((m.env.lower w).length + 1)
    have hnear : ∀ l, Near ((N + 9) * 2 ^ ((m.env.lower w).length + 1)) (lemmaTotal ps l) (lemmaTotalD qs l) := fun l =>
      (near_total hab hlen l).mono hr
    have e2 : (N + 9) * 2 ^ ((m.env.lower w).length + 2) = 2 * ((N + 9) * 2 ^ ((m.env.lower w).length + 1)) := by
      rw [pow_succ 2 ((m.env.lower w).length + 1)]; ring
    have hse : (2 * ((N + 9) * 2 ^ ((m.env.lower w).length + 1) : Nat) / 2 ^ 52 : Rat) = scoreError N (m.env.lower w).length := by
      unfold scoreError
      push_cast
      rw [pow_succ 2 ((m.env.lower w).length + 1)]
      ring
    rw [e2] at hsize
    generalize (N + 9) * 2 ^ ((m.env.lower w).length + 1) = K at *
    refine ⟨fun l => ?_, fun l l' hlt => ?_⟩
    · rw [← hse]
      exact (hnear l).abs (by omega)
    · have hless : (lemmaTotalD qs l').val < (lemmaTotalD qs l).val := ?_
      · refine ⟨hless, fun thresh t ht hsub => ?_⟩
        obtain ⟨t', hs, e⟩ := List.sublist_map_iff.1 hsub
        match t', e with
        | [a, b], e =>
          simp only [List.map_cons, List.map_nil, List.cons.injEq, and_true] at e
          have hp := List.pairwise_cons.1 (ht.order.sublist hs)
          have hab := hp.1 b (by simp)
          have ha := (ht.entries a.1 a.2).1 (hs.subset (by simp))
          have hb := (ht.entries b.1 b.2).1 (hs.subset (by simp))
          rw [← e.1] at ha
          rw [← e.2] at hb
          rw [ha.2.1, hb.2.1] at hab
          rcases hab with hab | hab
          · exact absurd hab (not_lt.2 hless.le)
          · rw [hab.1] at hless; exact lt_irrefl _ hless
      have h1 := (hnear l').down
      have h2 := (hnear l).up
      have hg := gPow_le (2 * K) hsize
      have he : (2 * (2 * K : Nat) / 2 ^ 52 : Rat) = 2 * scoreError N (m.env.lower w).length := by rw [← hse]; push_cast; ring
      rw [he] at hg
      have h0 := (hnear l').sim.1
      by_contra hcon
      have hcon := not_lt.1 hcon
      have hp := gPow_pos K
      have : lemmaTotal ps l ≤ lemmaTotal ps l' * gRound ^ (2 * K) := by
        calc lemmaTotal ps l ≤ (lemmaTotalD qs l).val * gRound ^ K := h2
          _ ≤ (lemmaTotalD qs l').val * gRound ^ K := mul_le_mul_of_nonneg_right hcon hp.le
          _ ≤ lemmaTotal ps l' * gRound ^ K * gRound ^ K := mul_le_mul_of_nonneg_right h1 hp.le
          _ = lemmaTotal ps l' * gRound ^ (2 * K) := by rw [two_mul, pow_add]; ring
      have := this.trans (mul_le_mul_of_nonneg_left hg h0)
      linarith

/-! ### What rounding does change -/

/-- A dictionary in which рак is a form of рак, and twice a form of рака. -/
def Demo.dict104 : Dict :=
  { Demo.dict with
    gramtab := Demo.dict.gramtab ++ [⟨c!"NOUN,inan,masc sing,nomn"⟩, ⟨c!"NOUN,inan,femn sing,nomn"⟩, ⟨c!"NOUN,inan,femn plur,gent"⟩,
      ⟨c!"NOUN,inan,femn plur,accs"⟩]
    paradigms := Demo.dict.paradigms ++ [[4, 7, 0], [7, 4, 4, 8, 9, 10, 0, 0, 0]]
    suffixes := Demo.dict.suffixes ++ [c!"а"]
    words := [(c!"рак", (4, 0)), (c!"рак", (5, 1)), (c!"рак", (5, 2)), (c!"рака", (5, 0))]
    pred := [[], [], []] }

/-- P(t|w) is 0.3 for рак, 0.2 and 0.1 for the forms of рака. -/
def Demo.morph104 : Morph Rat :=
  { Demo.morph with dict := Demo.dict104
                    est := some [(c!"рак:NOUN,inan,masc sing,nomn", 300000), (c!"рак:NOUN,inan,femn plur,gent", 200000),
                      (c!"рак:NOUN,inan,femn plur,accs", 100000)] }

theorem Demo.morph104_isRu : IsRu Demo.morph104 := by
  refine ⟨Demo.cls, ?_⟩
  unfold mkMorph
  show (initUnits (ruUnits (S := Rat)) Demo.cls >>= fun r =>
    pure (⟨Demo.morph104.env, Demo.morph104.dict, r.1, Demo.morph104.sub, r.2, Demo.morph104.est⟩ : Morph Rat)) = _
  rw [Demo.bound_ok]; rfl

/-- **C104.** Equal totals may be told apart by rounding: 0.2 + 0.1 is more than 0.3 in floats, so рака is printed before рак, although
the totals are equal and рак comes first among the parses. -/
theorem c104_ties_can_differ :
    SameCall Demo.morph104 Demo.morph104.toDbl ∧
    (formatToken fmtScore Demo.morph104 ⟨true, true, false, false, 0⟩ (c!"рак")).toOption = some (c!"рак{рак:0.300|рака:0.300} ") ∧
    (formatToken fmtDbl Demo.morph104.toDbl ⟨true, true, false, false, toDbl 0⟩ (c!"рак")).toOption = some (c!"рак{рака:0.300|рак:0.300} ") :=
  ⟨SameCall.exists _ (.inl Demo.morph104_isRu), by decide +kernel, by decide +kernel⟩

/-- Non-vacuity: the conditions of `c104_lemma_order` hold for this word, and the totals of рак and of рака are what they should be. -/
example : Demo.morph104.env.LowerStable ∧ Demo.morph104.dict.SmallCounts Demo.morph104.sub ∧
    (∀ dawg, Demo.morph104.est = some dawg → ∀ e ∈ dawg, e.2 < 2 ^ 50) ∧
    (∀ x, x = (c!"рак") ∨ x <:+: Demo.morph104.env.lower (c!"рак") → ∀ ps, Demo.morph104.parse x = .ok ps → ps.length ≤ 20) ∧
    (20 + 9) * 2 ^ ((Demo.morph104.env.lower (c!"рак")).length + 2) ≤ 2 ^ 51 ∧
    (Demo.morph104.parse (c!"рак")).toOption.map (fun ps => (lemmaTotal ps (c!"рак"), lemmaTotal ps (c!"рака"))) = some (3 / 10, 3 / 10) := by
  refine ⟨demoEnv_lowerStable, c73_condition _ _ c05_default_targets.2.2.1 (by decide +kernel), ?_, ?_, by decide +kernel, by decide +kernel⟩
  · intro dawg h
    cases h
    decide +kernel
  · have key : ∀ x ∈ [] :: (c!"рак") :: pieces (Demo.morph104.env.lower (c!"рак")),
        ((Demo.morph104.parse x).toOption.map fun ps => decide (ps.length ≤ 20)) ≠ some false := by decide +kernel
    intro x hx ps hps
    have hm : x ∈ [] :: (c!"рак") :: pieces (Demo.morph104.env.lower (c!"рак")) := by
      rcases hx with rfl | hx
      · simp
      · by_cases hn : x = []
        · simp [hn]
        · simp [mem_pieces _ _ hx hn]
    have := key x hm
    rw [hps] at this
    simpa [Except.toOption] using this

end Verif
