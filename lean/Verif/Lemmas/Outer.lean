/-
The outermost method of a result names the unit that produced it.
-/
import Verif.Lemmas.Deriv
import Verif.Lemmas.Bind

set_option linter.unusedSectionVars false

namespace Verif

variable {S : Type} [Score S]

/-- `methods_stack[-1][0]`: the unit whose `parse` method produced the result (analyzer.py:44-46). -/
def Parse.outer (p : Parse S) : Option UObj :=
  match p.stack with
  | .nil => none
  | .push _ m => some m.obj

theorem unitParse_outer (m : Morph S) (rec : Rec S) (u : BUnit S) (word wl : Str) (seen : Seen)
    (r : List (Parse S) × Seen) (h : unitParse m rec u word wl seen = .ok r) (p : Parse S) (hp : p ∈ r.1) :
    p.outer = some u.obj := by
  unfold unitParse at h
  split at h
  · simp only [bind_ok_iff, pure_eq_ok, Except.ok.injEq] at h
    obtain ⟨ps, hps, rfl⟩ := h
    obtain ⟨para, idx, h1, h2, h3, h4, _, h5⟩ := dictParse_mem m _ wl ps hps p hp
    simp [Parse.outer, h5, Stack.single, Method.obj]
  iterate 2
    next hk =>
    simp only [Except.ok.injEq] at h
    subst h
    dsimp only [initialsParse] at hp
    split at hp
    · obtain ⟨t, ht, rfl⟩ := List.mem_map.1 hp
      simp [Parse.outer, Stack.single, Method.obj]
    · simp at hp
  iterate 4
    next hk =>
    simp only [bind_ok_iff, pure_eq_ok, Except.ok.injEq] at h
    obtain ⟨t, ht, rfl⟩ := h
    cases t with
    | none => simp [shapeParse] at hp
    | some t =>
      simp only [shapeParse, List.mem_singleton] at hp
      subst hp
      simp [Parse.outer, Stack.single, Method.obj]
  · split at h
    · simp at h; subst h; simp at hp
    · simp only [bind_ok_iff, pure_eq_ok, Except.ok.injEq] at h
      obtain ⟨ps, hps, rfl⟩ := h
      obtain ⟨q, hq, rfl⟩ := List.mem_map.1 (addParses_mem hp)
      simp [Parse.outer, particleDeco, Method.obj]
  · simp only [bind_ok_iff, pure_eq_ok, Except.ok.injEq] at h
    obtain ⟨b, hb, rfl⟩ := h
    cases b with
    | false => simp at hp
    | true => simp at hp; subst hp; simp [Parse.outer, Stack.single, Method.obj]
  · simp only [bind_ok_iff, pure_eq_ok, Except.ok.injEq] at h
    obtain ⟨ps, hps, rfl⟩ := h
    unfold hyphenParse at hps
    split at hps
    · simp only [bind_ok_iff, pure_eq_ok, Except.ok.injEq] at hps
      obtain ⟨lp, hlp, rp, hrp, rfl⟩ := hps
      rcases List.mem_append.1 hp with hp | hp
      · obtain ⟨l, hl1, r, hr1, _, _, rfl⟩ := parseBoth_mem _ _ _ _ _ hp
        simp [Parse.outer, Stack.single, Method.obj]
      · obtain ⟨r, hr1, _, rfl⟩ := parseFixed_mem _ _ _ _ _ hp
        simp [Parse.outer, Stack.single, Method.obj]
    · simp at hps; subst hps; simp at hp
  iterate 2
    next hk =>
    simp only [bind_ok_iff, pure_eq_ok, Except.ok.injEq] at h
    obtain ⟨ps, hps, rfl⟩ := h
    obtain ⟨pre, rest, qs, q, hs, hqs, hq, hprod, rfl⟩ := prefixCands_mem _ _ _ _ _ hps _ (addParses_mem hp)
    simp [Parse.outer, Method.obj]
  · unfold suffixParse at h
    split at h
    · simp at h; subst h; simp at hp
    · simp only [bind_ok_iff, pure_eq_ok, Except.ok.injEq] at h
      obtain ⟨r', hr', ps, hps, rfl⟩ := h
      have hp := (sortByScore_perm ps).mem_iff.1 hp
      obtain ⟨⟨c, tot⟩, hc, hb⟩ := mapE_mem hps hp
      simp only [sfxBuild, bind_ok_iff, pure_eq_ok, Except.ok.injEq] at hb
      obtain ⟨nf, hnf, rfl⟩ := hb
      simp [Parse.outer, Method.obj]
  · simp only [Except.ok.injEq] at h
    subst h
    dsimp only at hp
    split at hp
    · simp at hp; subst hp; simp [Parse.outer, Stack.single, Method.obj]
    · simp at hp

/-- Results of the prediction units are productive. -/
theorem unitParse_productive (m : Morph S) (rec : Rec S) (u : BUnit S) (word wl : Str) (seen : Seen)
    (r : List (Parse S) × Seen) (h : unitParse m rec u word wl seen = .ok r) (p : Parse S) (hp : p ∈ r.1)
    (hk : u.cfg.kind = .pref ∨ u.cfg.kind = .suff) : p.tag.isProductive = true := by
  unfold unitParse at h
  cases hc : u.cfg <;> simp only [hc, UnitCfg.kind, reduceCtorEq, or_self, or_true, true_or, or_false, false_or] at hk h
  case knownPrefix | unknownPrefix =>
    simp only [bind_ok_iff, pure_eq_ok, Except.ok.injEq] at h
    obtain ⟨ps, hps, rfl⟩ := h
    obtain ⟨pre, rest, qs, q, hs, hqs, hq, hprod, rfl⟩ := prefixCands_mem _ _ _ _ _ hps _ (addParses_mem hp)
    exact hprod
  case knownSuffix =>
    unfold suffixParse at h
    split at h
    · simp at h; subst h; simp at hp
    · simp only [bind_ok_iff, pure_eq_ok, Except.ok.injEq] at h
      obtain ⟨r', hr', ps, hps, rfl⟩ := h
      have hp := (sortByScore_perm ps).mem_iff.1 hp
      obtain ⟨⟨c, tot⟩, hc, hb⟩ := mapE_mem hps hp
      obtain ⟨ip, hip, t, ht, i, hi, cs, hcs, hcc⟩ := sfxPrefixLoop_mem _ _ _ _ _ _ hr' _ hc
      simp only [sfxBuild, bind_ok_iff, pure_eq_ok, Except.ok.injEq] at hb
      obtain ⟨nf, hnf, rfl⟩ := hb
      exact (sfxCands_mem _ _ _ _ _ _ hcs _ hcc).1

theorem addTags_sub (ts : List Tag) (seen : SeenTags) : (addTags ts seen).1.Sublist ts := by
  induction ts generalizing seen with
  | nil => simp [addTags]
  | cons p ps ih =>
    rw [addTags]
    split
    · exact (ih seen).trans (List.sublist_cons_self _ _)
    · exact (ih _).cons_cons _

theorem dedupTagCands_mem (cs : List SfxCand) (seen : SeenTags) (x : Nat × Tag) (h : x ∈ (dedupTagCands cs seen).1) :
    ∃ c ∈ cs, c.tag = x.2 ∧ c.cnt = x.1 := by
  induction cs generalizing seen with
  | nil => simp [dedupTagCands] at h
  | cons c cs ih =>
    rw [dedupTagCands] at h
    split at h
    · obtain ⟨c', h1, h2⟩ := ih _ h; exact ⟨c', by simp [h1], h2⟩
    · simp only [List.mem_cons] at h
      rcases h with rfl | h
      · exact ⟨c, by simp, rfl, rfl⟩
      · obtain ⟨c', h1, h2⟩ := ih _ h; exact ⟨c', by simp [h1], h2⟩

theorem sfxTagLoop_mem (cands : Nat → Except PyErr (List SfxCand)) (is : List Nat) (seen : SeenTags)
    (r : List (Nat × Tag) × SeenTags) (h : sfxTagLoop cands is seen = .ok r) (x : Nat × Tag) (hx : x ∈ r.1) :
    ∃ i ∈ is, ∃ cs, cands i = .ok cs ∧ ∃ c ∈ cs, c.tag = x.2 := by
  induction is generalizing seen r with
  | nil => simp [sfxTagLoop] at h; subst h; simp at hx
  | cons i is ih =>
    rw [sfxTagLoop, bind_ok_iff] at h
    obtain ⟨cs, hcs, h⟩ := h
    dsimp only at h
    split at h
    · simp at h; subst h
      obtain ⟨c, h1, h2, _⟩ := dedupTagCands_mem _ _ _ hx
      exact ⟨i, by simp, cs, hcs, c, h1, h2⟩
    · simp only [bind_ok_iff, pure_eq_ok, Except.ok.injEq] at h
      obtain ⟨r', hr', rfl⟩ := h
      rcases List.mem_append.1 hx with hx | hx
      · obtain ⟨c, h1, h2, _⟩ := dedupTagCands_mem _ _ _ hx
        exact ⟨i, by simp, cs, hcs, c, h1, h2⟩
      · obtain ⟨j, hj, h'⟩ := ih _ _ hr' hx
        exact ⟨j, by simp [hj], h'⟩

theorem sfxTagPrefixLoop_mem (d : Dict) (sub : Subst) (wl : Str) (ips : List (Nat × Str)) (seen : SeenTags)
    (r : List (Nat × Tag) × SeenTags) (h : sfxTagPrefixLoop d sub wl ips seen = .ok r) (x : Nat × Tag)
    (hx : x ∈ r.1) :
    ∃ ip ∈ ips, ∃ t, d.pred[ip.1]? = some t ∧ ∃ i ∈ predictionSplits d.maxSuffixLength, ∃ cs,
      sfxCands d sub t wl i = .ok cs ∧ ∃ c ∈ cs, c.tag = x.2 := by
  induction ips generalizing seen r with
  | nil => simp [sfxTagPrefixLoop] at h; subst h; simp at hx
  | cons ip ips ih =>
    simp only [sfxTagPrefixLoop, bind_ok_iff, pure_eq_ok, Except.ok.injEq, pyGet_ok_iff] at h
    obtain ⟨t, ht, r1, hr1, r2, hr2, rfl⟩ := h
    rcases List.mem_append.1 hx with hc | hc
    · obtain ⟨i, hi, h'⟩ := sfxTagLoop_mem _ _ _ _ hr1 x hc
      exact ⟨ip, by simp, t, ht, i, hi, h'⟩
    · obtain ⟨ip', h1, h2⟩ := ih _ _ hr2 hc
      exact ⟨ip', by simp [h1], h2⟩

theorem prefixTagCands_mem (f : Str → Except PyErr (List Tag)) (sp : List (Str × Str)) (ts : List Tag)
    (h : prefixTagCands f sp = .ok ts) (t : Tag) (ht : t ∈ ts) :
    ∃ s ∈ sp, ∃ qs, f s.2 = .ok qs ∧ t ∈ qs ∧ t.isProductive = true := by
  simp only [prefixTagCands, bind_ok_iff, pure_eq_ok, Except.ok.injEq] at h
  obtain ⟨ls, hls, rfl⟩ := h
  obtain ⟨l, hl, hpl⟩ := List.mem_flatten.1 ht
  obtain ⟨s, hs, hf⟩ := mapE_mem hls hl
  simp only [bind_ok_iff, Except.ok.injEq] at hf
  obtain ⟨qs, hqs, rfl⟩ := hf
  rw [List.mem_filter] at hpl
  exact ⟨s, hs, qs, hqs, hpl.1, hpl.2⟩

theorem unitTag_productive (m : Morph S) (rec : Rec S) (u : BUnit S) (word wl : Str) (seen : SeenTags)
    (r : List Tag × SeenTags) (h : unitTag m rec u word wl seen = .ok r) (t : Tag) (ht : t ∈ r.1)
    (hk : u.cfg.kind = .pref ∨ u.cfg.kind = .suff) : t.isProductive = true := by
  unfold unitTag at h
  cases hc : u.cfg <;> simp only [hc, UnitCfg.kind, reduceCtorEq, or_self, or_true, true_or, or_false, false_or] at hk h
  case knownPrefix | unknownPrefix =>
    simp only [bind_ok_iff, pure_eq_ok, Except.ok.injEq] at h
    obtain ⟨ps, hps, rfl⟩ := h
    obtain ⟨s, hs, qs, hqs, hq, hprod⟩ := prefixTagCands_mem _ _ _ hps _ ((addTags_sub _ _).subset ht)
    exact hprod
  case knownSuffix =>
    unfold suffixTag at h
    split at h
    · simp at h; subst h; simp at ht
    · simp only [bind_ok_iff, pure_eq_ok, Except.ok.injEq] at h
      obtain ⟨r', hr', rfl⟩ := h
      simp only [List.mem_map, List.mem_insertionSort] at ht
      obtain ⟨x, hx, rfl⟩ := ht
      obtain ⟨ip, hip, t, ht, i, hi, cs, hcs, c, hcc, e⟩ := sfxTagPrefixLoop_mem _ _ _ _ _ _ hr' _ hx
      rw [← e]
      exact (sfxCands_mem _ _ _ _ _ _ hcs _ hcc).1

theorem groupTag_mem (m : Morph S) (rec : Rec S) (word wl : Str) (g : List (BUnit S)) (seen : SeenTags)
    (out : List Tag) (h : groupTag m rec word wl g seen = .ok out) (p : Tag) (hp : p ∈ out) :
    ∃ u ∈ g, ∃ seen' r, unitTag m rec u word wl seen' = .ok r ∧ p ∈ r.1 := by
  induction g generalizing seen out with
  | nil => simp [groupTag] at h; subst h; simp at hp
  | cons u g ih =>
    simp only [groupTag, bind_ok_iff, pure_eq_ok, Except.ok.injEq] at h
    obtain ⟨r, hr, rest, hrest, rfl⟩ := h
    rcases List.mem_append.1 hp with hp | hp
    · exact ⟨u, by simp, seen, r, hr, hp⟩
    · obtain ⟨u', hu', h'⟩ := ih _ _ hrest hp
      exact ⟨u', by simp [hu'], h'⟩

end Verif
