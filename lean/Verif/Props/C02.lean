/-
C02: tag() agrees with parse().
-/
import Verif.Props.C11
import Verif.Props.C04

set_option linter.unusedSectionVars false

namespace Verif

variable {S : Type} [Score S]

/-! ### Helpers: tag sets.  Tags are compared as the library does: by the tuple of grammemes. -/

/-- `τ` is among the tags of the parses. -/
def InP (τ : List Str) (ps : List (Parse S)) : Prop := ∃ p ∈ ps, p.tag.tuple = τ
/-- `τ` is among the tags. -/
def InT (τ : List Str) (ts : List Tag) : Prop := ∃ t ∈ ts, t.tuple = τ

/-- The same tags. -/
def SameTags (ps : List (Parse S)) (ts : List Tag) : Prop := ∀ τ, InP τ ps ↔ InT τ ts

theorem Tag.productive_congr {t t' : Tag} (h : t.tuple = t'.tuple) : t.isProductive = t'.isProductive := by
  unfold Tag.isProductive Tag.grammemes
  rw [h]

theorem sameTags_append {a b : List (Parse S)} {c d : List Tag} (h1 : SameTags a c) (h2 : SameTags b d) :
    SameTags (a ++ b) (c ++ d) := by
  intro τ
  have e1 := h1 τ
  have e2 := h2 τ
  unfold InP InT at *
  constructor
  · rintro ⟨p, hp, hτ⟩
    rcases List.mem_append.1 hp with hp | hp
    · obtain ⟨t, ht, h⟩ := e1.1 ⟨p, hp, hτ⟩; exact ⟨t, by simp [ht], h⟩
    · obtain ⟨t, ht, h⟩ := e2.1 ⟨p, hp, hτ⟩; exact ⟨t, by simp [ht], h⟩
  · rintro ⟨p, hp, hτ⟩
    rcases List.mem_append.1 hp with hp | hp
    · obtain ⟨t, ht, h⟩ := e1.2 ⟨p, hp, hτ⟩; exact ⟨t, by simp [ht], h⟩
    · obtain ⟨t, ht, h⟩ := e2.2 ⟨p, hp, hτ⟩; exact ⟨t, by simp [ht], h⟩

theorem sameTags_map (ps : List (Parse S)) : SameTags ps (ps.map Parse.tag) := by
  intro τ
  constructor
  · rintro ⟨p, hp, h⟩; exact ⟨p.tag, List.mem_map.2 ⟨p, hp, rfl⟩, h⟩
  · rintro ⟨t, ht, h⟩; obtain ⟨p, hp, rfl⟩ := List.mem_map.1 ht; exact ⟨p, hp, h⟩

theorem sameTags_nil {ps : List (Parse S)} {ts : List Tag} (h : SameTags ps ts) : ps = [] ↔ ts = [] := by
  constructor
  · rintro rfl
    rw [List.eq_nil_iff_forall_not_mem]
    intro t ht
    obtain ⟨p, hp, _⟩ := (h t.tuple).2 ⟨t, ht, rfl⟩
    simp at hp
  · rintro rfl
    rw [List.eq_nil_iff_forall_not_mem]
    intro p hp
    obtain ⟨t, ht, _⟩ := (h p.tag.tuple).1 ⟨p, hp, rfl⟩
    simp at ht

/-- Tags that occur in `A`, or among the parses / tags. -/
def SameUpTo (A : List Str → Prop) (ps : List (Parse S)) (ts : List Tag) : Prop :=
  ∀ τ, (A τ ∨ InP τ ps) ↔ (A τ ∨ InT τ ts)

/-- Everything remembered in `seen_parses` / `seen_tags` is already among the answers. -/
def SeenIn (A : List Str → Prop) (seen : Seen) : Prop := ∀ w τ k, SeenKey.reduced w τ k ∈ seen → A τ
def SeenTIn (A : List Str → Prop) (seen : SeenTags) : Prop := ∀ τ ∈ seen, A τ

theorem addParses_tags (A : List Str → Prop) (ps : List (Parse S)) (seen : Seen) (h : SeenIn A seen) :
    (∀ τ, (A τ ∨ InP τ (addParses ps seen).1) ↔ (A τ ∨ InP τ ps)) ∧
    SeenIn (fun τ => A τ ∨ InP τ (addParses ps seen).1) (addParses ps seen).2 := by
  induction ps generalizing seen A with
  | nil => exact ⟨fun τ => Iff.rfl, fun w τ k hk => .inl (h w τ k hk)⟩
  | cons p ps ih =>
    rw [addParses]
    split
    · next hm =>
      obtain ⟨h1, h2⟩ := ih A seen h
      refine ⟨fun τ => (h1 τ).trans ?_, h2⟩
      constructor
      · rintro (h3 | ⟨q, hq, h3⟩)
        · exact .inl h3
        · exact .inr ⟨q, by simp [hq], h3⟩
      · rintro (h3 | ⟨q, hq, h3⟩)
        · exact .inl h3
        · rcases List.mem_cons.1 hq with rfl | hq
          · exact .inl (h3 ▸ h _ _ _ hm)
          · exact .inr ⟨q, hq, h3⟩
    · dsimp only
      obtain ⟨h1, h2⟩ := ih (fun τ => A τ ∨ p.tag.tuple = τ) (p.key :: seen) (by
        intro w τ k hk
        rcases List.mem_cons.1 hk with hk | hk
        · simp only [Parse.key, SeenKey.reduced.injEq] at hk
          exact .inr hk.2.1.symm
        · exact .inl (h w τ k hk))
      have aux : ∀ τ (l : List (Parse S)), InP τ (p :: l) ↔ p.tag.tuple = τ ∨ InP τ l := by
        intro τ l; simp [InP]
      refine ⟨fun τ => ?_, fun w τ k hk => ?_⟩
      · rw [aux, aux, ← or_assoc, ← or_assoc]; exact h1 τ
      · have := h2 w τ k hk
        beta_reduce; rw [aux, ← or_assoc]; exact this

theorem addTags_tags (A : List Str → Prop) (ts : List Tag) (seen : SeenTags) (h : SeenTIn A seen) :
    (∀ τ, (A τ ∨ InT τ (addTags ts seen).1) ↔ (A τ ∨ InT τ ts)) ∧
    SeenTIn (fun τ => A τ ∨ InT τ (addTags ts seen).1) (addTags ts seen).2 := by
  induction ts generalizing seen A with
  | nil => exact ⟨fun τ => Iff.rfl, fun τ hk => .inl (h τ hk)⟩
  | cons p ps ih =>
    rw [addTags]
    split
    · next hm =>
      obtain ⟨h1, h2⟩ := ih A seen h
      refine ⟨fun τ => (h1 τ).trans ?_, h2⟩
      constructor
      · rintro (h3 | ⟨q, hq, h3⟩)
        · exact .inl h3
        · exact .inr ⟨q, by simp [hq], h3⟩
      · rintro (h3 | ⟨q, hq, h3⟩)
        · exact .inl h3
        · rcases List.mem_cons.1 hq with rfl | hq
          · exact .inl (h3 ▸ h _ hm)
          · exact .inr ⟨q, hq, h3⟩
    · dsimp only
      obtain ⟨h1, h2⟩ := ih (fun τ => A τ ∨ p.tuple = τ) (p.tuple :: seen) (by
        intro τ hk
        rcases List.mem_cons.1 hk with hk | hk
        · exact .inr hk.symm
        · exact .inl (h τ hk))
      have aux : ∀ τ (l : List Tag), InT τ (p :: l) ↔ p.tuple = τ ∨ InT τ l := by
        intro τ l; simp [InT]
      refine ⟨fun τ => ?_, fun τ hk => ?_⟩
      · rw [aux, aux, ← or_assoc, ← or_assoc]; exact h1 τ
      · have := h2 τ hk
        beta_reduce; rw [aux, ← or_assoc]; exact this

/-! ### Suffix prediction -/

def InC (τ : List Str) (cs : List SfxCand) : Prop := ∃ c ∈ cs, c.tag.tuple = τ
def InN (τ : List Str) (cs : List (Nat × Tag)) : Prop := ∃ c ∈ cs, c.2.tuple = τ

theorem dedupCands_tags (A : List Str → Prop) (cs : List SfxCand) (seen : Seen) (h : SeenIn A seen) :
    (∀ τ, (A τ ∨ InC τ (dedupCands cs seen).1) ↔ (A τ ∨ InC τ cs)) ∧
    SeenIn (fun τ => A τ ∨ InC τ (dedupCands cs seen).1) (dedupCands cs seen).2 := by
  induction cs generalizing seen A with
  | nil => exact ⟨fun τ => Iff.rfl, fun w τ k hk => .inl (h w τ k hk)⟩
  | cons p ps ih =>
    rw [dedupCands]
    split
    · next hm =>
      obtain ⟨h1, h2⟩ := ih A seen h
      refine ⟨fun τ => (h1 τ).trans ?_, h2⟩
      constructor
      · rintro (h3 | ⟨q, hq, h3⟩)
        · exact .inl h3
        · exact .inr ⟨q, by simp [hq], h3⟩
      · rintro (h3 | ⟨q, hq, h3⟩)
        · exact .inl h3
        · rcases List.mem_cons.1 hq with rfl | hq
          · exact .inl (h3 ▸ h _ _ _ hm)
          · exact .inr ⟨q, hq, h3⟩
    · dsimp only
      obtain ⟨h1, h2⟩ := ih (fun τ => A τ ∨ p.tag.tuple = τ) (p.key :: seen) (by
        intro w τ k hk
        rcases List.mem_cons.1 hk with hk | hk
        · simp only [SfxCand.key, SeenKey.reduced.injEq] at hk
          exact .inr hk.2.1.symm
        · exact .inl (h w τ k hk))
      have aux : ∀ τ (l : List SfxCand), InC τ (p :: l) ↔ p.tag.tuple = τ ∨ InC τ l := by
        intro τ l; simp [InC]
      refine ⟨fun τ => ?_, fun w τ k hk => ?_⟩
      · rw [aux, aux, ← or_assoc, ← or_assoc]; exact h1 τ
      · have := h2 w τ k hk
        beta_reduce; rw [aux, ← or_assoc]; exact this

theorem dedupTagCands_tags (A : List Str → Prop) (cs : List SfxCand) (seen : SeenTags) (h : SeenTIn A seen) :
    (∀ τ, (A τ ∨ InN τ (dedupTagCands cs seen).1) ↔ (A τ ∨ InC τ cs)) ∧
    SeenTIn (fun τ => A τ ∨ InN τ (dedupTagCands cs seen).1) (dedupTagCands cs seen).2 := by
  induction cs generalizing seen A with
  | nil =>
    refine ⟨fun τ => ?_, fun τ hk => .inl (h τ hk)⟩
    simp [InN, InC, dedupTagCands]
  | cons p ps ih =>
    rw [dedupTagCands]
    split
    · next hm =>
      obtain ⟨h1, h2⟩ := ih A seen h
      refine ⟨fun τ => (h1 τ).trans ?_, h2⟩
      constructor
      · rintro (h3 | ⟨q, hq, h3⟩)
        · exact .inl h3
        · exact .inr ⟨q, by simp [hq], h3⟩
      · rintro (h3 | ⟨q, hq, h3⟩)
        · exact .inl h3
        · rcases List.mem_cons.1 hq with rfl | hq
          · exact .inl (h3 ▸ h _ hm)
          · exact .inr ⟨q, hq, h3⟩
    · dsimp only
      obtain ⟨h1, h2⟩ := ih (fun τ => A τ ∨ p.tag.tuple = τ) (p.tag.tuple :: seen) (by
        intro τ hk
        rcases List.mem_cons.1 hk with hk | hk
        · exact .inr hk.symm
        · exact .inl (h τ hk))
      have aux : ∀ τ (l : List (Nat × Tag)), InN τ ((p.cnt, p.tag) :: l) ↔ p.tag.tuple = τ ∨ InN τ l := by
        intro τ l; simp [InN]
      have aux' : ∀ τ (l : List SfxCand), InC τ (p :: l) ↔ p.tag.tuple = τ ∨ InC τ l := by
        intro τ l; simp [InC]
      refine ⟨fun τ => ?_, fun τ hk => ?_⟩
      · rw [aux, aux', ← or_assoc, ← or_assoc]; exact h1 τ
      · have := h2 τ hk
        beta_reduce; rw [aux, ← or_assoc]; exact this

theorem cntSum_pos_iff (cs : List SfxCand) (h : ∀ c ∈ cs, 1 ≤ c.cnt) : 0 < cntSum cs ↔ cs ≠ [] := by
  cases cs with
  | nil => simp [cntSum]
  | cons c cs =>
    have := h c (by simp)
    simp [cntSum]; omega

/-- The loops over ending lengths of `parse` and `tag` find the same tags. -/
theorem sfxLoop_tags (A : List Str → Prop) (cands : Nat → Except PyErr (List SfxCand)) (is : List Nat)
    (hpos : ∀ i cs, cands i = .ok cs → ∀ c ∈ cs, 1 ≤ c.cnt) (seen : Seen) (seenT : SeenTags)
    (h : SeenIn A seen) (hT : SeenTIn A seenT) (r : List SfxCand × Nat × Seen) (rt : List (Nat × Tag) × SeenTags)
    (hr : sfxLoop cands is 1 seen = .ok r) (hrt : sfxTagLoop cands is seenT = .ok rt) :
    (∀ τ, (A τ ∨ InC τ r.1) ↔ (A τ ∨ InN τ rt.1)) ∧
    SeenIn (fun τ => A τ ∨ InC τ r.1) r.2.2 ∧ SeenTIn (fun τ => A τ ∨ InN τ rt.1) rt.2 := by
  induction is generalizing seen seenT r rt with
  | nil =>
    simp [sfxLoop] at hr; simp [sfxTagLoop] at hrt; subst hr hrt
    exact ⟨by simp [InC, InN], fun w τ k hk => .inl (h w τ k hk), fun τ hk => .inl (hT τ hk)⟩
  | cons i is ih =>
    rw [sfxLoop, bind_ok_iff] at hr
    obtain ⟨cs, hcs, hr⟩ := hr
    rw [sfxTagLoop, hcs, ok_bind] at hrt
    obtain ⟨d1, d2⟩ := dedupCands_tags A cs seen h
    obtain ⟨t1, t2⟩ := dedupTagCands_tags A cs seenT hT
    have hiff : 1 + cntSum cs > 1 ↔ cs ≠ [] := by
      rw [← cntSum_pos_iff cs (hpos i cs hcs)]; omega
    dsimp only at hr hrt
    by_cases hne : cs = []
    · rw [if_neg (by rw [hiff]; simp [hne])] at hr
      rw [if_neg (by simp [hne])] at hrt
      subst hne
      have hr' : 1 + cntSum [] = 1 := rfl
      simp only [hr', dedupCands, dedupTagCands, bind_ok_iff, pure_eq_ok, Except.ok.injEq, List.nil_append] at hr hrt
      obtain ⟨r', hr', rfl⟩ := hr
      obtain ⟨rt', hrt', rfl⟩ := hrt
      exact ih seen seenT h hT r' rt' hr' hrt'
    · rw [if_pos (by rw [hiff]; exact hne)] at hr
      rw [if_pos hne] at hrt
      simp at hr hrt; subst hr hrt
      exact ⟨fun τ => (d1 τ).trans (t1 τ).symm, d2, t2⟩

theorem seenIn_congr {A B : List Str → Prop} (h : ∀ τ, A τ → B τ) {seen : Seen} (hs : SeenIn A seen) : SeenIn B seen :=
  fun w τ k hk => h τ (hs w τ k hk)
theorem seenTIn_congr {A B : List Str → Prop} (h : ∀ τ, A τ → B τ) {seen : SeenTags} (hs : SeenTIn A seen) :
    SeenTIn B seen := fun τ hk => h τ (hs τ hk)

/-- The loops over paradigm prefixes of `parse` and `tag` find the same tags. -/
theorem sfxPrefixLoop_tags (A : List Str → Prop) (d : Dict) (hd : d.WF) (sub : Subst) (wl : Str) (ips : List (Nat × Str))
    (seen : Seen) (seenT : SeenTags) (h : SeenIn A seen) (hT : SeenTIn A seenT)
    (r : List (SfxCand × Nat) × Seen) (rt : List (Nat × Tag) × SeenTags)
    (hr : sfxPrefixLoop d sub wl ips seen = .ok r) (hrt : sfxTagPrefixLoop d sub wl ips seenT = .ok rt) :
    (∀ τ, (A τ ∨ InC τ (r.1.map Prod.fst)) ↔ (A τ ∨ InN τ rt.1)) ∧
    SeenIn (fun τ => A τ ∨ InC τ (r.1.map Prod.fst)) r.2 ∧ SeenTIn (fun τ => A τ ∨ InN τ rt.1) rt.2 := by
  induction ips generalizing seen seenT r rt A with
  | nil =>
    simp [sfxPrefixLoop] at hr; simp [sfxTagPrefixLoop] at hrt; subst hr hrt
    exact ⟨by simp [InC, InN], fun w τ k hk => .inl (h w τ k hk), fun τ hk => .inl (hT τ hk)⟩
  | cons ip ips ih =>
    simp only [sfxPrefixLoop, bind_ok_iff, pure_eq_ok, Except.ok.injEq] at hr
    simp only [sfxTagPrefixLoop, bind_ok_iff, pure_eq_ok, Except.ok.injEq] at hrt
    obtain ⟨t, ht, r1, hr1, r2, hr2, rfl⟩ := hr
    obtain ⟨t', ht', rt1, hrt1, rt2, hrt2, rfl⟩ := hrt
    rw [ht] at ht'; simp at ht'; subst ht'
    rw [pyGet_ok_iff] at ht
    obtain ⟨e1, e2, e3⟩ := sfxLoop_tags A (sfxCands d sub t wl) _ (by
      intro i cs hcs c hc
      obtain ⟨_, _, _, _, he⟩ := sfxCands_mem _ _ _ _ _ _ hcs _ hc
      exact (hd.pred _ _ ht _ he).1) seen seenT h hT r1 rt1 hr1 hrt1
    obtain ⟨f1, f2, f3⟩ := ih (fun τ => A τ ∨ InC τ r1.1) r1.2.2 rt1.2 e2 (seenTIn_congr (fun τ => (e1 τ).2) e3) r2 rt2 hr2 hrt2
    have auxC : ∀ τ, InC τ ((r1.1.map (fun c => (c, r1.2.1)) ++ r2.1).map Prod.fst) ↔
        InC τ r1.1 ∨ InC τ (r2.1.map Prod.fst) := by
      intro τ
      simp only [InC, List.map_append, List.map_map, List.mem_append]
      constructor
      · rintro ⟨c, hc | hc, hτ⟩
        · obtain ⟨c', hc', rfl⟩ := List.mem_map.1 hc; exact .inl ⟨c', hc', hτ⟩
        · exact .inr ⟨c, hc, hτ⟩
      · rintro (⟨c, hc, hτ⟩ | ⟨c, hc, hτ⟩)
        · exact ⟨c, .inl (List.mem_map.2 ⟨c, hc, rfl⟩), hτ⟩
        · exact ⟨c, .inr hc, hτ⟩
    have auxN : ∀ τ, InN τ (rt1.1 ++ rt2.1) ↔ InN τ rt1.1 ∨ InN τ rt2.1 := by
      intro τ
      simp only [InN, List.mem_append]
      constructor
      · rintro ⟨c, hc | hc, hτ⟩
        · exact .inl ⟨c, hc, hτ⟩
        · exact .inr ⟨c, hc, hτ⟩
      · rintro (⟨c, hc, hτ⟩ | ⟨c, hc, hτ⟩)
        · exact ⟨c, .inl hc, hτ⟩
        · exact ⟨c, .inr hc, hτ⟩
    have hiff : ∀ τ, (A τ ∨ InC τ ((r1.1.map (fun c => (c, r1.2.1)) ++ r2.1).map Prod.fst)) ↔
        (A τ ∨ InN τ (rt1.1 ++ rt2.1)) := by
      intro τ
      rw [auxC, auxN, ← or_assoc, ← or_assoc, f1 τ, e1 τ]
    refine ⟨hiff, ?_, ?_⟩
    · refine seenIn_congr (fun τ hτ => ?_) f2
      rw [auxC, ← or_assoc]; exact hτ
    · refine seenTIn_congr (fun τ hτ => ?_) f3
      rw [auxN, ← or_assoc]
      rcases hτ with hτ | hτ
      · exact .inl ((e1 τ).1 hτ)
      · exact .inr hτ

/-! ### Units -/

/-- Nested calls agree on strictly shorter pieces. -/
def Rec.TagsBelow (wl : Str) (r : Rec S) : Prop :=
  ∀ x : Str, x <:+: wl → x.length < wl.length → ∀ ps ts, r.parse x = .ok ps → r.tag x = .ok ts → SameTags ps ts

theorem dictTag_eq (m : Morph S) (u : UObj) (wl : Str) (ps : List (Parse S)) (ts : List Tag)
    (h : dictParse m u wl = .ok ps) (ht : dictTag m wl = .ok ts) : ts = ps.map Parse.tag := by
  unfold dictParse at h
  unfold dictTag at ht
  have e : (m.dict.words.similarItemValues m.sub wl).flatten = (lookup m.dict.words m.sub wl).map Prod.snd := by
    unfold Dawg.similarItemValues lookup Dawg.similarItems
    rw [List.flatMap_map, List.map_flatMap, ← List.flatMap_def]
    simp [List.map_map, Function.comp_def]
  rw [e] at ht
  generalize lookup m.dict.words m.sub wl = l at h ht
  induction l generalizing ps ts with
  | nil => simp [mapE] at h ht; subst h ht; rfl
  | cons a l ih =>
    simp only [List.map_cons, mapE, bind_ok_iff, pure_eq_ok, Except.ok.injEq] at h ht
    obtain ⟨p, hp, ps', hps', rfl⟩ := h
    obtain ⟨t, ht1, ts', hts', rfl⟩ := ht
    simp only [dictParse1, bind_ok_iff, pure_eq_ok, Except.ok.injEq] at hp
    obtain ⟨nf, _, t', ht', rfl⟩ := hp
    rw [ht1] at ht'; simp at ht'; subst ht'
    rw [List.map_cons, ← ih _ _ hps' hts']

theorem prefix_sameTags (u : UObj) (mult : S) (f : Str → Except PyErr (List (Parse S))) (g : Str → Except PyErr (List Tag))
    (sp : List (Str × Str)) (hfg : ∀ s ∈ sp, ∀ ps ts, f s.2 = .ok ps → g s.2 = .ok ts → SameTags ps ts)
    (ps : List (Parse S)) (ts : List Tag) (h : prefixCands u mult f sp = .ok ps) (ht : prefixTagCands g sp = .ok ts) :
    SameTags ps ts := by
  simp only [prefixCands, prefixTagCands, bind_ok_iff, pure_eq_ok, Except.ok.injEq] at h ht
  obtain ⟨ls, hls, rfl⟩ := h
  obtain ⟨lt, hlt, rfl⟩ := ht
  induction sp generalizing ls lt with
  | nil => simp [mapE] at hls hlt; subst hls hlt; intro τ; simp [InP, InT]
  | cons s sp ih =>
    simp only [mapE, bind_ok_iff, pure_eq_ok, Except.ok.injEq] at hls hlt
    obtain ⟨l, ⟨r, hr, rfl⟩, ls', hls', rfl⟩ := hls
    obtain ⟨l', ⟨r', hr', rfl⟩, lt', hlt', rfl⟩ := hlt
    rw [List.flatten_cons, List.flatten_cons]
    refine sameTags_append ?_ (ih (fun s hs => hfg s (by simp [hs])) ls' (by simpa using hls') lt' (by simpa using hlt'))
    have := hfg s (by simp) r r' hr hr'
    intro τ
    constructor
    · rintro ⟨p, hp, hτ⟩
      simp only [prefixDeco, List.mem_map, List.mem_filter] at hp
      obtain ⟨q, ⟨hq, hpr⟩, rfl⟩ := hp
      obtain ⟨t, ht, he⟩ := (this τ).1 ⟨q, hq, hτ⟩
      exact ⟨t, List.mem_filter.2 ⟨ht, by rw [Tag.productive_congr (he.trans hτ.symm)]; exact hpr⟩, he⟩
    · rintro ⟨t, ht, hτ⟩
      obtain ⟨ht, hpr⟩ := List.mem_filter.1 ht
      obtain ⟨q, hq, he⟩ := (this τ).2 ⟨t, ht, hτ⟩
      refine ⟨_, List.mem_map.2 ⟨q, List.mem_filter.2 ⟨hq, ?_⟩, rfl⟩, he⟩
      rw [Tag.productive_congr (he.trans hτ.symm)]; exact hpr

theorem sameUpTo_of_same (A : List Str → Prop) {ps : List (Parse S)} {ts : List Tag} (h : SameTags ps ts) :
    SameUpTo A ps ts := fun τ => or_congr Iff.rfl (h τ)

theorem unit_sameTags (A : List Str → Prop) (m : Morph S) (hd : m.dict.WF) (rec : Rec S) (u : BUnit S)
    (hu : u.cfg.properPrefixes) (hk : u.cfg.kind ≠ .unkn) (word wl : Str) (hrec : rec.TagsBelow wl)
    (seen : Seen) (seenT : SeenTags) (h : SeenIn A seen) (hT : SeenTIn A seenT)
    (r : List (Parse S) × Seen) (rt : List Tag × SeenTags)
    (hr : unitParse m rec u word wl seen = .ok r) (hrt : unitTag m rec u word wl seenT = .ok rt) :
    SameUpTo A r.1 rt.1 ∧ SeenIn (fun τ => A τ ∨ InP τ r.1) r.2 ∧ SeenTIn (fun τ => A τ ∨ InT τ rt.1) rt.2 := by
  have inl : ∀ (B : List Str → Prop), SeenIn (fun τ => A τ ∨ B τ) seen := fun B w τ k hk => .inl (h w τ k hk)
  have inlT : ∀ (B : List Str → Prop), SeenTIn (fun τ => A τ ∨ B τ) seenT := fun B τ hk => .inl (hT τ hk)
  unfold unitParse at hr
  unfold unitTag at hrt
  split at hr
  case h_1 hcfg =>
    simp only [hcfg, bind_ok_iff, pure_eq_ok, Except.ok.injEq] at hr hrt
    obtain ⟨ps, hps, rfl⟩ := hr
    obtain ⟨ts, hts, rfl⟩ := hrt
    rw [dictTag_eq m _ wl ps ts hps hts]
    refine ⟨sameUpTo_of_same A (sameTags_map ps), inl _, ?_⟩
    exact inlT _
  case h_2 hcfg | h_3 hcfg =>
    simp only [hcfg, Except.ok.injEq] at hr hrt
    subst hr hrt
    refine ⟨sameUpTo_of_same A ?_, inl _, inlT _⟩
    unfold initialsParse initialsTag
    split
    · intro τ
      constructor
      · rintro ⟨p, hp, hτ⟩; obtain ⟨t, ht, rfl⟩ := List.mem_map.1 hp; exact ⟨t, ht, hτ⟩
      · rintro ⟨t, ht, hτ⟩; exact ⟨_, List.mem_map.2 ⟨t, ht, rfl⟩, hτ⟩
    · intro τ; simp [InP, InT]
  case h_4 hcfg | h_5 hcfg | h_6 hcfg | h_7 hcfg =>
    simp only [hcfg, bind_ok_iff, pure_eq_ok, Except.ok.injEq] at hr hrt
    obtain ⟨t, ht, rfl⟩ := hr
    obtain ⟨t', ht', rfl⟩ := hrt
    rw [ht] at ht'; simp at ht'; subst ht'
    refine ⟨sameUpTo_of_same A ?_, inl _, inlT _⟩
    intro τ
    cases t <;> simp [shapeParse, InP, InT]
  case h_8 hcfg =>
    simp only [hcfg] at hr hrt
    split at hr
    · next hs =>
      rw [hs] at hrt
      simp at hr hrt; subst hr hrt
      exact ⟨fun τ => by simp [InP, InT], inl _, inlT _⟩
    · next rest part hs =>
      rw [hs] at hrt
      simp only [bind_ok_iff, pure_eq_ok, Except.ok.injEq] at hr hrt
      obtain ⟨ps, hps, rfl⟩ := hr
      obtain ⟨ts, hts, rfl⟩ := hrt
      obtain ⟨h1, h2⟩ := particle_piece _ _ _ _ hs
      have hst := hrec _ h1 h2 ps ts hps hts
      obtain ⟨a1, a2⟩ := addParses_tags A (ps.map (particleDeco u.obj part _)) seen h
      refine ⟨fun τ => (a1 τ).trans (or_congr Iff.rfl ?_), a2, inlT _⟩
      rw [← hst τ]
      constructor
      · rintro ⟨p, hp, hτ⟩; obtain ⟨q, hq, rfl⟩ := List.mem_map.1 hp; exact ⟨q, hq, hτ⟩
      · rintro ⟨q, hq, hτ⟩; exact ⟨_, List.mem_map.2 ⟨q, hq, rfl⟩, hτ⟩
  case h_9 tag mult hcfg =>
    simp only [hcfg, bind_ok_iff, pure_eq_ok, Except.ok.injEq] at hr hrt
    obtain ⟨b, hb, rfl⟩ := hr
    obtain ⟨b', hb', rfl⟩ := hrt
    rw [hb] at hb'; simp at hb'; subst hb'
    cases b with
    | false => exact ⟨fun τ => by simp [InP, InT], by simpa using inl _, by simpa using inlT _⟩
    | true =>
      simp only [if_true, Bool.true_eq_false, false_or]
      refine ⟨?_, ?_, ?_⟩
      · intro τ
        split
        · next hm =>
          simp only [InP, InT, List.mem_singleton, exists_eq_left, List.not_mem_nil, false_and, exists_false, or_false]
          constructor
          · rintro (h1 | rfl)
            · exact h1
            · exact hT _ hm
          · exact .inl
        · simp [InP, InT]
      · intro w τ k hk
        rcases List.mem_cons.1 hk with hk | hk
        · simp at hk
        · exact .inl (h w τ k hk)
      · split
        · exact inlT _
        · intro τ hτ
          rcases List.mem_cons.1 hτ with rfl | hτ
          · exact .inr ⟨tag, by simp, rfl⟩
          · exact .inl (hT τ hτ)
  case h_10 hcfg =>
    simp only [hcfg, bind_ok_iff, pure_eq_ok, Except.ok.injEq] at hr hrt
    obtain ⟨ps, hps, rfl⟩ := hr
    obtain ⟨ps', hps', rfl⟩ := hrt
    rw [hps] at hps'; simp at hps'; subst hps'
    obtain ⟨a1, a2⟩ := addTags_tags A (ps.map Parse.tag) seenT hT
    exact ⟨fun τ => (or_congr Iff.rfl (sameTags_map ps τ)).trans (a1 τ).symm, inl _, a2⟩
  case h_11 pfs mult k hcfg =>
    simp only [hcfg, bind_ok_iff, pure_eq_ok, Except.ok.injEq] at hr hrt
    rw [hcfg] at hu
    obtain ⟨ps, hps, rfl⟩ := hr
    obtain ⟨ts, hts, rfl⟩ := hrt
    have hst := prefix_sameTags _ _ _ _ _ (by
      rintro ⟨pre, rest⟩ hs ps ts h1 h2
      obtain ⟨i1, i2⟩ := prefix_piece pfs hu k wl pre rest hs
      exact hrec _ i1 i2 ps ts h1 h2) ps ts hps hts
    obtain ⟨a1, a2⟩ := addParses_tags A ps seen h
    obtain ⟨b1, b2⟩ := addTags_tags A ts seenT hT
    exact ⟨fun τ => (a1 τ).trans ((or_congr Iff.rfl (hst τ)).trans (b1 τ).symm), a2, b2⟩
  case h_12 mult hcfg =>
    simp only [hcfg, bind_ok_iff, pure_eq_ok, Except.ok.injEq] at hr hrt
    obtain ⟨ps, hps, rfl⟩ := hr
    obtain ⟨ts, hts, rfl⟩ := hrt
    have hst := prefix_sameTags _ _ _ _ _ (by
      intro s _ ps ts h1 h2
      rw [dictTag_eq m _ _ ps ts h1 h2]; exact sameTags_map ps) ps ts hps hts
    obtain ⟨a1, a2⟩ := addParses_tags A ps seen h
    obtain ⟨b1, b2⟩ := addTags_tags A ts seenT hT
    exact ⟨fun τ => (a1 τ).trans ((or_congr Iff.rfl (hst τ)).trans (b1 τ).symm), a2, b2⟩
  case h_13 mult k hcfg =>
    simp only [hcfg] at hr hrt
    unfold suffixParse at hr
    unfold suffixTag at hrt
    split at hr
    · next hlt =>
      rw [if_pos hlt] at hrt
      simp at hr hrt; subst hr hrt
      exact ⟨fun τ => by simp [InP, InT], inl _, inlT _⟩
    · next hlt =>
      rw [if_neg hlt] at hrt
      simp only [bind_ok_iff, pure_eq_ok, Except.ok.injEq] at hr hrt
      obtain ⟨r1, hr1, ps, hps, rfl⟩ := hr
      obtain ⟨rt1, hrt1, rfl⟩ := hrt
      obtain ⟨e1, e2, e3⟩ := sfxPrefixLoop_tags A m.dict hd m.sub wl _ seen seenT h hT r1 rt1 hr1 hrt1
      have hP : ∀ τ, InP τ (sortByScore ps) ↔ InC τ (r1.1.map Prod.fst) := by
        intro τ
        constructor
        · rintro ⟨p, hp, hτ⟩
          obtain ⟨c, hc, hb⟩ := mapE_mem hps ((sortByScore_perm ps).mem_iff.1 hp)
          simp only [sfxBuild, bind_ok_iff, pure_eq_ok, Except.ok.injEq] at hb
          obtain ⟨nf, _, rfl⟩ := hb
          exact ⟨c.1, List.mem_map.2 ⟨c, hc, rfl⟩, hτ⟩
        · rintro ⟨c, hc, hτ⟩
          obtain ⟨c', hc', rfl⟩ := List.mem_map.1 hc
          obtain ⟨p, hp, hb⟩ := mapE_mem' hps hc'
          simp only [sfxBuild, bind_ok_iff, pure_eq_ok, Except.ok.injEq] at hb
          obtain ⟨nf, _, rfl⟩ := hb
          exact ⟨_, (sortByScore_perm ps).mem_iff.2 hp, hτ⟩
      have hN : ∀ τ, InT τ ((rt1.1.insertionSort (fun a b => cntTagLt a b = false)).map Prod.snd) ↔ InN τ rt1.1 := by
        intro τ
        constructor
        · rintro ⟨t, ht, hτ⟩
          obtain ⟨c, hc, rfl⟩ := List.mem_map.1 ht
          exact ⟨c, (List.mem_insertionSort _).1 hc, hτ⟩
        · rintro ⟨c, hc, hτ⟩
          exact ⟨c.2, List.mem_map.2 ⟨c, (List.mem_insertionSort _).2 hc, rfl⟩, hτ⟩
      refine ⟨fun τ => ?_, ?_, ?_⟩
      · dsimp only; rw [hP, hN]; exact e1 τ
      · refine seenIn_congr (fun τ hτ => ?_) e2
        dsimp only; rw [hP]; exact hτ
      · refine seenTIn_congr (fun τ hτ => ?_) e3
        dsimp only; rw [hN]; exact hτ
  case h_14 hcfg => rw [hcfg] at hk; simp [UnitCfg.kind] at hk

theorem inP_append (τ : List Str) (a b : List (Parse S)) : InP τ (a ++ b) ↔ InP τ a ∨ InP τ b := by
  simp only [InP, List.mem_append, or_and_right, exists_or]
theorem inT_append (τ : List Str) (a b : List Tag) : InT τ (a ++ b) ↔ InT τ a ∨ InT τ b := by
  simp only [InT, List.mem_append, or_and_right, exists_or]

theorem group_sameTags (A : List Str → Prop) (m : Morph S) (hd : m.dict.WF) (rec : Rec S) (g : List (BUnit S))
    (hu : ∀ u ∈ g, u.cfg.properPrefixes) (hk : ∀ u ∈ g, u.cfg.kind ≠ .unkn) (word wl : Str) (hrec : rec.TagsBelow wl)
    (seen : Seen) (seenT : SeenTags) (h : SeenIn A seen) (hT : SeenTIn A seenT) (ps : List (Parse S)) (ts : List Tag)
    (hps : groupParse m rec word wl g seen = .ok ps) (hts : groupTag m rec word wl g seenT = .ok ts) :
    SameUpTo A ps ts := by
  induction g generalizing A seen seenT ps ts with
  | nil => simp [groupParse] at hps; simp [groupTag] at hts; subst hps hts; intro τ; simp [InP, InT]
  | cons u g ih =>
    simp only [groupParse, bind_ok_iff, pure_eq_ok, Except.ok.injEq] at hps
    simp only [groupTag, bind_ok_iff, pure_eq_ok, Except.ok.injEq] at hts
    obtain ⟨r, hr, rest, hrest, rfl⟩ := hps
    obtain ⟨rt, hrt, restT, hrestT, rfl⟩ := hts
    obtain ⟨e1, e2, e3⟩ := unit_sameTags A m hd rec u (hu u (by simp)) (hk u (by simp)) word wl hrec seen seenT h hT r rt hr hrt
    have := ih (fun τ => A τ ∨ InP τ r.1) (fun v hv => hu v (by simp [hv])) (fun v hv => hk v (by simp [hv]))
      r.2 rt.2 e2 (seenTIn_congr (fun τ => (e1 τ).2) e3) rest restT hrest hrestT
    intro τ
    rw [inP_append, inT_append, ← or_assoc, ← or_assoc]; refine (this τ).trans ?_; beta_reduce; rw [e1 τ]

/-- `UnknAnalyzer` stands alone in its group. -/
def UnknAlone (g : List (BUnit S)) : Prop := (∀ u ∈ g, u.cfg.kind ≠ .unkn) ∨ ∃ n t, g = [⟨n, .unkn t⟩]

theorem firstGroup_sameTags (m : Morph S) (hd : m.dict.WF) (rec : Rec S) (groups : List (List (BUnit S)))
    (hu : ∀ g ∈ groups, ∀ u ∈ g, u.cfg.properPrefixes) (hk : ∀ g ∈ groups, UnknAlone g) (word wl : Str)
    (hrec : rec.TagsBelow wl) (ps : List (Parse S)) (ts : List Tag)
    (hps : firstGroup (fun g => groupParse m rec word wl g []) groups = .ok ps)
    (hts : firstGroup (fun g => groupTag m rec word wl g []) groups = .ok ts) : SameTags ps ts := by
  induction groups with
  | nil => simp [firstGroup] at hps hts; subst hps hts; intro τ; simp [InP, InT]
  | cons g gs ih =>
    simp only [firstGroup, bind_ok_iff] at hps hts
    obtain ⟨r, hr, hps⟩ := hps
    obtain ⟨rt, hrt, hts⟩ := hts
    have hsame : SameTags r rt := by
      rcases hk g (by simp) with hk | ⟨n, t, rfl⟩
      · have := group_sameTags (fun _ => False) m hd rec g (hu g (by simp)) hk word wl hrec [] [] (by simp [SeenIn])
          (by simp [SeenTIn]) r rt hr hrt
        intro τ; simpa using this τ
      · obtain ⟨h1, h2⟩ := unkn_run m rec word wl n t
        rw [h1] at hr; rw [h2] at hrt
        simp at hr hrt; subst hr hrt
        intro τ; simp [InP, InT]
    have hnil := sameTags_nil hsame
    cases r with
    | nil =>
      have : rt = [] := hnil.1 rfl
      subst this
      exact ih (fun g hg => hu g (by simp [hg])) (fun g hg => hk g (by simp [hg])) hps hts
    | cons a as =>
      cases rt with
      | nil => simp at hnil
      | cons b bs => simp at hps hts; subst hps hts; exact hsame

theorem sameTags_perm {ps ps' : List (Parse S)} {ts ts' : List Tag} (h : SameTags ps ts)
    (hp : (ps'.map Parse.core).Perm (ps.map Parse.core)) (ht : ts'.Perm ts) : SameTags ps' ts' := by
  intro τ
  have e1 : InP τ ps' ↔ InP τ ps := by
    have : ∀ l : List (Parse S), InP τ l ↔ ∃ c ∈ l.map Parse.core, c.2.1.tuple = τ := by
      intro l
      simp [InP, Parse.core]
    rw [this, this]
    exact exists_congr fun c => and_congr hp.mem_iff Iff.rfl
  have e2 : InT τ ts' ↔ InT τ ts := exists_congr fun c => and_congr ht.mem_iff Iff.rfl
  rw [e1, e2]; exact h τ

theorem parse_tag_sameTags (m : Morph S) (hlow : m.env.LowerStable) (hd : m.dict.WF) (groups : List (List (BUnit S)))
    (hgr : IsGroups groups m.units)
    (hu : ∀ g ∈ groups, ∀ u ∈ g, u.cfg.properPrefixes) (hk : ∀ g ∈ groups, UnknAlone g) (w : Str)
    (ps : List (Parse S)) (ts : List Tag) (hps : m.parse w = .ok ps) (hts : m.tag w = .ok ts) : SameTags ps ts := by
  have hu' : ∀ u ∈ m.units, u.1.cfg.properPrefixes := by
    rintro ⟨u, t⟩ h
    obtain ⟨g, hg, hug⟩ := (mem_of_isGroups hgr u).1 ⟨t, h⟩
    exact hu g hg u hug
  generalize hn : (m.env.lower w).length = n
  induction n using Nat.strong_induction_on generalizing w ps ts with
  | _ n ih =>
  subst hn
  obtain ⟨e1, e2⟩ := parse_unfold m hlow hu' w
  rw [e1] at hps
  rw [e2] at hts
  obtain ⟨res, hres, hperm⟩ := parseStep_core m _ w ps hps
  obtain ⟨rest, hrest, hpermT⟩ := tagStep_perm m _ w ts hts
  rw [runParse_eq_firstGroup _ _ _ _ _ _ hgr] at hres
  rw [runTag_eq_firstGroup _ _ _ _ _ _ hgr] at hrest
  refine sameTags_perm (firstGroup_sameTags m hd _ groups hu hk w _ ?_ res rest hres hrest) hperm hpermT
  intro x hx hl ps ts h1 h2
  have e : m.env.lower x = x := hlow w x hx
  exact ih _ (by rw [e]; exact hl) x ps ts h1 h2 rfl

theorem default_groups (m : Morph S) (hm : IsRu m ∨ IsUk m) : ∃ groups, IsGroups groups m.units ∧
    (∀ g ∈ groups, ∀ u ∈ g, u.cfg.properPrefixes) ∧ ∀ g ∈ groups, UnknAlone g := by
  have hp := default_properPrefixes m hm
  have key : ∀ items : List (List (UnitSpec S)), IsGroups (boundGroups items 0) m.units →
      (∀ g ∈ items, (∀ sp ∈ g, sp.bound.kind ≠ .unkn) ∨ g = [.unkn]) → ∃ groups, IsGroups groups m.units ∧
      (∀ g ∈ groups, ∀ u ∈ g, u.cfg.properPrefixes) ∧ ∀ g ∈ groups, UnknAlone g := by
    intro items hgr hit
    refine ⟨_, hgr, ?_, ?_⟩
    · intro g hg u hug
      obtain ⟨t, ht⟩ := (mem_of_isGroups hgr u).2 ⟨g, hg, hug⟩
      exact hp (u, t) ht
    · clear hgr
      generalize 0 = n
      induction items generalizing n with
      | nil => simp [boundGroups]
      | cons x xs ih =>
        intro g hg
        rcases List.mem_cons.1 hg with rfl | hg
        · rcases hit x (by simp) with h | rfl
          · left
            intro u hu
            obtain ⟨i, hi, rfl⟩ := List.mem_mapIdx.1 hu
            exact h _ (List.getElem_mem hi)
          · right; exact ⟨n, _, rfl⟩
        · exact ih (fun g hg => hit g (by simp [hg])) _ g hg
  rcases hm with ⟨cls, hm⟩ | ⟨cls, hm⟩
  · exact key _ (mkMorph_units hm).2.2.2.2 (by simp [ruUnits, UnitSpec.bound, UnitCfg.kind])
  · exact key _ (mkMorph_units hm).2.2.2.2 (by simp [ukUnits, UnitSpec.bound, UnitCfg.kind])

/-! ### C02 -/

/-- **C02.** For the default analyzers over a sound dictionary: a tag is returned by `tag(w)` iff it is the tag of a
result of `parse(w)` (tags compared as the library compares them: by their grammeme tuples). -/
theorem c02_same_tags (m : Morph S) (hm : IsRu m ∨ IsUk m) (hlow : m.env.LowerStable) (hd : m.dict.WF) (w : Str)
    (ps : List (Parse S)) (ts : List Tag) (hps : m.parse w = .ok ps) (hts : m.tag w = .ok ts) :
    (∀ t ∈ ts, ∃ p ∈ ps, p.tag.eqv t = true) ∧ (∀ p ∈ ps, ∃ t ∈ ts, t.eqv p.tag = true) := by
  obtain ⟨groups, hgr, hu, hk⟩ := default_groups m hm
  have h := parse_tag_sameTags m hlow hd groups hgr hu hk w ps ts hps hts
  constructor
  · intro t ht
    obtain ⟨p, hp, he⟩ := (h t.tuple).2 ⟨t, ht, rfl⟩
    exact ⟨p, hp, by simp [Tag.eqv, he]⟩
  · intro p hp
    obtain ⟨t, ht, he⟩ := (h p.tag.tuple).1 ⟨p, hp, rfl⟩
    exact ⟨t, ht, by simp [Tag.eqv, he]⟩

/-! ### Element by element, for words answered by the dictionary group -/

/-- Units whose `tag` lists the tags of their `parse` one by one. -/
def UnitCfg.listwise : UnitCfg S → Prop
  | .dictionary | .firstName _ _ _ _ | .patronymic _ _ _ | .number _ _ _ | .punct _ _ | .latin _ _ | .roman _ _ => True
  | _ => False

theorem dictTag_of_parse (m : Morph S) (u : UObj) (wl : Str) (ps : List (Parse S)) (ts : List Tag)
    (hps : dictParse m u wl = .ok ps) (hts : dictTag m wl = .ok ts) : ts = ps.map Parse.tag := by
  have e : (m.dict.words.similarItemValues m.sub wl).flatten = (lookup m.dict.words m.sub wl).map Prod.snd := by
    simp only [lookup, Dawg.similarItemValues, Dawg.similarItems, List.flatMap, List.map_flatten, List.map_map]
    congr 1
    apply List.map_congr_left
    intro it _
    simp [Function.comp_def]
  unfold dictTag at hts
  rw [e] at hts
  unfold dictParse at hps
  generalize lookup m.dict.words m.sub wl = l at hps hts
  induction l generalizing ps ts with
  | nil => simp [mapE] at hps hts; subst hps hts; rfl
  | cons a l ih =>
    simp only [List.map_cons, mapE, bind_ok_iff, pure_eq_ok, Except.ok.injEq] at hps hts
    obtain ⟨p, hp, ps', hps', rfl⟩ := hps
    obtain ⟨t, ht, ts', hts', rfl⟩ := hts
    simp only [dictParse1, bind_ok_iff, pure_eq_ok, Except.ok.injEq] at hp
    obtain ⟨nf, _, t', ht', rfl⟩ := hp
    rw [ht] at ht'
    simp only [Except.ok.injEq] at ht'
    subst ht'
    rw [ih _ _ hps' hts']; rfl

theorem unit_listwise (m : Morph S) (rec : Rec S) (u : BUnit S) (hu : u.cfg.listwise) (word wl : Str) (seen : Seen)
    (seenT : SeenTags) (r : List (Parse S) × Seen) (rt : List Tag × SeenTags)
    (hr : unitParse m rec u word wl seen = .ok r) (hrt : unitTag m rec u word wl seenT = .ok rt) :
    rt.1 = r.1.map Parse.tag := by
  have shape : ∀ (score : S) (o : Option Tag), o.toList = (shapeParse u.obj score word wl o).map Parse.tag := by
    intro score o; cases o <;> rfl
  have init : ∀ letters tags (score : S), initialsTag letters tags word =
      (initialsParse u.obj letters tags score word wl).map Parse.tag := by
    intro letters tags score
    unfold initialsTag initialsParse
    split
    · simp [Function.comp_def]
    · rfl
  obtain ⟨n, cfg⟩ := u
  cases cfg <;> simp only [UnitCfg.listwise] at hu <;>
    simp only [unitParse, unitTag, bind_ok_iff, pure_eq_ok, Except.ok.injEq] at hr hrt
  · obtain ⟨ps, h1, rfl⟩ := hr
    obtain ⟨ts, h2, rfl⟩ := hrt
    exact dictTag_of_parse m _ wl ps ts h1 h2
  · subst hr hrt; exact init ..
  · subst hr hrt; exact init ..
  all_goals
    obtain ⟨t, h1, rfl⟩ := hr
    obtain ⟨t', h2, rfl⟩ := hrt
    rw [h1] at h2
    simp only [Except.ok.injEq] at h2
    subst h2
    exact shape ..

theorem group_listwise (m : Morph S) (rec : Rec S) (g : List (BUnit S)) (hg : ∀ u ∈ g, u.cfg.listwise) (word wl : Str)
    (seen : Seen) (seenT : SeenTags) (ps : List (Parse S)) (ts : List Tag)
    (hps : groupParse m rec word wl g seen = .ok ps) (hts : groupTag m rec word wl g seenT = .ok ts) :
    ts = ps.map Parse.tag := by
  induction g generalizing seen seenT ps ts with
  | nil => simp [groupParse] at hps; simp [groupTag] at hts; subst hps hts; rfl
  | cons u g ih =>
    simp only [groupParse, bind_ok_iff, pure_eq_ok, Except.ok.injEq] at hps
    simp only [groupTag, bind_ok_iff, pure_eq_ok, Except.ok.injEq] at hts
    obtain ⟨r, hr, rest, hrest, rfl⟩ := hps
    obtain ⟨rt, hrt, restT, hrestT, rfl⟩ := hts
    rw [List.map_append, unit_listwise m rec u (hg u (by simp)) word wl seen seenT r rt hr hrt,
      ih (fun v hv => hg v (by simp [hv])) _ _ _ _ hrest hrestT]

theorem insertionSort_of_all {α : Type} (r : α → α → Prop) [DecidableRel r] (l : List α)
    (h : ∀ a ∈ l, ∀ b ∈ l, r a b) : l.insertionSort r = l := by
  apply List.Pairwise.insertionSort_eq
  exact List.pairwise_of_forall_mem_list h

theorem scored_listwise (dawg : List (Str × Nat)) (wl : Str) (ps out : List (Parse Rat))
    (h : applyToParses dawg wl ps = .ok out) : applyToTags Rat dawg wl (ps.map Parse.tag) = out.map Parse.tag := by
  unfold applyToParses at h
  split at h
  · next he => simp at h; subst h he; rfl
  · dsimp only at h
    split at h
    · next hz =>
      split at h
      · simp at h
      · simp at h; subst h
        rw [List.map_map]
        show _ = ps.map Parse.tag
        rw [sumS_eq] at hz
        have hz : (ps.map fun p => (prob dawg wl p.tag : Rat)).sum = 0 := by simpa [Score.isZero] using hz
        have hall : ∀ t ∈ ps.map Parse.tag, (prob dawg wl t : Rat) = 0 := by
          intro t ht
          obtain ⟨p, hp, rfl⟩ := List.mem_map.1 ht
          have hle := List.single_le_sum (l := ps.map fun p => (prob dawg wl p.tag : Rat)) (by
            intro x hx; obtain ⟨p, _, rfl⟩ := List.mem_map.1 hx; exact prob_nonneg _ _ _) _
            (List.mem_map.2 ⟨p, hp, rfl⟩)
          rw [hz] at hle
          exact le_antisymm hle (prob_nonneg _ _ _)
        apply insertionSort_of_all
        intro a ha b hb
        rw [hall a ha, hall b hb]; rfl
    · simp at h; subst h
      unfold sortByScore applyToTags
      rw [List.map_insertionSort (r := fun a b : Parse Rat => Score.le b.score a.score = true)
        (s := fun a b : Tag => Score.le (prob dawg wl b : Rat) (prob dawg wl a) = true)]
      · rw [List.map_map]; rfl
      · intro a ha b hb
        obtain ⟨p, _, rfl⟩ := List.mem_map.1 ha
        obtain ⟨q, _, rfl⟩ := List.mem_map.1 hb
        exact Iff.rfl

theorem firstGroup_cons_answer {α : Type} (run : List (BUnit S) → Except PyErr (List α)) (g : List (BUnit S))
    (gs : List (List (BUnit S))) (out r : List α) (h : firstGroup run (g :: gs) = .ok out) (hr : run g = .ok r) (hne : r ≠ []) :
    out = r := by
  simp only [firstGroup, hr, bind_ok_iff, Except.ok.injEq] at h
  obtain ⟨r', rfl, h⟩ := h
  cases r with
  | nil => simp at hne
  | cons a as => simpa using h.symm

/-- **C02, order.** For a word known to the dictionary, `tag(w)` is the list of the tags of `parse(w)`, element by
element (default analyzers, with or without P(t|w) data, exact arithmetic). -/
theorem c02_same_list (m : Morph Rat) (hm : IsRu m ∨ IsUk m) (hlow : m.env.LowerStable) (w : Str)
    (hknown : m.wordIsKnown w = true) (ps : List (Parse Rat)) (ts : List Tag) (hps : m.parse w = .ok ps)
    (hts : m.tag w = .ok ts) : ts = ps.map Parse.tag := by
  obtain ⟨e1, e2⟩ := c01_recursive_equation m hm hlow w
  rw [e1] at hps
  rw [e2] at hts
  have key : ∀ (cls : TagCls) (g0 : List (UnitSpec Rat)) (items : List (List (UnitSpec Rat))),
      mkMorph m.env m.dict cls m.sub ((.dictionary :: g0) :: items) m.est = .ok m →
      (∀ sp ∈ UnitSpec.dictionary :: g0, sp.bound.listwise) → ts = ps.map Parse.tag := by
    intro cls g0 items hmk hlw
    have hgr := (mkMorph_units hmk).2.2.2.2
    unfold parseStep at hps
    unfold tagStep at hts
    rw [bind_ok_iff] at hps hts
    obtain ⟨res, hres, hps⟩ := hps
    obtain ⟨resT, hresT, hts⟩ := hts
    rw [runParse_eq_firstGroup _ _ _ _ _ _ hgr] at hres
    rw [runTag_eq_firstGroup _ _ _ _ _ _ hgr] at hresT
    have hmain : resT = res.map Parse.tag := by
      have h0 := hres
      have h0T := hresT
      simp only [boundGroups, firstGroup, bind_ok_iff] at h0 h0T
      obtain ⟨r, hr, _⟩ := h0
      obtain ⟨rt, hrt, _⟩ := h0T
      have hlist := group_listwise m _ _ (by
        intro u hu
        obtain ⟨i, hi, rfl⟩ := List.mem_mapIdx.1 hu
        exact hlw _ (List.getElem_mem hi)) _ _ _ _ r rt hr hrt
      have hne : r ≠ [] := by
        simp only [List.mapIdx_cons, groupParse, unitParse, UnitSpec.bound, bind_ok_iff, pure_eq_ok, Except.ok.injEq] at hr
        obtain ⟨r', ⟨ps', hps', rfl⟩, rest, _, rfl⟩ := hr
        have hl := dictParse_entries m _ _ _ hps'
        intro e
        have := (List.append_eq_nil_iff.1 e).1
        dsimp only at this
        subst this
        simp only [List.filterMap_nil] at hl
        unfold Morph.wordIsKnown at hknown
        simp only [Bool.false_eq_true, if_false] at hknown
        obtain ⟨v, r, h1, h2⟩ := (dict_known_iff _ _ _).1 hknown
        have := (mem_lookup _ _ _ _ _).2 ⟨h1, h2⟩
        rw [← hl] at this; simp at this
      have hneT : rt ≠ [] := by rw [hlist]; simpa using hne
      rw [firstGroup_cons_answer _ _ _ _ _ hres hr hne, firstGroup_cons_answer _ _ _ _ _ hresT hrt hneT, hlist]
    subst hmain
    cases hest : m.est with
    | none =>
      simp only [hest, pure_eq_ok, Except.ok.injEq] at hps hts
      subst hps hts; rfl
    | some dawg =>
      simp only [hest, pure_eq_ok, Except.ok.injEq] at hps hts
      rw [← hts]
      exact scored_listwise _ _ _ _ hps
  rcases hm with ⟨cls, hm⟩ | ⟨cls, hm⟩
  · unfold ruUnits at hm
    refine key cls _ _ hm ?_
    simp [UnitSpec.bound, UnitCfg.listwise]
  · unfold ukUnits at hm
    refine key cls _ _ hm ?_
    simp [UnitSpec.bound, UnitCfg.listwise]

/-! Non-vacuity (tests): both calls succeed for a known word (list equality) and for a predicted one (same set). -/
example : IsRu Demo.morphP ∧ Demo.morphP.env.LowerStable ∧ Demo.morphP.dict.WF :=
  ⟨Demo.morphP_isRu, demoEnv_lowerStable, Demo.dict_wf⟩
example : Demo.morphP.wordIsKnown (c!"Кошка") = true ∧
    ((Demo.morphP.parse (c!"Кошка")).toOption.map fun l => l.map Parse.tag) = (Demo.morphP.tag (c!"Кошка")).toOption ∧
    (Demo.morphP.tag (c!"мошка")).toOption.isSome = true := by decide +kernel

/-- **C02 for custom unit lists** made of the library's units: the same holds for every `units` argument in which
`UnknAnalyzer`, if present, is a group of its own, and no registered prefix of `KnownPrefixAnalyzer` is the empty string. -/
theorem c02_same_tags_custom (env : Env) (dict : Dict) (cls : TagCls) (sub : Subst) (items : List (List (UnitSpec S)))
    (est : Option (List (Str × Nat))) (m : Morph S) (hm : mkMorph env dict cls sub items est = .ok m)
    (hunkn : ∀ g ∈ items, .unkn ∈ g → g = [.unkn])
    (hpre : ∀ g ∈ items, ∀ sp ∈ g, ∀ prefixes mult k, sp = .knownPrefix prefixes mult k → [] ∉ prefixes)
    (hlow : m.env.LowerStable) (hd : m.dict.WF) (w : Str)
    (ps : List (Parse S)) (ts : List Tag) (hps : m.parse w = .ok ps) (hts : m.tag w = .ok ts) :
    (∀ t ∈ ts, ∃ p ∈ ps, p.tag.eqv t = true) ∧ (∀ p ∈ ps, ∃ t ∈ ts, t.eqv p.tag = true) := by
  have hgr := (mkMorph_units hm).2.2.2.2
  have hmem : ∀ (items : List (List (UnitSpec S))) (n : Nat), ∀ g ∈ boundGroups items n, ∃ k, ∃ g0 ∈ items,
      g = g0.mapIdx fun i sp => (⟨k + i, sp.bound⟩ : BUnit S) := by
    intro items
    induction items with
    | nil => intro n g hg; simp [boundGroups] at hg
    | cons x xs ih =>
      intro n g hg
      rcases List.mem_cons.1 hg with rfl | hg
      · exact ⟨n, x, by simp, rfl⟩
      · obtain ⟨k, g0, h0, e⟩ := ih _ g hg
        exact ⟨k, g0, by simp [h0], e⟩
  have h := parse_tag_sameTags m hlow hd _ hgr (by
    intro g hg u hu
    obtain ⟨k, g0, h0, rfl⟩ := hmem _ _ g hg
    obtain ⟨i, hi, rfl⟩ := List.mem_mapIdx.1 hu
    have h1 := hpre g0 h0 _ (List.getElem_mem hi)
    generalize g0[i] = sp at h1
    cases sp with
    | knownPrefix ps mult k => exact h1 ps mult k rfl
    | _ => trivial) (by
    intro g hg
    obtain ⟨k, g0, h0, rfl⟩ := hmem _ _ g hg
    by_cases hu : UnitSpec.unkn ∈ g0
    · have := hunkn g0 h0 hu
      subst this
      exact .inr ⟨k, _, rfl⟩
    · left
      intro u hu'
      obtain ⟨i, hi, rfl⟩ := List.mem_mapIdx.1 hu'
      have : g0[i] ≠ .unkn := fun e => hu (e ▸ List.getElem_mem hi)
      generalize g0[i] = sp at this
      cases sp with
      | unkn => exact absurd rfl this
      | _ => exact UKind.noConfusion) w ps ts hps hts
  constructor
  · intro t ht
    obtain ⟨p, hp, he⟩ := (h t.tuple).2 ⟨t, ht, rfl⟩
    exact ⟨p, hp, by simp [Tag.eqv, he]⟩
  · intro p hp
    obtain ⟨t, ht, he⟩ := (h p.tag.tuple).1 ⟨p, hp, rfl⟩
    exact ⟨t, ht, by simp [Tag.eqv, he]⟩

/-- An analyzer whose last group joins `HyphenatedWordsAnalyzer` and `UnknAnalyzer`. -/
def Demo.morphHU : Except PyErr (Morph Rat) :=
  mkMorph demoEnv Demo.dict Demo.cls ruSubst [[.dictionary], [.hyphenated [] 1, .unkn]] none

/-- **C02, negative.** The restriction on `UnknAnalyzer` is needed: when it shares a group with `HyphenatedWordsAnalyzer`
(which does not record its parses as seen), `parse` reports UNKN and `tag` does not. -/
theorem c02_custom_disagreement : ∃ m, Demo.morphHU = .ok m ∧ ∃ ps ts, m.parse (c!"кошка-кошек") = .ok ps ∧
    m.tag (c!"кошка-кошек") = .ok ts ∧ (∃ p ∈ ps, p.tag.str = c!"UNKN") ∧ ∀ t ∈ ts, t.str ≠ c!"UNKN" := by
  have h : (match Demo.morphHU with
    | .ok m => match m.parse (c!"кошка-кошек"), m.tag (c!"кошка-кошек") with
      | .ok ps, .ok ts => ps.any (fun p => decide (p.tag.str = c!"UNKN")) && ts.all (fun t => decide (t.str ≠ c!"UNKN"))
      | _, _ => false
    | _ => false) = true := by decide +kernel
  split at h
  · next m hm =>
    split at h
    · next ps ts hps hts =>
      simp only [Bool.and_eq_true, List.any_eq_true, List.all_eq_true, decide_eq_true_eq] at h
      exact ⟨m, hm, ps, ts, hps, hts, h.1, h.2⟩
    · simp at h
  · simp at h

end Verif
