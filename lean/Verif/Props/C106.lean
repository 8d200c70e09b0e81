/-
C106 — `tag(w)` and `parse(w)` list the tags in the same order.
-/
import Verif.Lemmas.Firsts
import Verif.Props.C100

set_option linter.unusedSectionVars false

namespace Verif

variable {S : Type} [Score S]

/-! ### Agreement of one answer of `parse` with one answer of `tag` -/

/-- Apart from any set of tags that has those of the analyses predicted by the ending, the tags are the same in the same order. -/
def TagsAgree (ps : List (Parse S)) (ts : List Tag) : Prop :=
  ∀ D : List Str → Bool, (∀ p ∈ ps, p.stack.byEnding = true → D p.tag.tuple = true) → Same D (tupsP ps) (tupsT ts)

/-- Answers with a prediction by the ending have no repetitions. -/
def Distinct (ps : List (Parse S)) : Prop := (∃ p ∈ ps, p.stack.byEnding = true) → (ps.map Parse.key).Nodup ∧ ∀ p ∈ ps, p.stack ≠ .nil

theorem TagsAgree.of_map (ps : List (Parse S)) : TagsAgree ps (ps.map Parse.tag) := by
  intro D _
  unfold tupsP tupsT
  rw [List.map_map]
  exact Same.refl _ _

theorem Distinct.of_none {ps : List (Parse S)} (h : ∀ p ∈ ps, p.stack.byEnding = false) : Distinct ps := by
  rintro ⟨p, hp, hb⟩
  rw [h p hp] at hb; simp at hb

theorem dictParse_notByEnding (m : Morph S) (u : UObj) (wl : Str) (ps : List (Parse S)) (h : dictParse m u wl = .ok ps) :
    ∀ p ∈ ps, p.stack.byEnding = false := by
  intro p hp
  obtain ⟨para, idx, _, _, _, _, _, h5⟩ := dictParse_mem m u wl ps h p hp
  rw [h5]; rfl

theorem Stack.first_push {st : Stack} (h : st ≠ .nil) (x : Method) : (Stack.push st x).first = st.first := by
  cases st with
  | nil => exact absurd rfl h
  | push r m => rfl

/-! ### Prefixes and particles -/

/-- Every analysis predicted by the ending has a tag in `D`, or repeats an earlier analysis. -/
def Covered (D : List Str → Bool) (X : List (Parse S)) : Prop :=
  ∀ a q b, X = a ++ q :: b → q.stack.byEnding = true → D q.tag.tuple = true ∨ ∃ x ∈ a, x.key = q.key

theorem key_tuple {p q : Parse S} (h : p.key = q.key) : p.tag.tuple = q.tag.tuple := by
  simp only [Parse.key, SeenKey.reduced.injEq] at h
  exact h.2.1

/-- A block: what is made of the analyses of one remainder. -/
theorem block_agree (D : List Str → Bool) (ps : List (Parse S)) (ts : List Tag) (ha : TagsAgree ps ts) (hk : Distinct ps) (good : Tag → Bool)
    (hgood : ∀ t t' : Tag, t.tuple = t'.tuple → good t = good t')
    (f : Parse S → Parse S) (hf1 : ∀ p, (f p).tag = p.tag) (hf2 : ∀ p, p.stack.byEnding = true → (f p).stack.byEnding = true)
    (hf3 : ∀ p q, p.stack ≠ .nil → q.stack ≠ .nil → (f p).key = (f q).key → p.key = q.key)
    (hc : Covered D ((ps.filter fun p => good p.tag).map f)) :
    Same D (tupsP ((ps.filter fun p => good p.tag).map f)) (tupsT (ts.filter good)) := by
  classical
  let G : List Str → Bool := fun τ => decide (∃ t : Tag, t.tuple = τ ∧ good t = true)
  have hG : ∀ t : Tag, G t.tuple = good t := by
    intro t
    cases hg : good t with
    | true => exact decide_eq_true ⟨t, rfl, hg⟩
    | false =>
      refine decide_eq_false ?_
      rintro ⟨t', h1, h2⟩
      rw [hgood t' t h1, hg] at h2
      simp at h2
  have e1 : tupsP ((ps.filter fun p => good p.tag).map f) = (tupsP ps).filter G := by
    unfold tupsP
    rw [List.map_map, List.filter_map]
    have : (G ∘ fun p : Parse S => p.tag.tuple) = fun p => good p.tag := by funext p; exact hG p.tag
    rw [this]
    apply List.map_congr_left
    intro p _
    simp [hf1]
  have e2 : tupsT (ts.filter good) = (tupsT ts).filter G := by
    unfold tupsT
    rw [List.filter_map]
    have : (G ∘ Tag.tuple) = good := by funext t; exact hG t
    rw [this]
  -- outside the good tags nothing matters
  have key : Same (fun τ => D τ || !G τ) (tupsP ps) (tupsT ts) := by
    apply ha
    intro p hp hb
    cases hg : good p.tag with
    | false => simp [hG, hg]
    | true =>
      obtain ⟨hn, hs⟩ := hk ⟨p, hp, hb⟩
      have hmem : p ∈ ps.filter fun p => good p.tag := List.mem_filter.2 ⟨hp, hg⟩
      obtain ⟨a, b, hab⟩ := List.append_of_mem hmem
      rcases hc (a.map f) (f p) (b.map f) (by rw [hab]; simp) (hf2 p hb) with h | ⟨x, hx, he⟩
      · rw [hf1] at h; simp [h]
      · exfalso
        obtain ⟨q, hq, rfl⟩ := List.mem_map.1 hx
        have hq' : q ∈ ps.filter fun p => good p.tag := by rw [hab]; simp [hq]
        have hkey := hf3 q p (hs q (List.mem_filter.1 hq').1) (hs p hp) he
        have hnd : ((ps.filter fun p => good p.tag).map Parse.key).Nodup := hn.sublist (List.filter_sublist.map _)
        rw [hab, List.map_append, List.map_cons, List.nodup_append] at hnd
        exact hnd.2.2 _ (List.mem_map.2 ⟨q, hq, rfl⟩) _ (by simp) hkey
  rw [e1, e2]
  have := key.filter G
  unfold Same at this ⊢
  rw [List.filter_filter, List.filter_filter] at this ⊢
  have e3 : ∀ l : List (List Str), l.filter (fun a => (!(D a || !G a)) && G a) = l.filter fun a => (!D a) && G a := by
    intro l; apply List.filter_congr; intro a _; cases D a <;> cases G a <;> rfl
  rw [e3, e3] at this
  exact this

theorem prefix_agree (u : UObj) (mult : S) (f : Str → Except PyErr (List (Parse S))) (g : Str → Except PyErr (List Tag))
    (sp : List (Str × Str)) (hfg : ∀ s ∈ sp, ∀ ps ts, f s.2 = .ok ps → g s.2 = .ok ts → TagsAgree ps ts ∧ Distinct ps)
    (X : List (Parse S)) (Y : List Tag) (h : prefixCands u mult f sp = .ok X) (ht : prefixTagCands g sp = .ok Y)
    (D : List Str → Bool) (hc : Covered D X) : Same D (tupsP X) (tupsT Y) := by
  simp only [prefixCands, prefixTagCands, bind_ok_iff, pure_eq_ok, Except.ok.injEq] at h ht
  obtain ⟨ls, hls, rfl⟩ := h
  obtain ⟨lt, hlt, rfl⟩ := ht
  induction sp generalizing ls lt D with
  | nil => simp [mapE] at hls hlt; subst hls hlt; rfl
  | cons s sp ih =>
    simp only [mapE, bind_ok_iff, pure_eq_ok, Except.ok.injEq] at hls hlt
    obtain ⟨l, ⟨r, hr, rfl⟩, ls', hls', rfl⟩ := hls
    obtain ⟨l', ⟨r', hr', rfl⟩, lt', hlt', rfl⟩ := hlt
    obtain ⟨ha, hk⟩ := hfg s (by simp) r r' hr hr'
    rw [List.flatten_cons] at hc ⊢
    rw [List.flatten_cons]
    have hblock : Same D (tupsP (prefixDeco u mult s.1 r)) (tupsT (r'.filter Tag.isProductive)) := by
      refine block_agree D r r' ha hk Tag.isProductive (fun _ _ h => Tag.productive_congr h) _ (fun _ => rfl) ?_ ?_ ?_
      · intro p hp; simp [Stack.byEnding, hp]
      · intro p q hp hq he
        simp only [Parse.key, SeenKey.reduced.injEq, Stack.first_push hp, Stack.first_push hq, List.append_cancel_left_eq] at he
        unfold Parse.key
        rw [he.1, he.2.1, he.2.2]
      · intro a q b he hb
        exact hc a q (b ++ ls'.flatten) (by unfold prefixDeco at *; rw [he]; simp) hb
    have hrest : Same (fun x => D x || decide (x ∈ tupsP (prefixDeco u mult s.1 r))) (tupsP ls'.flatten) (tupsT lt'.flatten) := by
      refine ih (fun s hs => hfg s (by simp [hs])) _ ls' (by simpa using hls') ?_ lt' (by simpa using hlt')
      intro a q b he hb
      rcases hc (prefixDeco u mult s.1 r ++ a) q b (by rw [he]; simp) hb with h | ⟨x, hx, hxk⟩
      · exact .inl (by simp [h])
      · rcases List.mem_append.1 hx with hx | hx
        · left
          have : q.tag.tuple ∈ tupsP (prefixDeco u mult s.1 r) := by
            rw [← key_tuple hxk]
            exact List.mem_map.2 ⟨x, hx, rfl⟩
          simp [this]
        · exact .inr ⟨x, hx, hxk⟩
    have := hblock.append hrest
    unfold tupsP tupsT at this ⊢
    rw [List.map_append, List.map_append]
    exact this

theorem covered_of (D : List Str → Bool) (X : List (Parse S)) (h : ∀ p ∈ (addParses X []).1, p.stack.byEnding = true → D p.tag.tuple = true) : Covered D X := by
  intro a q b he hb
  rcases addParses_covered X [] a q b he with h1 | h1 | h1
  · exact .inl (h q h1 hb)
  · simp at h1
  · exact .inr h1

/-! ### Units and groups -/

/-- Nested calls agree on strictly shorter pieces. -/
def Rec.OrderBelow (P : Tag → Prop) (wl : Str) (r : Rec S) : Prop :=
  ∀ x : Str, x <:+: wl → x.length < wl.length → ∀ ps ts, r.parse x = .ok ps → r.tag x = .ok ts → TagsAgree ps ts ∧ Distinct ps ∧ ∀ t ∈ ts, P t

theorem seenIn_nil (A : List Str → Prop) : SeenIn A [] := by intro w τ k h; simp at h
theorem seenTIn_nil (A : List Str → Prop) : SeenTIn A [] := by intro τ h; simp at h

theorem addTags_mem (ts : List Tag) (seen : SeenTags) : ∀ t ∈ (addTags ts seen).1, t ∈ ts := by
  induction ts generalizing seen with
  | nil => simp [addTags]
  | cons x ts ih =>
    intro t ht
    rw [addTags] at ht
    split at ht
    · exact List.mem_cons_of_mem _ (ih _ t ht)
    · rcases List.mem_cons.1 ht with rfl | ht
      · simp
      · exact List.mem_cons_of_mem _ (ih _ t ht)

theorem dictTag_gramtab (m : Morph S) (wl : Str) (ts : List Tag) (h : dictTag m wl = .ok ts) : ∀ t ∈ ts, t ∈ m.dict.gramtab := by
  intro t ht
  unfold dictTag at h
  obtain ⟨e, _, he⟩ := mapE_mem h ht
  exact tagInfo_mem he

/-- One unit alone, except prediction by the ending. -/
theorem unit_agree (P : Tag → Prop) (m : Morph S) (hP : ∀ t ∈ m.dict.gramtab, P t) (rec : Rec S) (u : BUnit S) (hu : u.cfg.properPrefixes)
    (hk : u.cfg.kind ≠ .suff) (word wl : Str)
    (hrec : rec.OrderBelow P wl) (r : List (Parse S) × Seen) (rt : List Tag × SeenTags)
    (hr : unitParse m rec u word wl [] = .ok r) (hrt : unitTag m rec u word wl [] = .ok rt) (hPr : ∀ p ∈ r.1, P p.tag) :
    TagsAgree r.1 rt.1 ∧ ∀ t ∈ rt.1, P t := by
  have lw : u.cfg.listwise → TagsAgree r.1 rt.1 ∧ ∀ t ∈ rt.1, P t := by
    intro hl
    have := unit_listwise m rec u hl word wl [] [] r rt hr hrt
    rw [this]
    refine ⟨TagsAgree.of_map _, ?_⟩
    intro t ht
    obtain ⟨p, hp, rfl⟩ := List.mem_map.1 ht
    exact hPr p hp
  obtain ⟨n, cfg⟩ := u
  cases cfg
  case dictionary | firstName | patronymic | number | punct | latin | roman => exact lw trivial
  case particle particles mult =>
    simp only [unitParse, unitTag] at hr hrt
    split at hr
    · next hs =>
      rw [hs] at hrt
      simp at hr hrt; subst hr hrt
      exact ⟨fun D _ => Same.refl _ _, by simp⟩
    · next rest part hs =>
      rw [hs] at hrt
      simp only [bind_ok_iff, pure_eq_ok, Except.ok.injEq] at hr hrt
      obtain ⟨ps, hps, rfl⟩ := hr
      obtain ⟨ts, hts, rfl⟩ := hrt
      obtain ⟨h1, h2⟩ := particle_piece _ _ _ _ hs
      obtain ⟨a1, a2, a3⟩ := hrec _ h1 h2 ps ts hps hts
      refine ⟨?_, a3⟩
      intro D hD
      have hc := covered_of D _ hD
      refine (addParses_same D _ [] (seenIn_nil _)).trans ?_
      have := block_agree D ps ts a1 a2 (fun _ => true) (fun _ _ _ => rfl) (particleDeco (BUnit.obj ⟨n, .particle particles mult⟩) part mult) (fun _ => rfl)
        (fun p hp => by simp [particleDeco, Stack.byEnding, hp]) (by
          intro p q hp hq he
          simp only [particleDeco, Parse.key, SeenKey.reduced.injEq, Stack.first_push hp, Stack.first_push hq, List.append_cancel_right_eq] at he
          unfold Parse.key
          rw [he.1, he.2.1, he.2.2]) (by simpa [List.filter_true] using hc)
      simpa using this
  case adverb tag mult =>
    simp only [unitParse, unitTag, bind_ok_iff, pure_eq_ok, Except.ok.injEq] at hr hrt
    obtain ⟨b, hb, rfl⟩ := hr
    obtain ⟨b', hb', rfl⟩ := hrt
    rw [hb] at hb'; simp at hb'; subst hb'
    cases b with
    | false => simp only [Bool.false_eq_true, if_false, true_or, if_true]; exact ⟨fun D _ => Same.refl _ _, by simp⟩
    | true =>
      simp only [if_true] at hPr ⊢
      simp only [Bool.true_eq_false, List.not_mem_nil, or_self, if_false]
      exact ⟨fun D _ => Same.refl _ _, by simpa using hPr⟩
  case hyphenated skip mult =>
    simp only [unitParse, unitTag, bind_ok_iff, pure_eq_ok, Except.ok.injEq] at hr hrt
    obtain ⟨ps, hps, rfl⟩ := hr
    obtain ⟨ps', hps', rfl⟩ := hrt
    have hps' : hyphenParse rec (BUnit.obj ⟨n, .hyphenated skip mult⟩) skip mult wl = .ok ps' := hps'
    rw [hps] at hps'; simp at hps'; subst hps'
    refine ⟨?_, ?_⟩
    · intro D hD
      exact (TagsAgree.of_map ps D hD).trans (addTags_same D _ [] (seenTIn_nil _)).symm
    · intro t ht
      obtain ⟨p, hp, rfl⟩ := List.mem_map.1 (addTags_mem _ _ t ht)
      exact hPr p hp
  case knownPrefix pfs mult k =>
    simp only [unitParse, unitTag, bind_ok_iff, pure_eq_ok, Except.ok.injEq] at hr hrt
    obtain ⟨ps, hps, rfl⟩ := hr
    obtain ⟨ts, hts, rfl⟩ := hrt
    have hn : ∀ s ∈ possibleSplits pfs k wl, ∀ ps ts, rec.parse s.2 = .ok ps → rec.tag s.2 = .ok ts → TagsAgree ps ts ∧ Distinct ps ∧ ∀ t ∈ ts, P t := by
      rintro ⟨pre, rest⟩ hs ps ts h1 h2
      obtain ⟨i1, i2⟩ := prefix_piece pfs hu k wl pre rest hs
      exact hrec _ i1 i2 ps ts h1 h2
    refine ⟨?_, ?_⟩
    · intro D hD
      refine ((addParses_same D _ [] (seenIn_nil _)).trans ?_).trans (addTags_same D _ [] (seenTIn_nil _)).symm
      exact prefix_agree _ _ _ _ _ (fun s hs ps ts h1 h2 => ⟨(hn s hs ps ts h1 h2).1, (hn s hs ps ts h1 h2).2.1⟩) ps ts hps hts D (covered_of D _ hD)
    · intro t ht
      -- the tags of the remainders; `parse` of the remainder does not fail either
      obtain ⟨s, hs, ts', h1, h2⟩ := prefixTagCands_mem _ _ _ hts t (addTags_mem _ _ t ht)
      simp only [prefixCands, bind_ok_iff, pure_eq_ok, Except.ok.injEq] at hps
      obtain ⟨ls, hls, rfl⟩ := hps
      obtain ⟨l, _, hl⟩ := mapE_mem' hls hs
      simp only [bind_ok_iff, pure_eq_ok, Except.ok.injEq] at hl
      obtain ⟨qs, hqs, rfl⟩ := hl
      exact (hn s hs qs ts' hqs h1).2.2 t h2.1
  case unknownPrefix mult =>
    simp only [unitParse, unitTag, bind_ok_iff, pure_eq_ok, Except.ok.injEq] at hr hrt
    obtain ⟨ps, hps, rfl⟩ := hr
    obtain ⟨ts, hts, rfl⟩ := hrt
    refine ⟨?_, ?_⟩
    · intro D hD
      refine ((addParses_same D _ [] (seenIn_nil _)).trans ?_).trans (addTags_same D _ [] (seenTIn_nil _)).symm
      refine prefix_agree _ _ _ _ _ ?_ ps ts hps hts D (covered_of D _ hD)
      intro s _ qs qt h1 h2
      rw [dictTag_eq m _ _ qs qt h1 h2]
      exact ⟨TagsAgree.of_map _, Distinct.of_none (dictParse_notByEnding m _ _ _ h1)⟩
    · intro t ht
      obtain ⟨s, _, ts', h1, h2⟩ := prefixTagCands_mem _ _ _ hts t (addTags_mem _ _ t ht)
      exact hP t (dictTag_gramtab m _ _ h1 t h2.1)
  case knownSuffix => simp [UnitCfg.kind] at hk
  case unkn tag =>
    simp only [unitParse, unitTag, if_true, Except.ok.injEq] at hr hrt
    subst hr hrt
    exact ⟨fun D _ => Same.refl _ _, by simpa using hPr⟩

theorem suffixTag_gramtab (m : Morph S) (minLen : Nat) (word wl : Str) (seen : SeenTags) (rt : List Tag × SeenTags)
    (h : suffixTag m minLen word wl seen = .ok rt) : ∀ t ∈ rt.1, t ∈ m.dict.gramtab := by
  unfold suffixTag at h
  split at h
  · simp at h; subst h; simp
  · simp only [bind_ok_iff, pure_eq_ok, Except.ok.injEq] at h
    obtain ⟨r, hr, rfl⟩ := h
    intro t ht
    obtain ⟨c, hc, rfl⟩ := List.mem_map.1 ht
    replace hc := (List.mem_insertionSort _).1 hc
    clear ht
    generalize sfxPrefixes m.dict wl = ips at hr
    have dd : ∀ (cs : List SfxCand) (seen : SeenTags), ∀ x ∈ (dedupTagCands cs seen).1, ∃ c ∈ cs, c.tag = x.2 := by
      intro cs
      induction cs with
      | nil => simp [dedupTagCands]
      | cons c cs ih =>
        intro seen x hx
        rw [dedupTagCands] at hx
        split at hx
        · obtain ⟨d, hd, he⟩ := ih _ x hx; exact ⟨d, by simp [hd], he⟩
        · rcases List.mem_cons.1 hx with rfl | hx
          · exact ⟨c, by simp, rfl⟩
          · obtain ⟨d, hd, he⟩ := ih _ x hx; exact ⟨d, by simp [hd], he⟩
    have lp : ∀ (cands : Nat → Except PyErr (List SfxCand)) (is : List Nat) (seen : SeenTags) (r : List (Nat × Tag) × SeenTags),
        sfxTagLoop cands is seen = .ok r → ∀ x ∈ r.1, ∃ i cs, cands i = .ok cs ∧ ∃ c ∈ cs, c.tag = x.2 := by
      intro cands is
      induction is with
      | nil => intro seen r h; simp [sfxTagLoop] at h; subst h; simp
      | cons i is ih =>
        intro seen r h x hx
        rw [sfxTagLoop, bind_ok_iff] at h
        obtain ⟨cs, hcs, h⟩ := h
        dsimp only at h
        split at h
        · simp at h; subst h
          exact ⟨i, cs, hcs, dd _ _ x hx⟩
        · simp only [bind_ok_iff, pure_eq_ok, Except.ok.injEq] at h
          obtain ⟨r', hr', rfl⟩ := h
          rcases List.mem_append.1 hx with hx | hx
          · exact ⟨i, cs, hcs, dd _ _ x hx⟩
          · exact ih _ _ hr' x hx
    induction ips generalizing seen r with
    | nil => simp [sfxTagPrefixLoop] at hr; subst hr; simp at hc
    | cons ip ips ih =>
      simp only [sfxTagPrefixLoop, bind_ok_iff, pure_eq_ok, Except.ok.injEq] at hr
      obtain ⟨d, _, r1, hr1, r2, hr2, rfl⟩ := hr
      rcases List.mem_append.1 hc with hc | hc
      · obtain ⟨i, cs, hcs, x, hx, he⟩ := lp _ _ _ _ hr1 c hc
        obtain ⟨_, h3, _, _, _⟩ := sfxCands_mem _ _ _ _ _ _ hcs x hx
        rw [← he]
        exact tagInfo_mem h3
      · exact ih _ _ hc hr2

/-- What the groups of a default analyzer look like. -/
def TidyGroup (g : List (BUnit S)) : Prop :=
  (∀ u ∈ g, u.cfg.listwise) ∨ (∃ u, g = [u] ∧ u.cfg.kind ≠ .suff) ∨ ∃ n1 n2 a b k, g = [⟨n1, .unknownPrefix a⟩, ⟨n2, .knownSuffix b k⟩]

theorem suffixParse_byEnding (m : Morph S) (rec : Rec S) (n : Nat) (b : S) (k : Nat) (word wl : Str) (seen : Seen) (r : List (Parse S) × Seen)
    (h : unitParse m rec ⟨n, .knownSuffix b k⟩ word wl seen = .ok r) : ∀ p ∈ r.1, p.stack.byEnding = true := by
  simp only [unitParse, suffixParse] at h
  split at h
  · simp at h; subst h; simp
  · simp only [bind_ok_iff, pure_eq_ok, Except.ok.injEq] at h
    obtain ⟨r1, _, ps, hps, rfl⟩ := h
    intro p hp
    obtain ⟨c, _, hb⟩ := mapE_mem hps ((sortByScore_perm ps).mem_iff.1 hp)
    simp only [sfxBuild, bind_ok_iff, pure_eq_ok, Except.ok.injEq] at hb
    obtain ⟨nf, _, rfl⟩ := hb
    simp [Stack.byEnding, BUnit.obj, UnitCfg.kind]

theorem group_agree (P : Tag → Prop) (m : Morph S) (hd : m.dict.WF) (hP : ∀ t ∈ m.dict.gramtab, P t) (rec : Rec S) (g : List (BUnit S)) (hg : TidyGroup g)
    (hu : ∀ u ∈ g, u.cfg.properPrefixes) (word wl : Str) (hrec : rec.OrderBelow P wl) (hrecT : rec.TagsBelow wl) (ps : List (Parse S)) (ts : List Tag)
    (hps : groupParse m rec word wl g [] = .ok ps) (hts : groupTag m rec word wl g [] = .ok ts) (hPr : ∀ p ∈ ps, P p.tag) :
    TagsAgree ps ts ∧ ∀ t ∈ ts, P t := by
  rcases hg with hl | ⟨u, rfl, hk⟩ | ⟨n1, n2, a, b, k, rfl⟩
  · have := group_listwise m rec g hl word wl [] [] ps ts hps hts
    rw [this]
    refine ⟨TagsAgree.of_map _, ?_⟩
    intro t ht
    obtain ⟨p, hp, rfl⟩ := List.mem_map.1 ht
    exact hPr p hp
  · simp only [groupParse, groupTag, bind_ok_iff, pure_eq_ok, Except.ok.injEq] at hps hts
    obtain ⟨r, hr, _, rfl, rfl⟩ := hps
    obtain ⟨rt, hrt, _, rfl, rfl⟩ := hts
    simp only [List.append_nil] at hPr ⊢
    exact unit_agree P m hP rec u (hu u (by simp)) hk word wl hrec r rt hr hrt hPr
  · simp only [groupParse, groupTag, bind_ok_iff, pure_eq_ok, Except.ok.injEq] at hps hts
    obtain ⟨r1, hr1, _, ⟨r2, hr2, _, rfl, rfl⟩, rfl⟩ := hps
    obtain ⟨rt1, hrt1, _, ⟨rt2, hrt2, _, rfl, rfl⟩, rfl⟩ := hts
    simp only [List.append_nil] at hPr ⊢
    obtain ⟨a1, a2⟩ := unit_agree P m hP rec ⟨n1, .unknownPrefix a⟩ trivial (by simp [UnitCfg.kind]) word wl hrec r1 rt1 hr1 hrt1
      fun p hp => hPr p (by simp [hp])
    obtain ⟨e1, e2, e3⟩ := unit_sameTags (fun _ => False) m hd rec ⟨n1, .unknownPrefix a⟩ trivial (by simp [UnitCfg.kind]) word wl hrecT [] []
      (seenIn_nil _) (seenTIn_nil _) r1 rt1 hr1 hrt1
    have e1' : ∀ τ, InP τ r1.1 ↔ InT τ rt1.1 := fun τ => by simpa using e1 τ
    obtain ⟨f1, -, -⟩ := unit_sameTags (fun τ => InP τ r1.1) m hd rec ⟨n2, .knownSuffix b k⟩ trivial (by simp [UnitCfg.kind]) word wl hrecT r1.2 rt1.2
      (seenIn_congr (fun τ h => by simpa using h) e2) (seenTIn_congr (fun τ h => (e1' τ).2 (by simpa using h)) e3) r2 rt2 hr2 hrt2
    have hb := suffixParse_byEnding m rec n2 b k word wl _ _ hr2
    refine ⟨?_, ?_⟩
    · intro D hD
      have h1 := a1 D fun p hp => hD p (by simp [hp])
      have h2 : Same (fun x => D x || decide (x ∈ tupsP r1.1)) (tupsP r2.1) (tupsT rt2.1) := by
        apply Same.of_all
        · intro x hx
          obtain ⟨p, hp, rfl⟩ := List.mem_map.1 hx
          simp [hD p (by simp [hp]) (hb p hp)]
        · intro x hx
          obtain ⟨t, ht, rfl⟩ := List.mem_map.1 hx
          rcases (f1 t.tuple).2 (.inr ⟨t, ht, rfl⟩) with ⟨p, hp, he⟩ | ⟨p, hp, he⟩
          · have : t.tuple ∈ tupsP r1.1 := by rw [← he]; exact List.mem_map.2 ⟨p, hp, rfl⟩
            simp [this]
          · have := hD p (by simp [hp]) (hb p hp)
            rw [he] at this
            simp [this]
      have := h1.append h2
      unfold tupsP tupsT at this ⊢
      rw [List.map_append, List.map_append]
      exact this
    · intro t ht
      rcases List.mem_append.1 ht with ht | ht
      · exact a2 t ht
      · exact hP t (suffixTag_gramtab m k word wl _ _ (by simpa only [unitTag] using hrt2) t ht)

/-! ### Sorting by P(t|w) -/

theorem sorted_ext {α : Type} (key : α → Rat) (l l' : List α) (h : l.Pairwise fun a b => key b ≤ key a) (h' : l'.Pairwise fun a b => key b ≤ key a)
    (he : ∀ s : Rat, l.filter (fun a => decide (key a = s)) = l'.filter fun a => decide (key a = s)) : l = l' := by
  induction l generalizing l' with
  | nil =>
    cases l' with
    | nil => rfl
    | cons b t =>
      have := he (key b)
      simp at this
  | cons a t ih =>
    cases l' with
    | nil => have := he (key a); simp at this
    | cons b t' =>
      have m1 : a ∈ b :: t' := by
        have : a ∈ (b :: t').filter fun x => decide (key x = key a) := by rw [← he]; simp
        exact (List.mem_filter.1 this).1
      have m2 : b ∈ a :: t := by
        have : b ∈ (a :: t).filter fun x => decide (key x = key b) := by rw [he]; simp
        exact (List.mem_filter.1 this).1
      have k1 : key a ≤ key b := by
        rcases List.mem_cons.1 m1 with rfl | m1
        · exact le_refl _
        · exact (List.pairwise_cons.1 h').1 a m1
      have k2 : key b ≤ key a := by
        rcases List.mem_cons.1 m2 with rfl | m2
        · exact le_refl _
        · exact (List.pairwise_cons.1 h).1 b m2
      have hk : key a = key b := le_antisymm k1 k2
      have h0 := he (key a)
      rw [List.filter_cons, if_pos (by simp), List.filter_cons, if_pos (by simp [hk])] at h0
      injection h0 with hab _
      subst hab
      congr 1
      refine ih t' (List.pairwise_cons.1 h).2 (List.pairwise_cons.1 h').2 ?_
      intro s
      have := he s
      rw [List.filter_cons, List.filter_cons] at this
      split at this
      · injection this
      · exact this

theorem StableBy.unique {α : Type} {key : α → Rat} {l₀ l l' : List α} (h : StableBy key l₀ l) (h' : StableBy key l₀ l') : l = l' :=
  sorted_ext key l l' h.sorted h'.sorted fun s => (h.stable s).trans (h'.stable s).symm

theorem StableBy.congr {α : Type} {key key' : α → Rat} {l₀ l : List α} (h : StableBy key l₀ l) (hk : ∀ a ∈ l₀, key a = key' a) : StableBy key' l₀ l := by
  have hk' : ∀ a ∈ l, key a = key' a := fun a ha => hk a (h.perm.mem_iff.1 ha)
  refine ⟨h.perm, ?_, fun s => ?_⟩
  · refine h.sorted.imp_of_mem ?_
    intro a b ha hb hab
    rw [← hk' a ha, ← hk' b hb]; exact hab
  · have := h.stable s
    rw [List.filter_congr (q := fun a => decide (key' a = s)) (l := l) (by intro a ha; rw [hk' a ha]),
      List.filter_congr (q := fun a => decide (key' a = s)) (l := l₀) (by intro a ha; rw [hk a ha])] at this
    exact this

theorem firsts_sublist {α : Type} [DecidableEq α] (l : List α) : (firsts l).Sublist l := by
  induction l with
  | nil => exact .slnil
  | cons x l ih => exact (List.filter_sublist.trans ih).cons_cons x

theorem StableBy.firsts {α : Type} [DecidableEq α] {key : α → Rat} {l₀ l : List α} (h : StableBy key l₀ l) : StableBy key (Verif.firsts l₀) (Verif.firsts l) := by
  refine ⟨?_, h.sorted.sublist (firsts_sublist l), fun s => ?_⟩
  · rw [List.perm_ext_iff_of_nodup (firsts_nodup l) (firsts_nodup l₀)]
    intro a
    rw [mem_firsts, mem_firsts, h.perm.mem_iff]
  · rw [← firsts_filter, ← firsts_filter, h.stable s]

theorem StableBy.filter {α : Type} {key : α → Rat} {l₀ l : List α} (h : StableBy key l₀ l) (q : α → Bool) : StableBy key (l₀.filter q) (l.filter q) := by
  refine ⟨h.perm.filter q, h.sorted.sublist List.filter_sublist, fun s => ?_⟩
  have e : ∀ x : List α, (x.filter q).filter (fun a => decide (key a = s)) = (x.filter fun a => decide (key a = s)).filter q := by
    intro x; rw [List.filter_filter, List.filter_filter]; apply List.filter_congr; intro a _; exact Bool.and_comm _ _
  rw [e, e, h.stable s]

theorem Same.stable {D : List Str → Bool} {A B A' B' : List (List Str)} {key : List Str → Rat} (h : Same D A B) (hA : StableBy key A A') (hB : StableBy key B B') :
    Same D A' B' := by
  have h1 := (hA.filter fun x => !D x).firsts
  have h2 := (hB.filter fun x => !D x).firsts
  unfold Same at *
  rw [h] at h1
  exact h1.unique h2

/-! ### The default analyzers -/

theorem default_tidy (m : Morph S) (hm : IsRu m ∨ IsUk m) : ∃ groups, IsGroups groups m.units ∧
    (∀ g ∈ groups, ∀ u ∈ g, u.cfg.properPrefixes) ∧ (∀ g ∈ groups, UnknAlone g) ∧ (∀ g ∈ groups, TidyGroup g) ∧
    ∀ g ∈ groups, (∀ u ∈ g, u.cfg.kind.predicts = true) ∨ ∀ u ∈ g, u.cfg.kind.predicts = false := by
  have hp := default_properPrefixes m hm
  have fin : ∀ groups : List (List (BUnit S)), IsGroups groups m.units → (∀ g ∈ groups, UnknAlone g ∧ TidyGroup g ∧
      ((∀ u ∈ g, u.cfg.kind.predicts = true) ∨ ∀ u ∈ g, u.cfg.kind.predicts = false)) → ∃ groups, IsGroups groups m.units ∧
      (∀ g ∈ groups, ∀ u ∈ g, u.cfg.properPrefixes) ∧ (∀ g ∈ groups, UnknAlone g) ∧ (∀ g ∈ groups, TidyGroup g) ∧
      ∀ g ∈ groups, (∀ u ∈ g, u.cfg.kind.predicts = true) ∨ ∀ u ∈ g, u.cfg.kind.predicts = false := by
    intro groups hgr h
    refine ⟨groups, hgr, ?_, fun g hg => (h g hg).1, fun g hg => (h g hg).2.1, fun g hg => (h g hg).2.2⟩
    intro g hg u hug
    obtain ⟨t, ht⟩ := (mem_of_isGroups hgr u).2 ⟨g, hg, hug⟩
    exact hp (u, t) ht
  have single : ∀ u : BUnit S, u.cfg.kind ≠ .suff → UnknAlone [u] ∧ TidyGroup [u] ∧
      ((∀ v ∈ [u], v.cfg.kind.predicts = true) ∨ ∀ v ∈ [u], v.cfg.kind.predicts = false) := by
    intro u hk
    refine ⟨?_, .inr (.inl ⟨u, rfl, hk⟩), ?_⟩
    · obtain ⟨n, cfg⟩ := u
      cases cfg <;> first | exact .inr ⟨n, _, rfl⟩ | exact .inl (by simp [UnitCfg.kind])
    · cases h : u.cfg.kind.predicts
      · exact .inr (by simpa using h)
      · exact .inl (by simpa using h)
  have lw : ∀ g : List (BUnit S), (∀ u ∈ g, u.cfg.listwise) → UnknAlone g ∧ TidyGroup g ∧
      ((∀ v ∈ g, v.cfg.kind.predicts = true) ∨ ∀ v ∈ g, v.cfg.kind.predicts = false) := by
    intro g h
    refine ⟨.inl ?_, .inl h, .inr ?_⟩ <;> intro u hu <;> have := h u hu <;> revert this <;> cases u.cfg <;>
      simp [UnitCfg.listwise, UnitCfg.kind, UKind.predicts]
  have gs : ∀ (n1 n2 : Nat) (a b : S) (k : Nat), UnknAlone [⟨n1, .unknownPrefix a⟩, ⟨n2, .knownSuffix b k⟩] ∧ TidyGroup [⟨n1, .unknownPrefix a⟩, ⟨n2, .knownSuffix b k⟩] ∧
      ((∀ v ∈ [(⟨n1, .unknownPrefix a⟩ : BUnit S), ⟨n2, .knownSuffix b k⟩], v.cfg.kind.predicts = true) ∨
        ∀ v ∈ [(⟨n1, .unknownPrefix a⟩ : BUnit S), ⟨n2, .knownSuffix b k⟩], v.cfg.kind.predicts = false) := by
    intro n1 n2 a b k
    exact ⟨.inl (by simp [UnitCfg.kind]), .inr (.inr ⟨n1, n2, a, b, k, rfl⟩), .inl (by simp [UnitCfg.kind, UKind.predicts])⟩
  rcases hm with ⟨cls, hm⟩ | ⟨cls, hm⟩
  · refine fin [[⟨0, .dictionary⟩, ⟨1, (UnitSpec.firstName ruInitialLetters firstNamePattern (dec 1 10)).bound⟩,
      ⟨2, (UnitSpec.patronymic ruInitialLetters patronymicPattern (dec 1 10)).bound⟩],
     [⟨3, (UnitSpec.number (dec 9 10)).bound⟩], [⟨4, (UnitSpec.punct (dec 9 10)).bound⟩],
     [⟨5, (UnitSpec.roman (dec 9 10)).bound⟩, ⟨6, (UnitSpec.latin (dec 9 10)).bound⟩],
     [⟨7, .particle ruData.particles (dec 9 10)⟩], [⟨8, (UnitSpec.adverb (dec 7 10)).bound⟩],
     [⟨9, .hyphenated ruData.prefixes (dec 75 100)⟩], [⟨10, .knownPrefix ruData.prefixes (dec 75 100) 3⟩],
     [⟨11, .unknownPrefix (dec 5 10)⟩, ⟨12, .knownSuffix (dec 5 10) 4⟩], [⟨13, .unkn ⟨c!"UNKN"⟩⟩]] (mkMorph_units hm).2.2.2.2 ?_
    intro g hg
    simp only [List.mem_cons, List.not_mem_nil, or_false] at hg
    rcases hg with rfl | rfl | rfl | rfl | rfl | rfl | rfl | rfl | rfl | rfl
    · exact lw _ (by simp [UnitSpec.bound, UnitCfg.listwise])
    · exact lw _ (by simp [UnitSpec.bound, UnitCfg.listwise])
    · exact lw _ (by simp [UnitSpec.bound, UnitCfg.listwise])
    · exact lw _ (by simp [UnitSpec.bound, UnitCfg.listwise])
    · exact single _ (by simp [UnitCfg.kind])
    · exact single _ (by simp [UnitSpec.bound, UnitCfg.kind])
    · exact single _ (by simp [UnitCfg.kind])
    · exact single _ (by simp [UnitCfg.kind])
    · exact gs _ _ _ _ _
    · exact single _ (by simp [UnitCfg.kind])
  · refine fin [[⟨0, .dictionary⟩, ⟨1, (UnitSpec.firstName ukInitialLetters firstNamePattern (dec 1 10)).bound⟩,
      ⟨2, (UnitSpec.patronymic ukInitialLetters patronymicPattern (dec 1 10)).bound⟩,
      ⟨3, (UnitSpec.roman (dec 9 10)).bound⟩, ⟨4, (UnitSpec.latin (dec 9 10)).bound⟩],
     [⟨5, (UnitSpec.number (dec 9 10)).bound⟩], [⟨6, (UnitSpec.punct (dec 9 10)).bound⟩],
     [⟨7, .particle ukData.particles (dec 9 10)⟩],
     [⟨8, .hyphenated ukData.prefixes (dec 75 100)⟩], [⟨9, .knownPrefix ukData.prefixes (dec 75 100) 3⟩],
     [⟨10, .unknownPrefix (dec 5 10)⟩, ⟨11, .knownSuffix (dec 5 10) 4⟩], [⟨12, .unkn ⟨c!"UNKN"⟩⟩]] (mkMorph_units hm).2.2.2.2 ?_
    intro g hg
    simp only [List.mem_cons, List.not_mem_nil, or_false] at hg
    rcases hg with rfl | rfl | rfl | rfl | rfl | rfl | rfl | rfl
    · exact lw _ (by simp [UnitSpec.bound, UnitCfg.listwise])
    · exact lw _ (by simp [UnitSpec.bound, UnitCfg.listwise])
    · exact lw _ (by simp [UnitSpec.bound, UnitCfg.listwise])
    · exact single _ (by simp [UnitCfg.kind])
    · exact single _ (by simp [UnitCfg.kind])
    · exact single _ (by simp [UnitCfg.kind])
    · exact gs _ _ _ _ _
    · exact single _ (by simp [UnitCfg.kind])

theorem hyphen_notByEnding (rec : Rec S) (u : UObj) (skip : List Str) (mult : S) (wl : Str) (ps : List (Parse S))
    (h : hyphenParse rec u skip mult wl = .ok ps) : ∀ p ∈ ps, p.stack.byEnding = false := by
  intro p hp
  unfold hyphenParse at h
  split at h
  · simp only [bind_ok_iff, pure_eq_ok, Except.ok.injEq] at h
    obtain ⟨lp, _, rp, _, rfl⟩ := h
    rcases List.mem_append.1 hp with hp | hp
    · obtain ⟨l, _, hp⟩ := List.mem_flatMap.1 hp
      split at hp
      · simp at hp
      · obtain ⟨r, _, rfl⟩ := List.mem_map.1 hp
        rfl
    · obtain ⟨r, _, rfl⟩ := List.mem_map.1 hp
      rfl
  · simp at h; subst h; simp at hp

/-- Only units that predict give analyses predicted by the ending. -/
theorem unitParse_byEnding (m : Morph S) (rec : Rec S) (u : BUnit S) (word wl : Str) (seen : Seen) (r : List (Parse S) × Seen)
    (h : unitParse m rec u word wl seen = .ok r) (hk : u.cfg.kind.predicts = false) : ∀ p ∈ r.1, p.stack.byEnding = false := by
  intro p hp
  obtain ⟨n, cfg⟩ := u
  have init : ∀ (k : UKind) (letters : List Str) (tags : List Tag) (s : S), k ≠ .suff → p ∈ initialsParse ⟨2 * n, k⟩ letters tags s word wl → p.stack.byEnding = false := by
    intro k letters tags s hk' hp
    unfold initialsParse at hp
    split at hp
    · obtain ⟨t, _, rfl⟩ := List.mem_map.1 hp
      simp [Stack.byEnding, Stack.single, hk']
    · simp at hp
  have shape : ∀ (s : S) (o : Option Tag), p ∈ shapeParse ⟨2 * n, .shape⟩ s word wl o → p.stack.byEnding = false := by
    intro s o hp
    cases o with
    | none => simp [shapeParse] at hp
    | some t => simp only [shapeParse, List.mem_singleton] at hp; subst hp; simp [Stack.byEnding, Stack.single]
  cases cfg <;> simp only [UnitCfg.kind, UKind.predicts, Bool.true_eq_false] at hk <;>
    simp only [unitParse, bind_ok_iff, pure_eq_ok, Except.ok.injEq] at h
  case dictionary =>
    obtain ⟨ps, hps, rfl⟩ := h
    exact dictParse_notByEnding m _ wl ps hps p hp
  case firstName => subst h; exact init (UKind.firstName _ _) _ _ _ (by simp) hp
  case patronymic => subst h; exact init (UKind.patronymic _) _ _ _ (by simp) hp
  case number | punct | latin | roman => obtain ⟨t, _, rfl⟩ := h; exact shape _ _ hp
  case adverb =>
    obtain ⟨b, _, rfl⟩ := h
    cases b
    · simp at hp
    · simp only [if_true, List.mem_singleton] at hp
      subst hp; simp [Stack.byEnding, Stack.single, BUnit.obj, UnitCfg.kind]
  case hyphenated =>
    obtain ⟨ps, hps, rfl⟩ := h
    exact hyphen_notByEnding _ _ _ _ _ _ hps p hp
  case unkn =>
    subst h
    dsimp only at hp
    split at hp
    · simp only [List.mem_singleton] at hp; subst hp; simp [Stack.byEnding, Stack.single, BUnit.obj, UnitCfg.kind]
    · simp at hp

theorem parse_distinct (m : Morph S) (hm : IsRu m ∨ IsUk m) (hlow : m.env.LowerStable) (w : Str) (ps : List (Parse S)) (h : m.parse w = .ok ps) : Distinct ps := by
  rintro ⟨p, hp, hb⟩
  have hkeys := c08_parse_keys m w ps h
  rw [(parse_unfold m hlow (default_properPrefixes m hm) w).1] at h
  obtain ⟨res, hres, hperm⟩ := parseStep_core m _ w ps h
  obtain ⟨groups, hg, _, _, _, hh⟩ := default_tidy m hm
  rw [runParse_eq_firstGroup m _ w _ _ _ hg, firstGroup_iff] at hres
  have find : ∀ p ∈ ps, ∃ q ∈ res, q.stack = p.stack := by
    intro p hp
    have : p.core ∈ res.map Parse.core := hperm.mem_iff.1 (List.mem_map.2 ⟨p, hp, rfl⟩)
    obtain ⟨q, hq, hqp⟩ := List.mem_map.1 this
    exact ⟨q, hq, by simp only [Parse.core, Prod.mk.injEq] at hqp; exact hqp.2.2.2⟩
  rcases hres with ⟨_, b, g, a, he, _, hrun⟩ | ⟨rfl, _⟩
  · have hg1 : ∀ u ∈ g, u.cfg.kind.predicts = true := by
      rcases hh g (by simp [he]) with h1 | h1
      · exact h1
      · obtain ⟨q, hq, hst⟩ := find p hp
        obtain ⟨u, hu, s, r, hr, hqr⟩ := groupParse_mem _ _ _ _ _ _ _ hrun q hq
        have := unitParse_byEnding m _ u w _ s r hr (h1 u hu) q hqr
        rw [hst, hb] at this
        simp at this
    have hall : ∀ p ∈ ps, p.predicted = true ∧ p.stack ≠ .nil := by
      intro p hp
      obtain ⟨q, hq, hst⟩ := find p hp
      obtain ⟨u, hu, s, r, hr, hqr⟩ := groupParse_mem _ _ _ _ _ _ _ hrun q hq
      have ho := unitParse_outer _ _ _ _ _ _ _ hr q hqr
      have hpo : p.outer = some u.obj := by unfold Parse.outer at ho ⊢; rw [← hst]; exact ho
      refine ⟨by simp [Parse.predicted, hpo, BUnit.obj, hg1 u hu], ?_⟩
      intro hn
      simp [Parse.outer, hn] at hpo
    rw [List.filter_eq_self.2 fun p hp => (hall p hp).1] at hkeys
    exact ⟨List.pairwise_map.2 hkeys, fun p hp => (hall p hp).2⟩
  · obtain ⟨q, hq, _⟩ := find p hp
    simp at hq

/-- Possible tags that are equal are written in the same way: `NOUN,anim sing` and `NOUN anim,sing` are not both in the dictionary. (Needed only
because the P(t|w) table is asked by the text of the tag.) -/
def Morph.PlainTags (m : Morph S) : Prop := ∀ t t', PossibleTag m t → PossibleTag m t' → t.eqv t' = true → t = t'

theorem parse_agree (m : Morph Rat) (hm : IsRu m ∨ IsUk m) (hlow : m.env.LowerStable) (hd : m.dict.WF) (hpl : m.est = none ∨ m.PlainTags) (w : Str)
    (ps : List (Parse Rat)) (ts : List Tag) (hps : m.parse w = .ok ps) (hts : m.tag w = .ok ts) : TagsAgree ps ts ∧ ∀ t ∈ ts, PossibleTag m t := by
  obtain ⟨groups, hgr, hu, hk, ht, -⟩ := default_tidy m hm
  have hu' := default_properPrefixes m hm
  generalize hn : (m.env.lower w).length = n
  induction n using Nat.strongRecOn generalizing w ps ts with
  | _ n ih =>
  subst hn
  have hposs := c95_possible m hm hlow w ps hps
  obtain ⟨e1, e2⟩ := parse_unfold m hlow hu' w
  rw [e1] at hps
  rw [e2] at hts
  obtain ⟨res, hres, so⟩ := parse_order m _ w ps hps
  obtain ⟨rest, hrest, soT⟩ := tag_order m _ w ts hts
  rw [runParse_eq_firstGroup _ _ _ _ _ _ hgr] at hres
  rw [runTag_eq_firstGroup _ _ _ _ _ _ hgr] at hrest
  have hrecT : Rec.TagsBelow (m.env.lower w) ⟨m.parse, m.tag⟩ := fun x _ _ ps ts h1 h2 => parse_tag_sameTags m hlow hd groups hgr hu hk x ps ts h1 h2
  have hrec : Rec.OrderBelow (PossibleTag m) (m.env.lower w) ⟨m.parse, m.tag⟩ := by
    intro x hx hl ps ts h1 h2
    have e : m.env.lower x = x := hlow w x hx
    obtain ⟨i1, i2⟩ := ih _ (by rw [e]; exact hl) x ps ts h1 h2 rfl
    exact ⟨i1, parse_distinct m hm hlow x ps h1, i2⟩
  have hmemP : ∀ q ∈ res, ∃ p ∈ ps, p.core = q.core := by
    intro q hq
    have : q.core ∈ ps.map Parse.core := so.perm.mem_iff.2 (List.mem_map.2 ⟨q, hq, rfl⟩)
    exact List.mem_map.1 this
  have hresP : ∀ q ∈ res, PossibleTag m q.tag := by
    intro q hq
    obtain ⟨p, hp, he⟩ := hmemP q hq
    have := hposs p hp Sim.exact p .start
    simp only [Parse.core, Prod.mk.injEq] at he
    rwa [he.2.1] at this
  -- the answering group
  have main : TagsAgree res rest ∧ ∀ t ∈ rest, PossibleTag m t := by
    clear so soT hmemP e1 e2 hps hts hposs
    have hnil : ∀ g ∈ groups, ∀ r rt, groupParse m ⟨m.parse, m.tag⟩ w (m.env.lower w) g [] = .ok r → groupTag m ⟨m.parse, m.tag⟩ w (m.env.lower w) g [] = .ok rt →
        (r = [] ↔ rt = []) := by
      intro g hg r rt h1 h2
      rcases hk g hg with hk | ⟨n, t, rfl⟩
      · exact group_nil m hd _ w hrecT g (hu g hg) hk r rt h1 h2
      · obtain ⟨u1, u2⟩ := unkn_run m (⟨m.parse, m.tag⟩ : Rec Rat) w (m.env.lower w) n t
        rw [u1] at h1; rw [u2] at h2
        simp at h1 h2; subst h1 h2
        simp
    have go : ∀ gs : List (List (BUnit Rat)), (∀ g ∈ gs, g ∈ groups) →
        firstGroup (fun g => groupParse m ⟨m.parse, m.tag⟩ w (m.env.lower w) g []) gs = .ok res →
        firstGroup (fun g => groupTag m ⟨m.parse, m.tag⟩ w (m.env.lower w) g []) gs = .ok rest → TagsAgree res rest ∧ ∀ t ∈ rest, PossibleTag m t := by
      intro gs hsub h1 h2
      induction gs with
      | nil => simp [firstGroup] at h1 h2; subst h1 h2; exact ⟨fun D _ => Same.refl _ _, by simp⟩
      | cons g gs ihg =>
        simp only [firstGroup, bind_ok_iff] at h1 h2
        obtain ⟨r, hr, h1⟩ := h1
        obtain ⟨rt, hrt, h2⟩ := h2
        have hn := hnil g (hsub g (by simp)) r rt hr hrt
        cases r with
        | nil =>
          have : rt = [] := hn.1 rfl
          subst this
          exact ihg (fun g hg => hsub g (by simp [hg])) h1 h2
        | cons a as =>
          cases rt with
          | nil => simp at hn
          | cons b bs =>
            simp at h1 h2; subst h1 h2
            exact group_agree (PossibleTag m) m hd (fun t ht => .inl ht) _ g (ht g (hsub g (by simp))) (hu g (hsub g (by simp))) w _ hrec hrecT _ _ hr hrt hresP
    exact go groups (fun _ h => h) hres hrest
  obtain ⟨hag, hposT⟩ := main
  refine ⟨?_, fun t ht => hposT t (soT.perm.mem_iff.1 ht)⟩
  intro D hD
  have h0 : Same D (tupsP res) (tupsT rest) := by
    apply hag
    intro q hq hb
    obtain ⟨p, hp, he⟩ := hmemP q hq
    simp only [Parse.core, Prod.mk.injEq] at he
    rw [← he.2.1]
    exact hD p hp (by rw [he.2.2.2]; exact hb)
  -- the stored probability depends on the tag as such
  classical
  have hfun : ∃ κ : List Str → Rat, ∀ t, PossibleTag m t → m.prior (m.env.lower w) t = κ t.tuple := by
    refine ⟨fun τ => if h : ∃ t, PossibleTag m t ∧ t.tuple = τ then m.prior (m.env.lower w) h.choose else 0, ?_⟩
    intro t ht
    have hex : ∃ t', PossibleTag m t' ∧ t'.tuple = t.tuple := ⟨t, ht, rfl⟩
    dsimp only
    rw [dif_pos hex]
    rcases hpl with hpl | hpl
    · simp [Morph.prior, hpl]
    · exact congrArg (m.prior (m.env.lower w)) (hpl t hex.choose ht hex.choose_spec.1 (by simp [Tag.eqv, hex.choose_spec.2]))
  obtain ⟨κ, hκ⟩ := hfun
  have sP : StableBy κ (tupsP res) (tupsP ps) := by
    have h1 : StableBy (fun c : Str × Tag × Str × Stack => κ c.2.1.tuple) (res.map Parse.core) (ps.map Parse.core) := by
      refine so.congr ?_
      intro c hc
      obtain ⟨q, hq, rfl⟩ := List.mem_map.1 hc
      exact hκ _ (hresP q hq)
    have := StableBy.of_map (f := fun c : Str × Tag × Str × Stack => c.2.1.tuple) h1
    rw [List.map_map, List.map_map] at this
    exact this
  have sT : StableBy κ (tupsT rest) (tupsT ts) :=
    StableBy.of_map (f := Tag.tuple) (soT.congr fun t ht => hκ t (hposT t ht))
  exact h0.stable sP sT

/-! ### C106 -/

/-- **C106.** Leave out the tags of the analyses predicted by the ending of the word: the other tags are answered by `parse(w)` and by `tag(w)` in the
same order (repetitions in the answer of `parse` aside). -/
theorem c106_same_order (m : Morph Rat) (hm : IsRu m ∨ IsUk m) (hlow : m.env.LowerStable) (hd : m.dict.WF) (hpl : m.est = none ∨ m.PlainTags) (w : Str)
    (ps : List (Parse Rat)) (ts : List Tag) (hps : m.parse w = .ok ps) (hts : m.tag w = .ok ts) :
    firsts (((ps.map Parse.tag).filter (notByEnding ps)).map Tag.tuple) = firsts ((ts.filter (notByEnding ps)).map Tag.tuple) := by
  have h := (parse_agree m hm hlow hd hpl w ps ts hps hts).1 (fun τ => ps.any fun p => p.stack.byEnding && decide (p.tag.tuple = τ))
    (by
      intro p hp hb
      exact List.any_eq_true.2 ⟨p, hp, by simp [hb]⟩)
  unfold Same tupsP tupsT at h
  have e : (fun p : Parse Rat => p.tag.tuple) = Tag.tuple ∘ Parse.tag := rfl
  have e2 : ((fun x => !(ps.any fun p => p.stack.byEnding && decide (p.tag.tuple = x))) ∘ Tag.tuple) = notByEnding ps := by
    funext t
    simp only [Function.comp, notByEnding, Tag.eqv]
    congr 2
    funext p
    by_cases hh : p.tag.tuple = t.tuple <;> simp [hh]
  have e3 : ∀ l : List Tag, (l.map Tag.tuple).filter (fun x => !(ps.any fun p => p.stack.byEnding && decide (p.tag.tuple = x))) =
      (l.filter (notByEnding ps)).map Tag.tuple := by
    intro l
    rw [List.filter_map, e2]
  rw [e, ← List.map_map] at h
  exact (congrArg firsts (e3 _)).symm.trans (h.trans (congrArg firsts (e3 _)))

/-- When nothing was predicted by the ending, `tag(w)` has the tags of `parse(w)`, in the order of their first occurrences; in particular
`parse(w)[0].tag == tag(w)[0]`. -/
theorem c106_first (m : Morph Rat) (hm : IsRu m ∨ IsUk m) (hlow : m.env.LowerStable) (hd : m.dict.WF) (hpl : m.est = none ∨ m.PlainTags) (w : Str)
    (ps : List (Parse Rat)) (ts : List Tag) (hps : m.parse w = .ok ps) (hts : m.tag w = .ok ts) (hno : ∀ p ∈ ps, p.stack.byEnding = false) :
    firsts (ps.map fun p => p.tag.tuple) = firsts (ts.map Tag.tuple) ∧
    ∃ p t, ps.head? = some p ∧ ts.head? = some t ∧ p.tag.eqv t = true := by
  have h := c106_same_order m hm hlow hd hpl w ps ts hps hts
  have e : notByEnding ps = fun _ => true := by
    funext t
    unfold notByEnding
    rw [Bool.not_eq_true', List.any_eq_false]
    intro p hp
    simp [hno p hp]
  rw [e] at h
  simp only [List.filter_true, List.map_map] at h
  refine ⟨h, ?_⟩
  have hne := default_parse_ne m hm hlow w ps hps
  have h2 := congrArg List.head? h
  rw [firsts_head?, firsts_head?] at h2
  cases ps with
  | nil => exact absurd rfl hne
  | cons p ps =>
    cases ts with
    | nil => simp at h2
    | cons t ts =>
      refine ⟨p, t, rfl, rfl, ?_⟩
      simpa [Tag.eqv] using h2

theorem core_any {S₁ S₂ : Type} [Score S₁] [Score S₂] : ∀ (ps : List (Parse S₁)) (qs : List (Parse S₂)), ps.map Parse.core = qs.map Parse.core → ∀ t,
    (ps.any fun p => p.stack.byEnding && p.tag.eqv t) = qs.any fun p => p.stack.byEnding && p.tag.eqv t := by
  intro ps
  induction ps with
  | nil => intro qs h t; cases qs with
    | nil => rfl
    | cons q qs => simp at h
  | cons p ps ih => intro qs h t; cases qs with
    | nil => simp at h
    | cons q qs =>
      rw [List.map_cons, List.map_cons, List.cons.injEq] at h
      have hf := CoreEq.fields h.1
      rw [List.any_cons, List.any_cons, ih qs h.2 t, hf.2.1, hf.2.2.2]

/-- The order of the tags depends on the analyses only through the tags and how they were found. -/
theorem core_notByEnding {S₁ S₂ : Type} [Score S₁] [Score S₂] (ps : List (Parse S₁)) (qs : List (Parse S₂)) (h : ps.map Parse.core = qs.map Parse.core) :
    notByEnding ps = notByEnding qs ∧ ps.map Parse.tag = qs.map Parse.tag := by
  refine ⟨?_, ?_⟩
  · funext t
    unfold notByEnding
    rw [core_any ps qs h t]
  · have := congrArg (List.map fun c : Str × Tag × Str × Stack => c.2.1) h
    rw [List.map_map, List.map_map] at this
    exact this

/-- The same with the scores of a real run: floats (`Dbl`), as long as the counts of the dictionary and of the P(t|w) data are below 2^50, and floats of
bounded range (`B64`), under the conditions of C100. -/
theorem c106_floats (m : Morph Rat) (d : Morph Dbl) (b : Morph B64) (h : SameCall m d) (h64 : SameCall64 d b) (hlow : m.env.LowerStable) (hd : m.dict.WF)
    (hpl : m.est = none ∨ m.PlainTags) (hc : m.dict.SmallCounts m.sub) (he : ∀ dawg, m.est = some dawg → ∀ e ∈ dawg, e.2 ≤ 1000000) (w : Str) :
    (∀ ps ts, d.parse w = .ok ps → d.tag w = .ok ts →
      firsts (((ps.map Parse.tag).filter (notByEnding ps)).map Tag.tuple) = firsts ((ts.filter (notByEnding ps)).map Tag.tuple)) ∧
    (Moderate d w → ∀ ps ts, b.parse w = .ok ps → b.tag w = .ok ts →
      firsts (((ps.map Parse.tag).filter (notByEnding ps)).map Tag.tuple) = firsts ((ts.filter (notByEnding ps)).map Tag.tuple)) := by
  obtain ⟨hp, ht, -⟩ := c73_same_analyses m d h hc (fun g hg e heg => lt_of_le_of_lt (he g hg e heg) (by norm_num)) w
  have hdbl : ∀ ps ts, d.parse w = .ok ps → d.tag w = .ok ts →
      firsts (((ps.map Parse.tag).filter (notByEnding ps)).map Tag.tuple) = firsts ((ts.filter (notByEnding ps)).map Tag.tuple) := by
    intro ps ts hps hts
    rw [hps] at hp
    cases hq : m.parse w with
    | error e => rw [hq] at hp; cases hp
    | ok qs =>
      rw [hq] at hp
      obtain ⟨h1, h2⟩ := core_notByEnding ps qs (by simpa [Except.map] using hp)
      rw [h1, h2]
      exact c106_same_order m h.default hlow hd hpl w qs ts hq (ht ▸ hts)
  refine ⟨hdbl, fun hw ps ts hps hts => ?_⟩
  obtain ⟨hp', ht', -⟩ := c100_same d b h64 (by rw [h.eq]; exact hlow) (by rw [h.eq]; exact hc) (by rw [h.eq]; exact he) w hw
  · rw [hps] at hp'
    cases hq : d.parse w with
    | error e => rw [hq] at hp'; cases hp'
    | ok qs =>
      rw [hq] at hp'
      have hcore : ps.map Parse.core = qs.map Parse.core := by
        have : (ps.map fun p => (p.core, p.score)) = qs.map fun p => (p.core, B64.fin p.score.val) := by simpa [Except.map] using hp'
        have := congrArg (List.map Prod.fst) this
        rw [List.map_map, List.map_map] at this
        exact this
      obtain ⟨h1, h2⟩ := core_notByEnding ps qs hcore
      rw [h1, h2]
      exact hdbl qs ts hq (ht' ▸ hts)

/-- Every tag in the answer of `tag` is, as a text, one of the dictionary's or one of the fixed list (`c95_tag` has this up to `==`). -/
theorem c106_tag_possible (m : Morph Rat) (hm : IsRu m ∨ IsUk m) (hlow : m.env.LowerStable) (hd : m.dict.WF) (hpl : m.est = none ∨ m.PlainTags) (w : Str)
    (ps : List (Parse Rat)) (ts : List Tag) (hps : m.parse w = .ok ps) (hts : m.tag w = .ok ts) : ∀ t ∈ ts, PossibleTag m t :=
  (parse_agree m hm hlow hd hpl w ps ts hps hts).2

/-- Two tags with the same grammemes in the same order are the same text, for the tags that can be answered. -/
theorem plainTags_of (m : Morph S) (h : ∀ t ∈ (m.dict.gramtab ++ (c!"ADVB" :: nonDictionaryTags).map Tag.mk),
    ∀ t' ∈ (m.dict.gramtab ++ (c!"ADVB" :: nonDictionaryTags).map Tag.mk), t.eqv t' = true → t = t') : m.PlainTags := by
  have key : ∀ t, PossibleTag m t → t ∈ m.dict.gramtab ++ (c!"ADVB" :: nonDictionaryTags).map Tag.mk := by
    rintro ⟨t⟩ (h | h | ⟨_, h⟩)
    · exact List.mem_append_left _ h
    · exact List.mem_append_right _ (List.mem_map.2 ⟨t, List.mem_cons_of_mem _ h, rfl⟩)
    · exact List.mem_append_right _ (List.mem_map.2 ⟨t, by rw [show t = c!"ADVB" from h]; exact List.mem_cons_self .., rfl⟩)
  exact fun t t' ht ht' => h t (key t ht) t' (key t' ht')

/-- The restriction is needed: for analyses predicted by the ending the orders may differ, and so may the first tags. -/
theorem c106_needed : ∃ (m : Morph Rat) (w : Str) (ps : List (Parse Rat)) (ts : List Tag), m.dict.WF ∧ m.env.LowerStable ∧ (IsRu m ∨ IsUk m) ∧
    m.parse w = .ok ps ∧ m.tag w = .ok ts ∧ (∀ p ∈ ps, p.stack.byEnding = true) ∧
    (∀ p t, ps.head? = some p → ts.head? = some t → p.tag.eqv t = false) := by
  obtain ⟨ps, hps, hk⟩ := ok_of_any (Demo.morph74.parse (c!"пышка"))
    (fun ps => decide ((∀ p ∈ ps, p.stack.byEnding = true) ∧ (ps.map fun p => p.tag.str).head? = some (c!"ADJF,Qual masc,sing,nomn"))) (by decide +kernel)
  obtain ⟨ts, hts, hk2⟩ := ok_of_any (Demo.morph74.tag (c!"пышка"))
    (fun ts => decide ((ts.map Tag.str).head? = some (c!"NOUN,anim,femn sing,nomn"))) (by decide +kernel)
  obtain ⟨h1, h2⟩ := of_decide_eq_true hk
  refine ⟨Demo.morph74, _, ps, ts, Demo.dict74_wf, demoEnv_lowerStable,   .inl (Demo.isRu_of _ _), hps, hts, h1, ?_⟩
  intro p t hp ht
  rw [List.head?_map, hp] at h2
  have h3 := of_decide_eq_true hk2
  rw [List.head?_map, ht] at h3
  simp only [Option.map_some, Option.some.injEq] at h2 h3
  have : (Tag.mk (c!"ADJF,Qual masc,sing,nomn")).eqv ⟨c!"NOUN,anim,femn sing,nomn"⟩ = false := by decide +kernel
  have e1 : p.tag = ⟨c!"ADJF,Qual masc,sing,nomn"⟩ := by cases hq : p.tag; rw [hq] at h2; exact congrArg Tag.mk h2
  have e2 : t = ⟨c!"NOUN,anim,femn sing,nomn"⟩ := by cases t; exact congrArg Tag.mk h3
  rw [e1, e2]; exact this

/-! ### Non-vacuity -/

/-- A dictionary with two readings of one word and two lines for one ending, and P(t|w) data that prefer the second reading. -/
def Demo.morph106 : Morph Rat :=
  { Demo.morph74 with
    dict := { Demo.dict74 with
              words := [(c!"белому", (1, 1)), (c!"белый", (1, 0)), (c!"ежи", (3, 1)), (c!"кошек", (0, 1)), (c!"кошка", (0, 0)), (c!"кошка", (4, 0)),
                (c!"что", (2, 0)), (c!"ёж", (3, 0))] }
    est := some [(c!"суперкошка:ADJF,Qual masc,sing,nomn", 700000), (c!"суперкошка:NOUN,anim,femn sing,nomn", 300000)] }

theorem Demo.morph106_wf : Demo.morph106.dict.WF := Dict.check_wf _ (by decide +kernel)
theorem Demo.morph106_isRu : IsRu Demo.morph106 := Demo.isRu_of _ _

/-- Its tags are written in one way only. -/
theorem Demo.morph106_plain : Demo.morph106.PlainTags := plainTags_of _ (by decide +kernel)

/-- Words with two tags, neither predicted by the ending (the word itself, with a particle, with a prefix; for the last one the P(t|w) data exchange the
two): `tag` has the same two tags in the same order. -/
example : ∀ w ∈ [c!"Кошка", c!"кошка-то", c!"суперкошка"], ∃ ps ts, Demo.morph106.parse w = .ok ps ∧ Demo.morph106.tag w = .ok ts ∧
    2 ≤ ts.length ∧ firsts (ps.map fun p => p.tag.tuple) = firsts (ts.map Tag.tuple) ∧ ∃ p t, ps.head? = some p ∧ ts.head? = some t ∧ p.tag.eqv t = true := by
  intro w hw
  obtain ⟨ps, hps, hk⟩ := ok_of_any (Demo.morph106.parse w) (fun ps => decide (∀ p ∈ ps, p.stack.byEnding = false)) (by
    have : ∀ w ∈ [c!"Кошка", c!"кошка-то", c!"суперкошка"], (Demo.morph106.parse w).toOption.any (fun ps => decide (∀ p ∈ ps, p.stack.byEnding = false)) = true := by
      decide +kernel
    exact this w hw)
  obtain ⟨ts, hts, hk2⟩ := ok_of_any (Demo.morph106.tag w) (fun ts => decide (2 ≤ ts.length)) (by
    have : ∀ w ∈ [c!"Кошка", c!"кошка-то", c!"суперкошка"], (Demo.morph106.tag w).toOption.any (fun ts => decide (2 ≤ ts.length)) = true := by
      decide +kernel
    exact this w hw)
  exact ⟨ps, ts, hps, hts, of_decide_eq_true hk2, c106_first Demo.morph106 (.inl Demo.morph106_isRu) demoEnv_lowerStable Demo.morph106_wf
    (.inr Demo.morph106_plain) _ ps ts hps hts (of_decide_eq_true hk)⟩

/-- The P(t|w) data matter: the order of the two tags is not the same for these words. -/
example : (Demo.morph106.tag (c!"кошка-то")).toOption.map (·.map fun t => t.str.take 4) = some [c!"NOUN", c!"ADJF"] ∧
    (Demo.morph106.tag (c!"суперкошка")).toOption.map (·.map fun t => t.str.take 4) = some [c!"ADJF", c!"NOUN"] := by decide +kernel

/-- With floats: this analyzer and the word `кошка-то` meet the conditions of `c106_floats`. -/
example : SameCall Demo.morph106 Demo.morph106.toDbl ∧ SameCall64 Demo.morph106.toDbl Demo.morph106.toDbl.toB64 ∧
    Demo.morph106.dict.SmallCounts Demo.morph106.sub ∧ (∀ dawg, Demo.morph106.est = some dawg → ∀ e ∈ dawg, e.2 ≤ 1000000) ∧
    Moderate Demo.morph106.toDbl (c!"кошка-то") ∧
    ((Demo.morph106.toDbl.toB64.parse (c!"кошка-то")).toOption.map fun ps => ps.length) = some 2 ∧
    ((Demo.morph106.toDbl.toB64.tag (c!"кошка-то")).toOption.map fun ts => ts.length) = some 2 := by
  refine ⟨SameCall.exists _ (.inl Demo.morph106_isRu), SameCall64.exists _ (SameCall.default' (SameCall.exists _ (.inl Demo.morph106_isRu))),
    c73_condition _ _ c05_default_targets.2.2.1 (by decide +kernel), ?_, c100_moderate _ _ (by decide +kernel) ?_, by decide +kernel, by decide +kernel⟩
  · intro dawg h
    have : dawg = [(c!"суперкошка:ADJF,Qual masc,sing,nomn", 700000), (c!"суперкошка:NOUN,anim,femn sing,nomn", 300000)] := by
      simpa using (Option.some.inj h).symm
    subst this
    decide +kernel
  · have key : ∀ x ∈ [] :: (c!"кошка-то") :: pieces (Demo.morph106.toDbl.env.lower (c!"кошка-то")),
        ((Demo.morph106.toDbl.parse x).toOption.map fun ps => decide (ps.length ≤ 1024)) ≠ some false := by decide +kernel
    intro x hx ps hps
    have hm : x ∈ [] :: (c!"кошка-то") :: pieces (Demo.morph106.toDbl.env.lower (c!"кошка-то")) := by
      rcases hx with rfl | hx
      · simp
      · by_cases hn : x = []
        · simp [hn]
        · simp [mem_pieces _ _ hx hn]
    have := key x hm
    rw [hps] at this
    by_contra hl
    exact this (by simp [Except.toOption, hl])

/-- A mixed answer: one tag is predicted by the ending and left out, the other is not. -/
example : ∃ ps ts, Demo.morph74.parse (c!"буркошка") = .ok ps ∧ Demo.morph74.tag (c!"буркошка") = .ok ts ∧ ts.length = 2 ∧
    (ts.filter (notByEnding ps)).length = 1 ∧
    firsts (((ps.map Parse.tag).filter (notByEnding ps)).map Tag.tuple) = firsts ((ts.filter (notByEnding ps)).map Tag.tuple) := by
  obtain ⟨ps, hps, hk⟩ := ok_of_any (Demo.morph74.parse (c!"буркошка"))
    (fun ps => decide (((((Demo.morph74.tag (c!"буркошка")).toOption.getD []).filter (notByEnding ps)).length = 1))) (by decide +kernel)
  obtain ⟨ts, hts, hk2⟩ := ok_of_any (Demo.morph74.tag (c!"буркошка")) (fun ts => decide (ts.length = 2)) (by decide +kernel)
  have hk := of_decide_eq_true hk
  rw [hts] at hk
  exact ⟨ps, ts, hps, hts, of_decide_eq_true hk2, hk,
    c106_same_order Demo.morph74 (.inl (Demo.isRu_of _ _)) demoEnv_lowerStable Demo.dict74_wf (.inl rfl) _ ps ts hps hts⟩

end Verif
