/-
C72 — the lexemes of known words are closed under parsing.
-/
import Verif.Props.C28
import Verif.Props.C24
import Verif.Props.C71

set_option linter.unusedSectionVars false

namespace Verif

variable {S : Type} [Score S]

/-- The dictionary unit comes first and is the only one: what the proofs below use of the configuration. -/
structure Morph.LooksUp (m : Morph S) : Prop where
  lookup : ∀ (w : Str) (ps : List (Parse S)), m.parse w = .ok ps → ∀ v para idx, (∃ p ∈ ps, p.dictEntry = some (v, para, idx)) ↔
    Spells m.sub (m.env.lower w) v ∧ (v, (para, idx)) ∈ m.dict.words
  once : m.dict.words.Nodup → m.sub.Proper → ∀ (w : Str) (ps : List (Parse S)), m.parse w = .ok ps → (ps.filterMap Parse.dictEntry).Nodup
  unit : ∀ (w : Str) (ps : List (Parse S)), m.parse w = .ok ps → ∀ p ∈ ps, ∀ u v para idx, p.stack = .single (.dict u v para idx) → u = ⟨0, .dict⟩

theorem looksUp_of (cls : TagCls) (g0 : List (UnitSpec S)) (items : List (List (UnitSpec S))) (m : Morph S)
    (hm : mkMorph m.env m.dict cls m.sub ((.dictionary :: g0) :: items) m.est = .ok m)
    (hd : ∀ sp ∈ g0 ++ items.flatten, sp.bound.kind ≠ .dict) : m.LooksUp where
  lookup w ps h := (c05_lookup _ _ _ _ _ _ _ m hm hd w ps h).1
  once hn hs w ps h := (c05_lookup _ _ _ _ _ _ _ m hm hd w ps h).2.1 hn hs
  unit := by
    intro w ps h p hp u v para idx hst
    have hent : p.dictEntry = some (v, para, idx) := by unfold Parse.dictEntry; rw [hst]; rfl
    have ho : p.outer = some u := by unfold Parse.outer; rw [hst]; rfl
    obtain ⟨g, hg, b, hb, hob, seen, r, hr, q, hq, he⟩ := result_unit hm _ w ps h p hp
    have e : b.obj = u := by rw [ho] at hob; exact (Option.some.inj hob).symm
    have hc : b.cfg = .dictionary := by
      have h0 := unitParse_group0 m _ b w _ _ r hr q hq
      have hqe : q.dictEntry = some (v, para, idx) := by
        rw [← hent]; unfold Parse.dictEntry; rw [(core_stack he).2.2.2]
      generalize b.cfg = cfg at *
      cases cfg <;> simp_all
    rw [boundGroups] at hg
    rcases List.mem_cons.1 hg with rfl | hg
    · obtain ⟨i, hi, hbi⟩ := List.mem_mapIdx.1 hb
      cases i with
      | zero => rw [← e, ← hbi]; rfl
      | succ i =>
        exfalso
        simp only [List.getElem_cons_succ] at hbi
        have hi' : i < g0.length := by simpa using hi
        refine hd g0[i] (List.mem_append.2 (.inl (List.getElem_mem _))) ?_
        rw [← hbi] at hc
        dsimp only at hc
        rw [hc]
        rfl
    · exfalso
      obtain ⟨g', hg', sp, hsp, he'⟩ := mem_boundGroups _ _ g hg b hb
      refine hd sp (List.mem_append.2 (.inr (List.mem_flatten.2 ⟨g', hg', hsp⟩))) ?_
      rw [← he', hc]
      rfl

theorem default_looksUp (m : Morph S) (hm : IsRu m ∨ IsUk m) : m.LooksUp := by
  rcases hm with ⟨cls, hm⟩ | ⟨cls, hm⟩
  · unfold ruUnits at hm
    exact looksUp_of _ _ _ m hm ru_only_dictionary
  · unfold ukUnits at hm
    exact looksUp_of _ _ _ m hm uk_only_dictionary

theorem closed_core {I : Type} [DecidableEq I] (num : I → Int) (bw : DawgBuild (Nat × Nat)) (bp : DawgBuild (Nat × Nat × Nat))
    (o : COptions) (src : Parsed I) (c : Compiled) (hc : compileParsed num bw bp o src = .ok c)
    (m : Morph S) (hm : m.LooksUp) (hlow : m.env.LowerStable) (hd : m.dict = c.toDict)
    (w : Str) (ps : List (Parse S)) (h : m.parse w = .ok ps) (p : Parse S) (hp : p ∈ ps) (hk : p.dictEntry.isSome = true) :
    ∃ fs, m.lexeme p = .ok fs ∧ ∀ f ∈ fs, ∀ w', Spells m.sub (m.env.lower w') f.word →
      m.wordIsKnown w' = true ∧ ∀ ps', m.parse w' = .ok ps' → ∃ q ∈ ps', q.core = f.core ∧ m.lexeme q = .ok fs := by
  obtain ⟨ls, h1, h2⟩ := compile_split hc
  have hwf := c30_sound bw bp o ls c h2
  obtain ⟨s, _, _, T, hw, hnd⟩ := tables_of bw bp o ls c h2
  obtain ⟨⟨v, k, i⟩, hent⟩ := Option.isSome_iff_exists.1 hk
  have hmem := ((hm.lookup w ps h v k i).1 ⟨p, hp, hent⟩).2
  rw [hd] at hmem
  obtain ⟨L, hL, stem, P, hP, hPk, r, hr, he⟩ := (T.inv.words _).1 ((hw _).1 hmem)
  dsimp only at he hr hPk
  have hpara : IsPara o.paradigmPrefixes s L k := ⟨stem, P, hP, hPk⟩
  have H := holds_of T hw hL hpara
  have hi : L[i]? = some (v, r.2.1) := by rw [lexeme_get hP, hr, he]; rfl
  -- the stack of a dictionary result
  have stk : ∀ (q : Parse S) v k i, q.dictEntry = some (v, k, i) → ∃ u, q.stack = .single (.dict u v k i) := by
    intro q v k i hq
    unfold Parse.dictEntry at hq
    split at hq
    · next u v' k' i' hst =>
      simp only [Option.some.injEq, Prod.mk.injEq] at hq
      obtain ⟨rfl, rfl, rfl⟩ := hq
      exact ⟨u, hst⟩
    · simp at hq
  obtain ⟨u, hst⟩ := stk p v k i hent
  obtain rfl := hm.unit w ps h p hp u v k i hst
  obtain ⟨e1, e2, e3⟩ := (parse_deriv m hlow _ ps h p hp).entry hst
  obtain ⟨fs, hfs, hmap⟩ := lexeme_of m T hd hwf hpara hi ⟨0, .dict⟩ rfl p e1 hst
  refine ⟨fs, hfs, ?_⟩
  obtain ⟨pl, hpl, -, hform⟩ := T.isForm hPk
  have hf0 := hform i r hr
  obtain ⟨stem', fs', hs', -, hDF, -, hlex, hagain⟩ := dictBase m (hd ▸ hwf) ⟨0, .dict⟩ rfl (hd ▸ hf0) v v p.nf
  have hsame : fs' = fs := by
    have := hlex p.tag p.score p.stack
    obtain ⟨pw, pt, pn, psc, pst⟩ := p
    dsimp only at *
    subst e1
    unfold Morph.lexeme at hfs
    dsimp only at hfs
    rw [hst] at hfs this
    rw [this] at hfs
    simpa using hfs
  subst hsame
  intro f hf w' hw'
  obtain ⟨j, pre, tag, suf, hfj, hget, hfe⟩ := hDF.mem hf
  have hLj : L[j]? = some (f.word, f.tag.str) := by rw [← hmap, List.getElem?_map, hget]; rfl
  have hstored : (f.word, (k, j)) ∈ m.dict.words := by rw [hd]; exact H.stored j _ _ hLj
  refine ⟨?_, ?_⟩
  · rw [known_iff]
    exact List.ne_nil_of_mem ((mem_lookup _ _ _ _ _).2 ⟨hw', hstored⟩)
  · intro ps' hps'
    obtain ⟨q, hq, hqe⟩ := (hm.lookup w' ps' hps' f.word k j).2 ⟨hw', hstored⟩
    obtain ⟨u', hst'⟩ := stk q _ _ _ hqe
    obtain rfl := hm.unit w' ps' hps' q hq u' _ _ _ hst'
    obtain ⟨g1, g2, g3⟩ := (parse_deriv m hlow _ ps' hps' q hq).entry hst'
    rw [hd, H.tag _ _ _ hLj, Except.ok.injEq] at g3
    obtain ⟨w0, t0, hw0, hn⟩ := H.normal _ _ _ hLj
    rw [hd, hn, Except.ok.injEq] at g2
    obtain ⟨w0', t0', hw0', hn'⟩ := H.normal _ _ _ hi
    rw [hd, hn', Except.ok.injEq] at e2
    have hnf : q.nf = p.nf := by
      rw [hw0, Option.some.injEq, Prod.mk.injEq] at hw0'
      rw [← g2, ← e2, hw0'.1]
    have hcore : q.core = f.core := by
      rw [core_eq_iff]
      refine ⟨g1, g3.symm, ?_, ?_⟩
      · rw [hnf, hfe]
      · rw [hst', hfe]
    refine ⟨q, hq, hcore, ?_⟩
    obtain ⟨a1, a2, a3, a4⟩ := (core_eq_iff _ _).1 hcore
    obtain ⟨b1, b2⟩ := hagain f hf
    unfold Morph.lexeme
    rw [a4]
    obtain ⟨qw, qt, qn, qs, qst⟩ := q
    dsimp only at *
    subst a1
    rw [a3, b1]
    exact b2 _ _ _

/-- **C72.** Over a compiled dictionary: every form of the lexeme of a dictionary result is itself known, in every spelling; parsing such a
spelling gives a result that differs from the form by the score at most, and whose lexeme is the same. -/
theorem c72_closed {I : Type} [DecidableEq I] (num : I → Int) (bw : DawgBuild (Nat × Nat)) (bp : DawgBuild (Nat × Nat × Nat))
    (o : COptions) (src : Parsed I) (c : Compiled) (hc : compileParsed num bw bp o src = .ok c)
    (m : Morph S) (hm : IsRu m ∨ IsUk m) (hlow : m.env.LowerStable) (hd : m.dict = c.toDict)
    (w : Str) (ps : List (Parse S)) (h : m.parse w = .ok ps) (p : Parse S) (hp : p ∈ ps) (hk : p.dictEntry.isSome = true) :
    ∃ fs, m.lexeme p = .ok fs ∧ ∀ f ∈ fs, ∀ w', Spells m.sub (m.env.lower w') f.word →
      m.wordIsKnown w' = true ∧ ∀ ps', m.parse w' = .ok ps' → ∃ q ∈ ps', q.core = f.core ∧ m.lexeme q = .ok fs :=
  closed_core num bw bp o src c hc m (default_looksUp m hm) hlow hd w ps h p hp hk

theorem maxLoop_mem {α : Type} (sim : Sim) (key : α → sim.K) (as : List α) (cur : α) : maxLoop sim key as cur ∈ cur :: as := by
  induction as generalizing cur with
  | nil => simp [maxLoop]
  | cons a as ih =>
    rw [maxLoop]
    split
    · exact List.mem_cons_of_mem _ (ih a)
    · rcases List.mem_cons.1 (ih cur) with h | h
      · rw [h]; simp
      · exact List.mem_cons_of_mem _ (List.mem_cons_of_mem _ h)

theorem nlargest1_mem {α : Type} (sim : Sim) (key : α → sim.K) (l : List α) (f : α) (h : nlargest1 sim key l = some f) : f ∈ l := by
  cases l with
  | nil => simp [nlargest1] at h
  | cons a as =>
    simp only [nlargest1, Option.some.injEq] at h
    rw [← h]
    exact maxLoop_mem sim key as a

theorem inflect_mem (m : Morph S) (sim : Sim) (p : Parse S) (req : List Str) (f : Parse S) (h : m.inflect sim p req = .ok (some f)) (fs : List (Parse S))
    (hfs : m.lexeme p = .ok fs) : f ∈ fs := by
  unfold Morph.inflect at h
  rw [hfs, ok_bind] at h
  dsimp only at h
  split at h <;>
  · simp only [bind_ok_iff, pure_eq_ok, Except.ok.injEq] at h
    obtain ⟨g, _, h⟩ := h
    exact List.mem_of_mem_filter (nlargest1_mem _ _ _ _ h)

theorem inflected_core {I : Type} [DecidableEq I] (num : I → Int) (bw : DawgBuild (Nat × Nat)) (bp : DawgBuild (Nat × Nat × Nat))
    (o : COptions) (src : Parsed I) (c : Compiled) (hc : compileParsed num bw bp o src = .ok c)
    (m : Morph S) (hm : m.LooksUp) (hlow : m.env.LowerStable) (hd : m.dict = c.toDict)
    (w : Str) (ps : List (Parse S)) (h : m.parse w = .ok ps) (p : Parse S) (hp : p ∈ ps) (hk : p.dictEntry.isSome = true)
    (sim : Sim) (pick : Grams → Option Str) (f : Parse S)
    (hf : (∃ req, m.inflect sim p req = .ok (some f)) ∨ (∃ n, m.makeAgree sim pick p n = .ok (some f)))
    (w' : Str) (hw' : Spells m.sub (m.env.lower w') f.word) :
    m.wordIsKnown w' = true ∧ ∀ ps', m.parse w' = .ok ps' → ∃ q ∈ ps', q.core = f.core := by
  obtain ⟨fs, hfs, hall⟩ := closed_core num bw bp o src c hc m hm hlow hd w ps h p hp hk
  have hmem : f ∈ fs := by
    rcases hf with ⟨req, hf⟩ | ⟨n, hf⟩
    · exact inflect_mem m sim p req f hf fs hfs
    · unfold Morph.makeAgree at hf
      split at hf
      · exact inflect_mem m sim p _ f hf fs hfs
      · simp [bind_ok_iff] at hf
  obtain ⟨h1, h2⟩ := hall f hmem w' hw'
  refine ⟨h1, fun ps' hps' => ?_⟩
  obtain ⟨q, hq, he, _⟩ := h2 ps' hps'
  exact ⟨q, hq, he⟩

/-- **C72, inflection.** What `inflect` and `make_agree_with_number` return for a dictionary result is again a known word, and parsing it gives that result
back (up to the score). -/
theorem c72_inflected {I : Type} [DecidableEq I] (num : I → Int) (bw : DawgBuild (Nat × Nat)) (bp : DawgBuild (Nat × Nat × Nat))
    (o : COptions) (src : Parsed I) (c : Compiled) (hc : compileParsed num bw bp o src = .ok c)
    (m : Morph S) (hm : IsRu m ∨ IsUk m) (hlow : m.env.LowerStable) (hd : m.dict = c.toDict)
    (w : Str) (ps : List (Parse S)) (h : m.parse w = .ok ps) (p : Parse S) (hp : p ∈ ps) (hk : p.dictEntry.isSome = true)
    (sim : Sim) (pick : Grams → Option Str) (f : Parse S)
    (hf : (∃ req, m.inflect sim p req = .ok (some f)) ∨ (∃ n, m.makeAgree sim pick p n = .ok (some f)))
    (w' : Str) (hw' : Spells m.sub (m.env.lower w') f.word) :
    m.wordIsKnown w' = true ∧ ∀ ps', m.parse w' = .ok ps' → ∃ q ∈ ps', q.core = f.core :=
  inflected_core num bw bp o src c hc m (default_looksUp m hm) hlow hd w ps h p hp hk sim pick f hf w' hw'

/-- **C72, normal forms.** The normal form of a dictionary result is a known word that is its own normal form. -/
theorem c72_normal_form {I : Type} [DecidableEq I] (num : I → Int) (bw : DawgBuild (Nat × Nat)) (bp : DawgBuild (Nat × Nat × Nat))
    (o : COptions) (src : Parsed I) (c : Compiled) (hc : compileParsed num bw bp o src = .ok c)
    (m : Morph S) (hm : IsRu m ∨ IsUk m) (hlow : m.env.LowerStable) (hd : m.dict = c.toDict)
    (w : Str) (ps : List (Parse S)) (h : m.parse w = .ok ps) (p : Parse S) (hp : p ∈ ps) (hk : p.dictEntry.isSome = true)
    (w' : Str) (hw' : Spells m.sub (m.env.lower w') p.nf) :
    m.wordIsKnown w' = true ∧ ∀ ps', m.parse w' = .ok ps' → ∃ q ∈ ps', q.word = p.nf ∧ q.nf = p.nf := by
  obtain ⟨fs, hfs, hall⟩ := c72_closed num bw bp o src c hc m hm hlow hd w ps h p hp hk
  have hwf : m.dict.WF := by
    obtain ⟨ls, _, h2⟩ := compile_split hc
    rw [hd]; exact c30_sound bw bp o ls c h2
  have hst : ∃ u v k i, p.stack = .single (.dict u v k i) := by
    unfold Parse.dictEntry at hk
    split at hk
    · next u v k i hst => exact ⟨u, v, k, i, hst⟩
    · simp at hk
  obtain ⟨u, v, k, i, hst⟩ := hst
  have hb : p.stack.noBoth := by rw [hst]; exact ⟨trivial, trivial⟩
  have hnf : ∃ f ∈ fs, f.word = p.nf ∧ f.nf = p.nf := by
    obtain ⟨q, f, h1, h2, h3, h4, _⟩ := c15_first_form m hm hlow hwf w ps h p hp (.inl hb) (by rw [hst]; trivial) fs hfs
    obtain ⟨a1, a2, a3, a4⟩ := (core_eq_iff _ _).1 h3
    refine ⟨f, List.mem_of_mem_head? h2, ?_, by rw [← a3, h4]⟩
    obtain ⟨q', g1, g2, _⟩ := c15_spelling m hm hlow hwf w ps h p hp hb (by rw [hst]; trivial) fs hfs
    rw [h1, Except.ok.injEq] at g1
    rw [← a1, g1, g2]
  obtain ⟨f, hf, e1, e2⟩ := hnf
  obtain ⟨h1, h2⟩ := hall f hf w' (by rw [e1]; exact hw')
  refine ⟨h1, fun ps' hps' => ?_⟩
  obtain ⟨q, hq, he, _⟩ := h2 ps' hps'
  obtain ⟨a1, a2, a3, a4⟩ := (core_eq_iff _ _).1 he
  exact ⟨q, hq, by rw [a1, e1], by rw [a3, e2]⟩

/-! ### Predicted words -/

/-- A source with two nouns ending in ка, ке and three in ки, ке. -/
def Demo.source72 : Parsed Nat where
  lexemes := [(1, [(c!"кошка", c!"NOUN,anim,femn sing,nomn"), (c!"кошке", c!"NOUN,anim,femn sing,datv")]),
    (2, [(c!"мышка", c!"NOUN,anim,femn sing,nomn"), (c!"мышке", c!"NOUN,anim,femn sing,datv")]),
    (3, [(c!"сошки", c!"NOUN,anim,femn sing,nomn"), (c!"сошке", c!"NOUN,anim,femn sing,datv")]),
    (4, [(c!"дышки", c!"NOUN,anim,femn sing,nomn"), (c!"дышке", c!"NOUN,anim,femn sing,datv")]),
    (5, [(c!"бошки", c!"NOUN,anim,femn sing,nomn"), (c!"бошке", c!"NOUN,anim,femn sing,datv")])]
  links := []

def Demo.copts72 : COptions := { paradigmPrefixes := [c!"", c!"по", c!"наи"], maxSuffixLength := 3, minParadigmPopularity := 1 }

def Demo.compiled72 : Except Fail Compiled := compileParsed (fun n : Nat => (n : Int)) dedupBuild dedupBuild Demo.copts72 Demo.source72

/-- Is every form of the lexeme of every result of `parse(w)` found again (same word, tag and methods) by parsing the form. -/
def Demo.closedAt (m : Morph Rat) (w : Str) : Bool :=
  match m.parse w with
  | .ok ps => ps.all fun p =>
    match m.lexeme p with
    | .ok fs => fs.all fun f =>
      match m.parse f.word with
      | .ok qs => qs.any fun q => decide (q.core = f.core)
      | .error _ => false
    | .error _ => false
  | .error _ => false

/-- **C72, the limit.** For predicted words it fails: ложка gets the lexeme ложка/ложке, but ложке is predicted to be a form of ложки only. -/
theorem c72_predicted_not_closed : ∃ c, Demo.compiled72 = .ok c ∧ IsRu { Demo.morph with dict := c.toDict } ∧
    Demo.closedAt { Demo.morph with dict := c.toDict } (c!"кошка") = true ∧ Demo.closedAt { Demo.morph with dict := c.toDict } (c!"сошке") = true ∧
    Demo.closedAt { Demo.morph with dict := c.toDict } (c!"ложка") = false := by
  have h : (match Demo.compiled72 with
    | .ok c => Demo.closedAt { Demo.morph with dict := c.toDict } (c!"кошка") && Demo.closedAt { Demo.morph with dict := c.toDict } (c!"сошке") &&
        !Demo.closedAt { Demo.morph with dict := c.toDict } (c!"ложка")
    | _ => false) = true := by decide +kernel
  split at h
  · next c hc =>
    simp only [Bool.and_eq_true, Bool.not_eq_true'] at h
    exact ⟨c, hc, Demo.isRu_of _ _, h.1.1, h.1.2, h.2⟩
  · simp at h

end Verif
