/-
C41 — iter_known_word_parses enumerates the dictionary.
-/
import Verif.Props.C13
import Verif.Props.C05

set_option linter.unusedSectionVars false

namespace Verif

variable {S : Type} [Score S]

/-- The dictionary unit comes first, and no other unit is one. -/
theorem default_first (m : Morph S) (hm : IsRu m ∨ IsUk m) : ∃ us, m.units = (⟨0, .dictionary⟩, false) :: us ∧
    ∀ u ∈ m.units, u.1.cfg.kind = .dict → u.1.obj = ⟨0, .dict⟩ := by
  have key : ∀ (items : List (List (UnitSpec S))) (g0 : List (UnitSpec S)) (cls : TagCls), g0 ≠ [] →
      (∀ sp ∈ g0 ++ items.flatten, sp.bound.kind ≠ .dict) →
      mkMorph m.env m.dict cls m.sub ((.dictionary :: g0) :: items) m.est = .ok m →
      ∃ us, m.units = (⟨0, .dictionary⟩, false) :: us ∧ ∀ u ∈ m.units, u.1.cfg.kind = .dict → u.1.obj = ⟨0, .dict⟩ := by
    intro items g0 cls hne hnd hm
    obtain ⟨_, _, _, _, _, hgr⟩ := mkMorph_units hm
    have hrest : ∀ (items : List (List (UnitSpec S))) (n : Nat), (∀ sp ∈ items.flatten, sp.bound.kind ≠ .dict) →
        ∀ g ∈ boundGroups items n, ∀ u ∈ g, u.cfg.kind ≠ .dict := by
      intro items n h g hg u hu
      obtain ⟨g', hg', sp, hsp, he⟩ := mem_boundGroups _ _ g hg u hu
      rw [he]
      exact h sp (List.mem_flatten.2 ⟨g', hg', hsp⟩)
    rw [hgr, boundGroups, List.flatMap_cons, List.mapIdx_cons]
    refine ⟨_, by
      rw [List.mapIdx_cons, List.cons_append]
      congr 1
      simp [UnitSpec.bound]
      exact hne, ?_⟩
    rintro ⟨u, b⟩ hu hk
    simp only [List.mapIdx_cons, List.mem_append, List.mem_cons] at hu
    rcases hu with (hu | hu) | hu
    · simp only [Prod.mk.injEq] at hu
      rw [hu.1]; rfl
    · exfalso
      simp only [List.mem_mapIdx, Prod.mk.injEq] at hu
      obtain ⟨i, hi, he, _⟩ := hu
      simp only [List.getElem_mapIdx] at he
      simp only [List.length_mapIdx] at hi
      rw [← he] at hk
      exact hnd _ (List.mem_append.2 (.inl (List.getElem_mem hi))) hk
    · exfalso
      simp only [List.mem_flatMap, List.mem_mapIdx, Prod.mk.injEq] at hu
      obtain ⟨g, hg, i, hi, he, _⟩ := hu
      rw [← he] at hk
      exact hrest items _ (fun sp h => hnd sp (List.mem_append.2 (.inr h))) g hg _ (List.getElem_mem hi) hk
  rcases hm with ⟨cls, hm⟩ | ⟨cls, hm⟩
  · exact key _ _ cls (by simp) (by simpa [ruUnits] using ru_only_dictionary (S := S)) hm
  · exact key _ _ cls (by simp) (by simpa [ukUnits] using uk_only_dictionary (S := S)) hm

/-- The normal form of a dictionary entry exists. -/
theorem normalForm_ok {d : Dict} (hd : d.WF) {para idx : Nat} {p : List Nat} {pre : Str} {tag : Tag} {suf : Str}
    (hf : d.IsForm para idx p pre tag suf) (w : Str) : ∃ nf, d.normalForm para idx w = .ok nf := by
  unfold Dict.normalForm
  split
  · exact ⟨_, rfl⟩
  · obtain ⟨stem, h1, _⟩ := stem_ok hf w
    obtain ⟨pre0, t0, suf0, hf0⟩ := hd.rows _ p hf.hpara 0 (by have := hf.hidx; omega)
    rw [(pyGet_ok_iff _ _ _).2 hf.hpara, ok_bind, h1, ok_bind, hf0.hpre, ok_bind, hf0.hsuf, ok_bind]
    exact ⟨_, rfl⟩

theorem iter_core (m : Morph S) (u0 : BUnit S × Bool) (us : List (BUnit S × Bool)) (hus : m.units = u0 :: us) (pre : Str) (qs : List (Parse S))
    (h : m.iterKnownWordParses pre = .ok qs) :
    List.Forall₂ (fun (e : Str × Nat × Nat) (q : Parse S) => m.dict.tagInfo e.2.1 e.2.2 = .ok q.tag ∧
      m.dict.normalForm e.2.1 e.2.2 e.1 = .ok q.nf ∧ q.word = e.1 ∧ q.score = Score.one ∧
      q.stack = .single (.dict u0.1.obj e.1 e.2.1 e.2.2)) (m.dict.words.filter fun e => startsWith e.1 pre) qs := by
  simp only [Morph.iterKnownWordParses, Dict.iterKnownWords, bind_ok_iff] at h
  obtain ⟨ws, hws, h⟩ := h
  have h1 := (mapE_ok_iff _ _ _).1 hws
  have h2 := (mapE_ok_iff _ _ _).1 h
  unfold Dawg.iteritems at h1
  clear hws h
  generalize m.dict.words.filter (fun e => startsWith e.1 pre) = es at h1
  induction h1 generalizing qs with
  | nil => cases h2; exact .nil
  | cons ha _ ih =>
    cases h2 with
    | cons hb h2 =>
      refine .cons ?_ (ih _ h2)
      simp only [bind_ok_iff, pure_eq_ok, Except.ok.injEq, hus, pyGet, List.getElem?_cons_zero] at ha hb
      obtain ⟨tag, ht, nf, hnf, rfl⟩ := ha
      obtain ⟨u, rfl, rfl⟩ := hb
      exact ⟨ht, hnf, rfl, rfl, rfl⟩

theorem iter_forall₂ (m : Morph S) (hm : IsRu m ∨ IsUk m) (pre : Str) (qs : List (Parse S)) (h : m.iterKnownWordParses pre = .ok qs) :
    List.Forall₂ (fun (e : Str × Nat × Nat) (q : Parse S) => m.dict.tagInfo e.2.1 e.2.2 = .ok q.tag ∧
      m.dict.normalForm e.2.1 e.2.2 e.1 = .ok q.nf ∧ q.word = e.1 ∧ q.score = Score.one ∧
      q.stack = .single (.dict ⟨0, .dict⟩ e.1 e.2.1 e.2.2)) (m.dict.words.filter fun e => startsWith e.1 pre) qs := by
  obtain ⟨us, hus, _⟩ := default_first m hm
  exact iter_core m _ us hus pre qs h

theorem enumerates_core (m : Morph S) (u0 : BUnit S × Bool) (us : List (BUnit S × Bool)) (hus : m.units = u0 :: us) (hd : m.dict.WF) (pre : Str) :
    ∃ qs, m.iterKnownWordParses pre = .ok qs ∧
      qs.map Parse.dictEntry = (m.dict.words.filter fun e => decide (pre <+: e.1)).map (fun e => some (e.1, e.2.1, e.2.2)) ∧
      ∀ q ∈ qs, q.score = Score.one ∧ ∀ v para idx, q.dictEntry = some (v, para, idx) →
        q.word = v ∧ m.dict.tagInfo para idx = .ok q.tag ∧ m.dict.normalForm para idx v = .ok q.nf := by
  have h : ∃ qs, m.iterKnownWordParses pre = .ok qs := by
    simp only [Morph.iterKnownWordParses, Dict.iterKnownWords]
    obtain ⟨ws, hws⟩ := mapE_total (fun e : Str × Nat × Nat => do
      let tag ← m.dict.tagInfo e.2.1 e.2.2
      let nf ← m.dict.normalForm e.2.1 e.2.2 e.1
      pure (e.1, tag, nf, e.2.1, e.2.2)) (m.dict.words.iteritems pre) (by
        intro e he
        obtain ⟨p, pr, tag, suf, stem, hf, _⟩ := hd.words e (List.mem_of_mem_filter he)
        obtain ⟨nf, hnf⟩ := normalForm_ok hd hf e.1
        rw [hf.htag, ok_bind, hnf, ok_bind]
        exact ⟨_, rfl⟩)
    rw [hws, ok_bind]
    apply mapE_total
    intro w _
    simp [hus, pyGet]
  obtain ⟨qs, h⟩ := h
  refine ⟨qs, h, ?_, ?_⟩
  · have h2 := iter_core m u0 us hus pre qs h
    have e : (m.dict.words.filter fun e => decide (pre <+: e.1)) = m.dict.words.filter fun e => startsWith e.1 pre := by
      apply List.filter_congr
      intro e _
      rw [Bool.eq_iff_iff, decide_eq_true_eq, startsWith_iff]
    rw [e]
    clear e h
    generalize m.dict.words.filter (fun e => startsWith e.1 pre) = es at h2
    induction h2 with
    | nil => rfl
    | cons ha _ ih =>
      rw [List.map_cons, List.map_cons, ih]
      congr 1
      simp [Parse.dictEntry, ha.2.2.2.2, Stack.single]
  · intro q hq
    obtain ⟨e, he, h1, h2, h3, h4, h5⟩ := forall₂_mem_right (iter_core m u0 us hus pre qs h) hq
    refine ⟨h4, ?_⟩
    intro v para idx hv
    simp only [Parse.dictEntry, h5, Stack.single, Option.some.injEq, Prod.mk.injEq] at hv
    obtain ⟨rfl, rfl, rfl⟩ := hv
    exact ⟨h3, h1, h2⟩

/-- **C41.** Over a sound dictionary, `iter_known_word_parses(prefix)` yields one parse per dictionary entry whose word starts
with the prefix, in the order of the dictionary, with the tag and normal form of the entry and score 1. -/
theorem c41_enumerates (m : Morph S) (hm : IsRu m ∨ IsUk m) (hd : m.dict.WF) (pre : Str) :
    ∃ qs, m.iterKnownWordParses pre = .ok qs ∧
      qs.map Parse.dictEntry = (m.dict.words.filter fun e => decide (pre <+: e.1)).map (fun e => some (e.1, e.2.1, e.2.2)) ∧
      ∀ q ∈ qs, q.score = Score.one ∧ ∀ v para idx, q.dictEntry = some (v, para, idx) →
        q.word = v ∧ m.dict.tagInfo para idx = .ok q.tag ∧ m.dict.normalForm para idx v = .ok q.nf := by
  obtain ⟨us, hus, _⟩ := default_first m hm
  exact enumerates_core m _ us hus hd pre

/-- **C41, agreement with `parse`.** A yielded parse is, up to its score, one of the results of `parse` for that very word
(when it is written in lower case, as dictionary words are). -/
theorem c41_agrees_with_parse (m : Morph S) (hm : IsRu m ∨ IsUk m) (hlow : m.env.LowerStable)
    (pre : Str) (qs : List (Parse S)) (h : m.iterKnownWordParses pre = .ok qs) (q : Parse S) (hq : q ∈ qs)
    (hl : m.env.lower q.word = q.word) (ps : List (Parse S)) (hps : m.parse q.word = .ok ps) : ∃ p ∈ ps, p.core = q.core := by
  obtain ⟨⟨v, para, idx⟩, he, h1, h2, h3, h4, h5⟩ := forall₂_mem_right (iter_forall₂ m hm pre qs h) hq
  dsimp only at *
  have he := List.mem_of_mem_filter he
  obtain ⟨p, hp, hpe⟩ := (c05_lookup_default m hm q.word ps hps v para idx).2 ⟨by rw [hl, h3]; exact Spells.refl _ _, he⟩
  refine ⟨p, hp, ?_⟩
  have hdv := parse_deriv m hlow _ ps hps p hp
  unfold Parse.dictEntry at hpe
  split at hpe
  · next u v' para' idx' hst =>
    simp only [Option.some.injEq, Prod.mk.injEq] at hpe
    obtain ⟨rfl, rfl, rfl⟩ := hpe
    obtain ⟨e1, e2, e3⟩ := hdv.entry hst
    rw [h2] at e2
    rw [h1] at e3
    simp only [Except.ok.injEq] at e2 e3
    have hu : u = ⟨0, .dict⟩ := by
      rw [(c01_recursive_equation m hm hlow q.word).1] at hps
      obtain ⟨u', hu', seen, r, hr, q', hq', he'⟩ := parseStep_mem_core m _ q.word ps hps p hp
      have ho := unitParse_outer _ _ _ _ _ _ _ hr q' hq'
      simp only [Parse.core, Prod.mk.injEq] at he'
      unfold Parse.outer at ho
      rw [he'.2.2.2, hst] at ho
      simp only [Method.obj, Option.some.injEq] at ho
      obtain ⟨us, _, hdk⟩ := default_first m hm
      rw [ho]
      apply hdk u' hu'
      have : u.kind = .dict := by
        obtain ⟨pw, pt, pn, psc, pst⟩ := p
        dsimp only at *
        subst hst
        generalize m.env.lower q.word = wl at hdv
        generalize hst : (Stack.nil.push (Method.dict u v' para' idx')) = st at hdv
        cases hdv <;> simp [Stack.single] at hst
        rw [hst.1]
      rw [ho] at this
      exact this
    subst hu
    simp [Parse.core, e1, h3, e2, e3, hst, h5, Stack.single]
  · simp at hpe

theorem iter_lexeme_core (m : Morph S) (u0 : BUnit S × Bool) (us : List (BUnit S × Bool)) (hus : m.units = u0 :: us) (hk : u0.1.obj.kind = .dict) (hd : m.dict.WF)
    (pre : Str) (qs : List (Parse S)) (h : m.iterKnownWordParses pre = .ok qs) (q : Parse S) (hq : q ∈ qs) :
    ∃ fs, m.lexeme q = .ok fs ∧ ∃ f ∈ fs, f.core = q.core := by
  obtain ⟨⟨v, para, idx⟩, he, h1, h2, h3, h4, h5⟩ := forall₂_mem_right (iter_core m u0 us hus pre qs h) hq
  obtain ⟨word, tag, nf, score, stack⟩ := q
  dsimp only at *
  subst h3 h4 h5
  obtain ⟨p, pr, tag', suf, stem, hf, hw⟩ := hd.words _ (List.mem_of_mem_filter he)
  have := hf.htag
  rw [h1] at this
  simp only [Except.ok.injEq] at this
  subst this
  obtain ⟨stem', fs0, _, _, _, _, h5, _⟩ := dictBase (S := S) m hd u0.1.obj hk hf word word nf
  have hfs := h5 tag Score.one (.single (.dict u0.1.obj word para idx))
  obtain ⟨f, hfm, e1, e2, e3, e4⟩ := member_dict m hd u0.1.obj hk hf word hw nf _ _ _ hfs
  exact ⟨fs0, hfs, f, hfm, by simp [Parse.core, e1, e2, e3, e4]⟩

/-- **C41, lexemes.** A yielded parse has a lexeme, which contains it. -/
theorem c41_in_its_lexeme (m : Morph S) (hm : IsRu m ∨ IsUk m) (hd : m.dict.WF)
    (pre : Str) (qs : List (Parse S)) (h : m.iterKnownWordParses pre = .ok qs) (q : Parse S) (hq : q ∈ qs) :
    ∃ fs, m.lexeme q = .ok fs ∧ ∃ f ∈ fs, f.core = q.core := by
  obtain ⟨us, hus, _⟩ := default_first m hm
  exact iter_lexeme_core m _ us hus rfl hd pre qs h q hq

/-- Non-vacuity (a test): the words starting with ко of the demo dictionary. -/
example : (Demo.morph.iterKnownWordParses (c!"ко")).toOption.map (List.map fun p => (p.word, p.nf)) =
    some [(c!"кошек", c!"кошка"), (c!"кошка", c!"кошка")] := by decide +kernel

end Verif
