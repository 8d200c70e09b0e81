/-
C05 — dictionary look-up is sound and complete up to substitutions.
-/
import Verif.Props.C06

set_option linter.unusedSectionVars false

namespace Verif

variable {S : Type} [Score S]

theorem groupParse_entries_nil (m : Morph S) (rec : Rec S) (word wl : Str) (g : List (BUnit S)) (seen : Seen)
    (hg : ∀ u ∈ g, u.cfg.kind ≠ .dict) (out : List (Parse S)) (h : groupParse m rec word wl g seen = .ok out) :
    out.filterMap Parse.dictEntry = [] := by
  rw [List.filterMap_eq_nil_iff]
  intro p hp
  obtain ⟨u, hu, seen', r, hr, hpr⟩ := groupParse_mem _ _ _ _ _ _ _ h p hp
  have := unitParse_group0 _ _ _ _ _ _ _ hr p hpr
  have hk := hg u hu
  cases hc : u.cfg <;> simp only [hc, UnitCfg.kind, ne_eq, not_true_eq_false] at this hk
  all_goals first | exact this | exact this.1

/-- The dictionary results of `parse(w)`, in full: they are, in some order, the look-up results. -/
theorem parse_entries_perm (env : Env) (dict : Dict) (cls : TagCls) (sub : Subst) (g0 : List (UnitSpec S))
    (items : List (List (UnitSpec S))) (est : Option (List (Str × Nat))) (m : Morph S)
    (hm : mkMorph env dict cls sub ((.dictionary :: g0) :: items) est = .ok m)
    (hd : ∀ sp ∈ g0 ++ items.flatten, sp.bound.kind ≠ .dict)
    (w : Str) (ps : List (Parse S)) (h : m.parse w = .ok ps) :
    (ps.filterMap Parse.dictEntry).Perm (lookup m.dict.words m.sub (m.env.lower w)) := by
  obtain ⟨res, hres, hsc⟩ := (c06_parse_first_group env dict cls sub _ est m hm w ps).1 h
  have hperm : (ps.map Parse.core).Perm (res.map Parse.core) := by
    unfold rescored at hsc
    split at hsc
    · exact applyToParses_core _ _ _ _ hsc
    · simp at hsc; subst hsc; exact .refl _
  have hf : ∀ l : List (Parse S), l.filterMap Parse.dictEntry =
      (l.map Parse.core).filterMap fun c => match c.2.2.2 with
        | .push .nil (.dict _ v para idx) => some (v, para, idx)
        | _ => none := by
    intro l
    rw [List.filterMap_map]
    rfl
  have h2 : (ps.filterMap Parse.dictEntry).Perm (res.filterMap Parse.dictEntry) := by
    rw [hf ps, hf res]
    exact hperm.filterMap _
  refine h2.trans ?_
  have hb : ∀ (gs : List (List (UnitSpec S))) (n : Nat), (∀ sp ∈ gs.flatten, sp.bound.kind ≠ UKind.dict) →
      ∀ g ∈ boundGroups gs n, ∀ u ∈ g, u.cfg.kind ≠ .dict := by
    intro gs
    induction gs with
    | nil => intro n _ g hg; simp [boundGroups] at hg
    | cons a gs ih =>
      intro n hgs g hg
      simp only [boundGroups, List.mem_cons] at hg
      rcases hg with rfl | hg
      · intro u hu
        obtain ⟨i, hi, rfl⟩ := List.mem_mapIdx.1 hu
        exact hgs _ (by simp)
      · exact ih _ (fun sp hsp => hgs sp (by simp only [List.flatten_cons, List.mem_append]; exact .inr hsp)) g hg
  have hits := hb items (0 + (UnitSpec.dictionary :: g0).length)
    (fun sp hsp => hd sp (by simp only [List.mem_append]; exact .inr hsp))
  rw [← firstGroup_iff, boundGroups, firstGroup, bind_ok_iff] at hres
  obtain ⟨r0, hr0, hres⟩ := hres
  simp only [List.mapIdx_cons] at hr0
  simp only [groupParse, bind_ok_iff, pure_eq_ok, Except.ok.injEq] at hr0
  obtain ⟨r1, hr1, r2, hr2, rfl⟩ := hr0
  simp only [unitParse, UnitSpec.bound, bind_ok_iff, pure_eq_ok, Except.ok.injEq] at hr1
  obtain ⟨ps', hps', rfl⟩ := hr1
  have e1 := dictParse_entries m _ _ _ hps'
  have e2 := groupParse_entries_nil m _ _ _ _ _ (by
    intro u hu
    obtain ⟨i, hi, rfl⟩ := List.mem_mapIdx.1 hu
    exact hd _ (by simp)) _ hr2
  split at hres
  · next he =>
    obtain ⟨he1, he2⟩ := List.append_eq_nil_iff.1 he
    dsimp only at he1
    rw [he1] at e1
    simp at e1
    rw [e1]
    rw [firstGroup_iff] at hres
    rcases hres with ⟨_, b, g, a, hbg, _, hg⟩ | ⟨rfl, _⟩
    · rw [groupParse_entries_nil m _ _ _ _ _ (hits g (by rw [hbg]; simp)) _ hg]
    · exact .refl _
  · next a as he =>
    simp at hres
    rw [← hres, ← he, List.filterMap_append, e2, List.append_nil]
    exact .of_eq e1

/-- Dictionary answers carry the tag and normal form of their entry. -/
theorem Deriv.entry {m : Morph S} {wl w nf : Str} {tag : Tag} {st : Stack} (h : Deriv m wl w tag nf st)
    {u : UObj} {v : Str} {para idx : Nat} (hst : st = .push .nil (.dict u v para idx)) :
    w = v ∧ m.dict.normalForm para idx v = .ok nf ∧ m.dict.tagInfo para idx = .ok tag := by
  cases h <;> simp only [Stack.single, Stack.push.injEq, Method.dict.injEq, reduceCtorEq, and_false,
    true_and] at hst
  case dict =>
    obtain ⟨_, rfl, rfl, rfl⟩ := hst
    exact ⟨rfl, ‹_›, ‹_›⟩

/-- C05 for any analyzer whose first unit is the (only) dictionary unit. -/
theorem c05_lookup (env : Env) (dict : Dict) (cls : TagCls) (sub : Subst) (g0 : List (UnitSpec S))
    (items : List (List (UnitSpec S))) (est : Option (List (Str × Nat))) (m : Morph S)
    (hm : mkMorph env dict cls sub ((.dictionary :: g0) :: items) est = .ok m)
    (hd : ∀ sp ∈ g0 ++ items.flatten, sp.bound.kind ≠ .dict)
    (w : Str) (ps : List (Parse S)) (h : m.parse w = .ok ps) :
    -- exactly the stored entries whose word is a spelling of the input
    (∀ v para idx, (∃ p ∈ ps, p.dictEntry = some (v, para, idx)) ↔
      Spells m.sub (m.env.lower w) v ∧ (v, (para, idx)) ∈ m.dict.words) ∧
    -- each once, when the dictionary has no repeated entry and the substitutes are a proper table
    (m.dict.words.Nodup → m.sub.Proper → (ps.filterMap Parse.dictEntry).Nodup) ∧
    -- and each with the word, normal form and tag of its entry
    (m.env.LowerStable → ∀ p ∈ ps, ∀ v para idx, p.dictEntry = some (v, para, idx) →
      p.word = v ∧ m.dict.normalForm para idx v = .ok p.nf ∧ m.dict.tagInfo para idx = .ok p.tag) := by
  have hperm := parse_entries_perm env dict cls sub g0 items est m hm hd w ps h
  refine ⟨?_, ?_, ?_⟩
  · intro v para idx
    rw [← mem_lookup, ← hperm.mem_iff, List.mem_filterMap]
  · intro hnd hpr
    refine hperm.nodup_iff.2 ?_
    unfold lookup
    refine List.nodup_flatMap.2 ⟨?_, ?_⟩
    · rintro ⟨v, vs⟩ hv
      simp only [Dawg.similarItems, List.mem_map, Prod.mk.injEq] at hv
      obtain ⟨v', _, rfl, rfl⟩ := hv
      have hvn : (Dawg.vals m.dict.words v').Nodup := by
        unfold Dawg.vals
        refine List.Nodup.map_on ?_ (hnd.filter _)
        rintro ⟨a, b⟩ ha ⟨c, d⟩ hc e
        simp only [List.mem_filter, decide_eq_true_eq] at ha hc
        simp [ha.2, hc.2] at e ⊢
        exact e
      exact hvn.map fun a b e => by simpa using e
    · have hk : (m.dict.words.similarKeys m.sub (m.env.lower w)).Nodup :=
        (nodup_variants _ hpr _).filter _
      unfold Dawg.similarItems
      rw [List.pairwise_map]
      refine hk.imp ?_
      intro a b hab
      simp only [Function.onFun, List.disjoint_left, List.mem_map, not_exists, not_and]
      rintro _ ⟨r, _, rfl⟩ r' _ e
      simp at e; exact hab e.1.symm
  · intro hlow p hp v para idx he
    have hd := analyze_deriv m hlow _ w ps h p hp
    unfold Parse.dictEntry at he
    split at he
    · next u v' para' idx' hst =>
      simp at he
      obtain ⟨rfl, rfl, rfl⟩ := he
      exact hd.entry hst
    · simp at he

/-- The Russian default units meet the hypotheses of `c05_lookup`. -/
theorem ru_only_dictionary : ∀ sp ∈ (ruUnits (S := S)).head!.tail ++ ruUnits.tail.flatten, sp.bound.kind ≠ .dict := by
  intro sp hsp
  simp only [ruUnits, List.head!_cons, List.tail_cons, List.flatten_cons, List.flatten_nil, List.cons_append,
    List.nil_append, List.mem_cons, List.not_mem_nil, or_false] at hsp
  rcases hsp with rfl | rfl | rfl | rfl | rfl | rfl | rfl | rfl | rfl | rfl | rfl | rfl | rfl <;>
    simp [UnitSpec.bound, UnitCfg.kind]

theorem uk_only_dictionary : ∀ sp ∈ (ukUnits (S := S)).head!.tail ++ ukUnits.tail.flatten, sp.bound.kind ≠ .dict := by
  intro sp hsp
  simp only [ukUnits, List.head!_cons, List.tail_cons, List.flatten_cons, List.flatten_nil, List.cons_append,
    List.nil_append, List.mem_cons, List.not_mem_nil, or_false] at hsp
  rcases hsp with rfl | rfl | rfl | rfl | rfl | rfl | rfl | rfl | rfl | rfl | rfl | rfl <;>
    simp [UnitSpec.bound, UnitCfg.kind]

/-- C05 for the default analyzers of both languages. -/
theorem c05_lookup_default (m : Morph S) (hm : IsRu m ∨ IsUk m) (w : Str) (ps : List (Parse S)) (h : m.parse w = .ok ps) :
    ∀ v para idx, (∃ p ∈ ps, p.dictEntry = some (v, para, idx)) ↔
      Spells m.sub (m.env.lower w) v ∧ (v, (para, idx)) ∈ m.dict.words := by
  rcases hm with ⟨cls, hm⟩ | ⟨cls, hm⟩
  · unfold ruUnits at hm
    exact (c05_lookup _ _ _ _ _ _ _ m hm ru_only_dictionary w ps h).1
  · unfold ukUnits at hm
    exact (c05_lookup _ _ _ _ _ _ _ m hm uk_only_dictionary w ps h).1

/-- C05, last clause: a character with no declared substitutes (in particular one already written in its target form)
matches only itself. -/
theorem c05_target_matches_itself (sub : Subst) (a b v : Str) (c : Char) (hc : sub c = [])
    (h : Spells sub (a ++ c :: b) v) : v[a.length]? = some c := by
  obtain ⟨hl, hs⟩ := (spells_iff_get _ _ _).1 h
  have hlt : a.length < v.length := by rw [← hl]; simp
  have := hs a.length c v[a.length] (by simp) (by simp)
  rw [hc] at this
  simp at this
  rw [List.getElem?_eq_getElem hlt, this]

/-- The targets `ё` (ru) and `ґ` (uk) have no substitutes. -/
theorem c05_default_targets : ruSubst 'ё' = [] ∧ ukSubst 'ґ' = [] ∧ Subst.Proper ruSubst ∧ Subst.Proper ukSubst := by
  refine ⟨by decide, by decide, ?_, ?_⟩
  · intro c; unfold ruSubst; split
    · next h => subst h; decide
    · simp
  · intro c; unfold ukSubst; split
    · next h => subst h; decide
    · simp

/-! Non-vacuity (tests). -/
example : IsRu Demo.morph ∧ ∃ ps, Demo.morph.parse (c!"еж") = .ok ps ∧ ps.length = 1 :=
  ⟨Demo.morph_isRu, by
    cases h : Demo.morph.parse (c!"еж") with
    | ok ps => exact ⟨ps, rfl, by
        have : (Demo.morph.parse (c!"еж")).toOption.map List.length = some 1 := by decide +kernel
        rw [h] at this; simpa [Except.toOption] using this⟩
    | error e =>
      have : (Demo.morph.parse (c!"еж")).toOption.map List.length = some 1 := by decide +kernel
      rw [h] at this; simp [Except.toOption] at this⟩
example : Demo.dict.words.Nodup := by decide +kernel

end Verif
