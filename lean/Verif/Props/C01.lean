/-
C01: parse() and tag() always terminate with at least one answer.
-/
import Verif.Lemmas.Total
import Verif.Lemmas.DictCheck

set_option linter.unusedSectionVars false

namespace Verif

/-! ### Helpers -/

section generic
variable {S : Type} [Score S]

theorem firstGroup_last {α : Type} (run : List (BUnit S) → Except PyErr (List α)) (gs : List (List (BUnit S)))
    (g : List (BUnit S)) (a : α) (as : List α) (hg : run g = .ok (a :: as)) (out : List α)
    (h : firstGroup run (gs ++ [g]) = .ok out) : out ≠ [] := by
  rcases (firstGroup_iff run _ out).1 h with ⟨hne, _⟩ | ⟨_, hall⟩
  · exact hne
  · have := hall g (by simp)
    rw [hg] at this; simp at this

theorem unkn_run (m : Morph S) (rec : Rec S) (word wl : Str) (n : Nat) (t : Tag) :
    groupParse m rec word wl [⟨n, .unkn t⟩] [] =
      .ok [⟨wl, t, wl, Score.one, .single (.simple ⟨2 * n, .unkn⟩ word)⟩] ∧
    groupTag m rec word wl [⟨n, .unkn t⟩] [] = .ok [t] := ⟨rfl, rfl⟩

end generic

/-- The hypotheses under which `parse` and `tag` are total, for a `units` argument `items ++ [UnknAnalyzer()]`. -/
structure Healthy (m : Morph Rat) : Prop where
  low : m.env.LowerStable
  wf : m.dict.WF
  /-- the dictionary's grammeme table has ADJF, sing and datv (`HyphenAdverbAnalyzer` asks for them) -/
  known : ∀ g ∈ [c!"ADJF", c!"sing", c!"datv"], g ∈ m.cls.known
  /-- the P(t|w) data, if any, is complete -/
  data : m.DataComplete

theorem healthy_total (items : List (List (UnitSpec Rat)))
    (hpre : ∀ g ∈ items, ∀ sp ∈ g, sp.bound.properPrefixes ∧ sp.bound.posScores)
    (m : Morph Rat) (cls : TagCls) (hm : mkMorph m.env m.dict cls m.sub (items ++ [[.unkn]]) m.est = .ok m)
    (hh : Healthy m) (w : Str) (hw : m.env.Named w) (hw' : m.env.Named (m.env.lower w)) :
    (∃ ps, m.parse w = .ok ps ∧ ps ≠ [] ∧ ∀ p ∈ ps, 0 < p.score) ∧ ∃ ts, m.tag w = .ok ts ∧ ts ≠ [] := by
  obtain ⟨_, _, _, _, hgr⟩ := mkMorph_units hm
  have hunits : ∀ u ∈ m.units, u.1.cfg.properPrefixes ∧ u.1.cfg.posScores := by
    rintro ⟨u, t⟩ hu
    obtain ⟨g, hg, hug⟩ := (mem_of_isGroups hgr u).1 ⟨t, hu⟩
    obtain ⟨g', hg', sp, hsp, he⟩ := mem_boundGroups _ _ g hg u hug
    dsimp only
    rw [he]
    rcases List.mem_append.1 hg' with hg' | hg'
    · exact hpre g' hg' sp hsp
    · simp at hg'; subst hg'; simp at hsp; subst hsp; exact ⟨trivial, trivial⟩
  obtain ⟨k, hk⟩ := boundGroups_append items [[UnitSpec.unkn]] 0
  rw [hk] at hgr
  have hkn : adverbGrams ⊆ m.cls.known := by
    intro g hg
    exact hh.known g (by simpa [adverbGrams] using hg)
  generalize hn : (m.env.lower w).length = n
  induction n using Nat.strong_induction_on generalizing w with
  | _ n ih =>
  subst hn
  have hbelow : ∀ x : Str, x <:+: m.env.lower w → x.length < (m.env.lower w).length →
      (∃ ps, m.parse x = .ok ps ∧ ps ≠ [] ∧ ∀ p ∈ ps, 0 < p.score) ∧ ∃ ts, m.tag x = .ok ts ∧ ts ≠ [] := by
    intro x hx hl
    have e : m.env.lower x = x := hh.low w x hx
    have hnx : m.env.Named x := fun c hc => hw' c (hx.subset hc)
    exact ih _ (by rw [e]; exact hl) x hnx (by rw [e]; exact hnx) rfl
  have hok : Rec.OkBelow (m.env.lower w) (⟨m.parse, m.tag⟩ : Rec Rat) := by
    intro x hx hl
    obtain ⟨⟨ps, h1, _⟩, ts, h2, _⟩ := hbelow x hx hl
    exact ⟨⟨ps, h1⟩, ts, h2⟩
  have hpos : Rec.PosBelow (m.env.lower w) (⟨m.parse, m.tag⟩ : Rec Rat) := by
    intro x hx hl ps hps
    obtain ⟨⟨ps', h1, _, h3⟩, _⟩ := hbelow x hx hl
    have : m.parse x = .ok ps := hps
    rw [h1] at this; simp at this; subst this; exact h3
  obtain ⟨hp, ht⟩ := parse_unfold m hh.low (fun u hu => (hunits u hu).1) w
  constructor
  · obtain ⟨res, hres⟩ := runParse_ok m ⟨m.parse, m.tag⟩ w (m.env.lower w) m.units
      (fun u hu seen => unitParse_ok m hh.wf hkn _ u.1 (hunits u hu).1 w _ hw hok seen) [] []
    have hres' : firstGroup (fun g => groupParse m ⟨m.parse, m.tag⟩ w (m.env.lower w) g [])
        (boundGroups items 0 ++ boundGroups [[.unkn]] k) = .ok res := by
      rw [← runParse_eq_firstGroup _ _ _ _ _ _ hgr]; exact hres
    have hne : res ≠ [] := firstGroup_last _ _ _ _ _ (unkn_run m _ w (m.env.lower w) k _).1 res hres'
    have hsc : ∀ p ∈ res, 0 < p.score := by
      intro p hp
      rcases runParse_mem m _ w _ _ _ _ _ hres p hp with h1 | ⟨u, hu, seen, r, hr, h1⟩
      · simp at h1
      · exact unitParse_pos m hh.wf _ u.1 (hunits u hu).1 (hunits u hu).2 w _ hpos seen r hr p h1
    rw [hp]
    unfold parseStep
    dsimp only
    rw [hres, ok_bind]
    split
    · next dawg hd =>
      obtain ⟨out, ho, hlen, h3⟩ := applyToParses_pos dawg (m.env.lower w) res hsc (hh.data dawg hd w res hres)
      refine ⟨out, ho, ?_, h3⟩
      intro e; rw [e] at hlen
      exact hne (List.length_eq_zero_iff.1 hlen.symm)
    · exact ⟨res, rfl, hne, hsc⟩
  · obtain ⟨res, hres⟩ := runTag_ok m ⟨m.parse, m.tag⟩ w (m.env.lower w) m.units
      (fun u hu seen => unitTag_ok m hh.wf hkn _ u.1 (hunits u hu).1 w _ hw hok seen) [] []
    have hres' : firstGroup (fun g => groupTag m ⟨m.parse, m.tag⟩ w (m.env.lower w) g [])
        (boundGroups items 0 ++ boundGroups [[.unkn]] k) = .ok res := by
      rw [← runTag_eq_firstGroup _ _ _ _ _ _ hgr]; exact hres
    have hne : res ≠ [] := firstGroup_last _ _ _ _ _ (unkn_run m _ w (m.env.lower w) k _).2 res hres'
    rw [ht]
    unfold tagStep
    dsimp only
    rw [hres, ok_bind]
    split
    · next dawg hd =>
      refine ⟨_, rfl, ?_⟩
      intro e
      have := (applyToTags_perm (S := Rat) dawg (m.env.lower w) res).length_eq
      rw [e] at this
      exact hne (List.length_eq_zero_iff.1 this.symm)
    · exact ⟨res, rfl, hne⟩

theorem ru_items_ok : ∀ g ∈ (ruUnits (S := Rat)).dropLast, ∀ sp ∈ g, sp.bound.properPrefixes ∧ sp.bound.posScores := by
  have hk : ([] : Str) ∉ ruKnownPrefixes := by decide +kernel
  have hd : ∀ n d : Nat, 0 < n → 0 < d → (0 : Rat) < dec n d := by
    intro n d h1 h2
    show (0 : Rat) < (n : Rat) / (d : Rat)
    positivity
  simp [ruUnits, UnitSpec.bound, UnitCfg.properPrefixes, UnitCfg.posScores, hk, hd]

theorem uk_items_ok : ∀ g ∈ (ukUnits (S := Rat)).dropLast, ∀ sp ∈ g, sp.bound.properPrefixes ∧ sp.bound.posScores := by
  have hk : ([] : Str) ∉ ukKnownPrefixes := by decide +kernel
  have hd : ∀ n d : Nat, 0 < n → 0 < d → (0 : Rat) < dec n d := by
    intro n d h1 h2
    show (0 : Rat) < (n : Rat) / (d : Rat)
    positivity
  simp [ukUnits, UnitSpec.bound, UnitCfg.properPrefixes, UnitCfg.posScores, hk, hd]

/-! ### The theorems -/

/-- **C01.** For the default Russian or Ukrainian analyzer over a sound dictionary, `parse(w)` and `tag(w)` return
non-empty lists for every string whose letters have Unicode names; all scores are positive. -/
theorem c01_total (m : Morph Rat) (hm : IsRu m ∨ IsUk m) (hh : Healthy m) (w : Str)
    (hw : m.env.Named w) (hw' : m.env.Named (m.env.lower w)) :
    (∃ ps, m.parse w = .ok ps ∧ ps ≠ [] ∧ ∀ p ∈ ps, 0 < p.score) ∧ ∃ ts, m.tag w = .ok ts ∧ ts ≠ [] := by
  rcases hm with ⟨cls, hm⟩ | ⟨cls, hm⟩
  · exact healthy_total _ ru_items_ok m cls (by simpa [ruUnits] using hm) hh w hw hw'
  · exact healthy_total _ uk_items_ok m cls (by simpa [ukUnits] using hm) hh w hw hw'

/-- The same for every custom `units` list that ends with `UnknAnalyzer()`, whose numeric parameters are positive and
that removes no empty prefix. -/
theorem c01_total_custom (items : List (List (UnitSpec Rat)))
    (hpre : ∀ g ∈ items, ∀ sp ∈ g, sp.bound.properPrefixes ∧ sp.bound.posScores)
    (m : Morph Rat) (cls : TagCls) (hm : mkMorph m.env m.dict cls m.sub (items ++ [[.unkn]]) m.est = .ok m)
    (hh : Healthy m) (w : Str) (hw : m.env.Named w) (hw' : m.env.Named (m.env.lower w)) :
    (∃ ps, m.parse w = .ok ps ∧ ps ≠ [] ∧ ∀ p ∈ ps, 0 < p.score) ∧ ∃ ts, m.tag w = .ok ts ∧ ts ≠ [] :=
  healthy_total items hpre m cls hm hh w hw hw'

section generic
variable {S : Type} [Score S]

theorem default_properPrefixes (m : Morph S) (hm : IsRu m ∨ IsUk m) : ∀ u ∈ m.units, u.1.cfg.properPrefixes := by
  have hk : ([] : Str) ∉ ruKnownPrefixes := by decide +kernel
  have hk' : ([] : Str) ∉ ukKnownPrefixes := by decide +kernel
  rintro ⟨u, t⟩ hu
  rcases hm with ⟨cls, hm⟩ | ⟨cls, hm⟩
  all_goals
    obtain ⟨_, _, _, _, hgr⟩ := mkMorph_units hm
    obtain ⟨g, hg, hug⟩ := (mem_of_isGroups hgr u).1 ⟨t, hu⟩
    obtain ⟨g', hg', sp, hsp, he⟩ := mem_boundGroups _ _ g hg u hug
    dsimp only
    rw [he]
    clear he
    revert hsp
    revert sp hg' g'
  · simp [ruUnits, UnitSpec.bound, UnitCfg.properPrefixes, hk]
  · simp [ukUnits, UnitSpec.bound, UnitCfg.properPrefixes, hk']

/-- **C01, termination.** The nested calls of one `parse`/`tag` never get deeper than the number of characters of the
lower-cased word: with any larger budget of nested calls the answer is the same. -/
theorem c01_nesting_bounded (m : Morph S) (hm : IsRu m ∨ IsUk m) (hlow : m.env.LowerStable) (w : Str) (n : Nat)
    (hn : (m.env.lower w).length < n) :
    (analyze m n).parse w = m.parse w ∧ (analyze m n).tag w = m.tag w :=
  analyze_budget m hlow (default_properPrefixes m hm) n (m.depth w) w hn (by unfold Morph.depth; omega)

/-- **C01.** `parse` and `tag` satisfy the recursive equations of the source (nested calls are `parse`/`tag`). -/
theorem c01_recursive_equation (m : Morph S) (hm : IsRu m ∨ IsUk m) (hlow : m.env.LowerStable) (w : Str) :
    m.parse w = parseStep m ⟨m.parse, m.tag⟩ w ∧ m.tag w = tagStep m ⟨m.parse, m.tag⟩ w :=
  parse_unfold m hlow (default_properPrefixes m hm) w

end generic


/-! ### Where it fails: each hypothesis is needed -/

/-- A letter without a Unicode name makes both calls raise `ValueError`. -/
theorem c01_unnamed_letter_raises :
    Demo.morph.parse (c!"〆") = .error .valueError ∧ Demo.morph.tag (c!"〆") = .error .valueError := by
  decide +kernel

/-- A dictionary where кош is a conjunction and a noun, with P(t|w) data for the conjunction reading only. -/
def Demo.dictZ : Dict :=
  { Demo.dict with words := [(c!"кош", (2, 0)), (c!"кош", (4, 0))], paradigms := Demo.dict.paradigms ++ [[4, 0, 0]],
                   pred := [[], [], []] }

theorem Demo.dictZ_wf : Demo.dictZ.WF := Dict.check_wf _ (by decide +kernel)

def Demo.morphZ : Morph Rat :=
  { Demo.morph with dict := Demo.dictZ, est := some [(c!"кош:CONJ", 1000000)] }

/-- With incomplete P(t|w) data `parse` can raise `ZeroDivisionError`: the only reading of кош that is a productive word
class has score 0, so all the scores of the prefixed word сверхкош are 0. -/
theorem c01_incomplete_data_raises :
    IsRu Demo.morphZ ∧ Demo.morphZ.dict.WF ∧
    Demo.morphZ.parse (c!"сверхкош") = .error .zeroDivisionError := by
  refine ⟨⟨Demo.cls, ?_⟩, Demo.dictZ_wf, by decide +kernel⟩
  unfold mkMorph
  show (initUnits (ruUnits (S := Rat)) Demo.cls >>= fun r =>
    pure (⟨Demo.morphZ.env, Demo.morphZ.dict, r.1, Demo.morphZ.sub, r.2, Demo.morphZ.est⟩ : Morph Rat)) = _
  rw [Demo.bound_ok]; rfl

/-! ### Non-vacuity -/

theorem Demo.morph_healthy : Healthy Demo.morph where
  low := demoEnv_lowerStable
  wf := Demo.dict_wf
  known := by decide +kernel
  data := by intro dawg h; simp [Demo.morph] at h

example : demoEnv.Named (c!"Нет-то") ∧ demoEnv.Named (demoEnv.lower (c!"Нет-то")) := by
  unfold Env.Named; decide +kernel

/-- The answers for concrete words: a known one, a prefixed unknown one, garbage. -/
example : ((Demo.morph.parse (c!"Кошка")).toOption.map List.length = some 1) ∧
    ((Demo.morph.tag (c!"суперкошка")).toOption.map List.length = some 1) ∧
    ((Demo.morph.parse (c!"ъъ")).toOption.map List.length = some 1) := by decide +kernel

end Verif
