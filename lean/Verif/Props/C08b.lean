/-
C07 and C08 for `tag()`, in terms of the API: the group that answers `tag` is the one that answers `parse`.
-/
import Verif.Props.C02
import Verif.Props.C06
import Verif.Props.C07
import Verif.Props.C08

set_option linter.unusedSectionVars false

namespace Verif

variable {S : Type} [Score S]

theorem unknAlone_nil (m : Morph S) (hd : m.dict.WF) (rec : Rec S) (w : Str) (hrec : rec.TagsBelow (m.env.lower w)) (g : List (BUnit S))
    (hu : ∀ u ∈ g, u.cfg.properPrefixes) (hk : UnknAlone g) (r : List (Parse S)) (rt : List Tag)
    (hr : groupParse m rec w (m.env.lower w) g [] = .ok r) (hrt : groupTag m rec w (m.env.lower w) g [] = .ok rt) : r = [] ↔ rt = [] := by
  rcases hk with hk | ⟨n, t, rfl⟩
  · have := group_sameTags (fun _ => False) m hd rec g hu hk w (m.env.lower w) hrec [] [] (by simp [SeenIn]) (by simp [SeenTIn]) r rt hr hrt
    exact sameTags_nil fun τ => by simpa using this τ
  · simp [groupParse, unitParse, bind_ok_iff, pure_eq_ok] at hr
    simp [groupTag, unitTag, bind_ok_iff, pure_eq_ok] at hrt
    subst hr; subst hrt
    simp

/-- If `parse` has a result made by a unit of kind `k`, then `tag` lists the tags of one group, which has a unit of that kind. -/
theorem tag_group (m : Morph S) (hlow : m.env.LowerStable) (hd : m.dict.WF) (groups : List (List (BUnit S)))
    (hgr : IsGroups groups m.units) (hu : ∀ g ∈ groups, ∀ u ∈ g, u.cfg.properPrefixes) (hk : ∀ g ∈ groups, UnknAlone g) (w : Str)
    (ps : List (Parse S)) (ts : List Tag) (hps : m.parse w = .ok ps) (hts : m.tag w = .ok ts) (p : Parse S) (hp : p ∈ ps) (u : UObj) (ho : p.outer = some u) :
    ∃ g ∈ groups, (∃ v ∈ g, v.obj = u) ∧ ∃ rest, groupTag m ⟨m.parse, m.tag⟩ w (m.env.lower w) g [] = .ok rest ∧ ts.Perm rest := by
  have hu' : ∀ u ∈ m.units, u.1.cfg.properPrefixes := by
    rintro ⟨u, t⟩ h
    obtain ⟨g, hg, hug⟩ := (mem_of_isGroups hgr u).1 ⟨t, h⟩
    exact hu g hg u hug
  have hrec : Rec.TagsBelow (m.env.lower w) ⟨m.parse, m.tag⟩ := fun x _ _ ps ts h1 h2 => parse_tag_sameTags m hlow hd groups hgr hu hk x ps ts h1 h2
  obtain ⟨e1, e2⟩ := parse_unfold m hlow hu' w
  rw [e1] at hps
  rw [e2] at hts
  obtain ⟨res, hres, hperm⟩ := parseStep_core m _ w ps hps
  obtain ⟨rest, hrest, hpermT⟩ := tagStep_perm m _ w ts hts
  rw [runParse_eq_firstGroup _ _ _ _ _ _ hgr] at hres
  rw [runTag_eq_firstGroup _ _ _ _ _ _ hgr] at hrest
  obtain ⟨q, hq, hqc⟩ := List.mem_map.1 (hperm.subset (List.mem_map_of_mem hp))
  have hqo : q.outer = some u := by
    have : q.stack = p.stack := by simp only [Parse.core, Prod.mk.injEq] at hqc; exact hqc.2.2.2
    rw [← ho]; unfold Parse.outer; rw [this]
  rw [firstGroup_iff] at hres hrest
  rcases hres with ⟨hne, b, g, a, hg, hb, hrg⟩ | ⟨rfl, _⟩
  swap
  · simp at hq
  obtain ⟨v, hv, seen', r, hr, hqr⟩ := groupParse_mem _ _ _ _ _ _ _ hrg q hq
  have hvo := unitParse_outer _ _ _ _ _ _ _ hr q hqr
  rw [hqo, Option.some.injEq] at hvo
  have nilOf : ∀ x ∈ groups, ∀ r rt, groupParse m ⟨m.parse, m.tag⟩ w (m.env.lower w) x [] = .ok r →
      groupTag m ⟨m.parse, m.tag⟩ w (m.env.lower w) x [] = .ok rt → (r = [] ↔ rt = []) :=
    fun x hx r rt => unknAlone_nil m hd _ w hrec x (hu x hx) (hk x hx) r rt
  refine ⟨g, by rw [hg]; simp, ⟨v, hv, hvo.symm⟩, rest, ?_, hpermT⟩
  rcases hrest with ⟨hneT, b', g', a', hg', hb', hrg'⟩ | ⟨rfl, hall⟩
  swap
  · exact absurd ((nilOf g (by rw [hg]; simp) _ _ hrg (hall g (by rw [hg]; simp))).2 rfl) hne
  rw [hg] at hg'
  rcases List.append_eq_append_iff.1 hg' with ⟨c, h1, h2⟩ | ⟨c, h1, h2⟩
  · cases c with
    | nil => simp only [List.nil_append, List.cons.injEq] at h2; rw [h2.1]; exact hrg'
    | cons x c =>
      simp only [List.cons_append, List.cons.injEq] at h2
      have hgm : g ∈ b' := by rw [h1, h2.1]; simp
      exact absurd ((nilOf g (by rw [hg]; simp) _ _ hrg (hb' g hgm)).2 rfl) hne
  · cases c with
    | nil => simp only [List.nil_append, List.cons.injEq] at h2; rw [← h2.1]; exact hrg'
    | cons x c =>
      simp only [List.cons_append, List.cons.injEq] at h2
      have hgm : g' ∈ b := by rw [h1, h2.1]; simp
      exact absurd ((nilOf g' (by rw [hg, h1, ← h2.1]; simp) _ _ (hb g' hgm) hrg').1 rfl) hneT

theorem boundGroups_mem (items : List (List (UnitSpec S))) (n : Nat) (g : List (BUnit S)) (hg : g ∈ boundGroups items n) :
    ∃ it ∈ items, (∀ u ∈ g, ∃ sp ∈ it, u.cfg = sp.bound) ∧ ∃ k, g = it.mapIdx fun i sp => ⟨k + i, sp.bound⟩ := by
  induction items generalizing n with
  | nil => simp [boundGroups] at hg
  | cons x xs ih =>
    rcases List.mem_cons.1 hg with rfl | hg
    · refine ⟨x, by simp, ?_, n, rfl⟩
      intro u hu
      obtain ⟨i, hi, rfl⟩ := List.mem_mapIdx.1 hu
      exact ⟨_, List.getElem_mem hi, rfl⟩
    · obtain ⟨it, hit, h⟩ := ih _ hg
      exact ⟨it, by simp [hit], h⟩

/-- **C07 and C08 for `tag`, custom unit lists**: when the answer of `parse` has a result made by removing a prefix or predicting by the ending, no tag of
`tag(w)` is listed twice and none has a closed-class grammeme, provided the units of prediction stand in groups of their own. -/
theorem tag_predicted (items : List (List (UnitSpec S))) (hpred : ∀ it ∈ items, (∃ sp ∈ it, sp.bound.kind = .pref ∨ sp.bound.kind = .suff) →
      ∀ sp ∈ it, sp.bound.kind = .pref ∨ sp.bound.kind = .suff)
    (hunkn : ∀ it ∈ items, (∀ sp ∈ it, sp.bound.kind ≠ .unkn) ∨ it = [.unkn]) (m : Morph S) (hgr : IsGroups (boundGroups items 0) m.units)
    (hu : ∀ u ∈ m.units, u.1.cfg.properPrefixes) (hlow : m.env.LowerStable) (hd : m.dict.WF) (w : Str) (ps : List (Parse S)) (ts : List Tag)
    (hps : m.parse w = .ok ps) (hts : m.tag w = .ok ts) (p : Parse S) (hp : p ∈ ps) (u : UObj) (ho : p.outer = some u) (hk : u.kind = .pref ∨ u.kind = .suff) :
    ts.Pairwise (fun a b => a.eqv b = false) ∧ ∀ t ∈ ts, ∀ g ∈ closedClasses, g ∉ t.grammemes := by
  have hu1 : ∀ g ∈ boundGroups items 0, ∀ u ∈ g, u.cfg.properPrefixes := by
    intro g hg u hug
    obtain ⟨t, ht⟩ := (mem_of_isGroups hgr u).2 ⟨g, hg, hug⟩
    exact hu (u, t) ht
  have hk1 : ∀ g ∈ boundGroups items 0, UnknAlone g := by
    intro g hg
    obtain ⟨it, hit, h1, k, h2⟩ := boundGroups_mem items 0 g hg
    rcases hunkn it hit with h | rfl
    · left
      intro x hx
      obtain ⟨sp, hsp, hc⟩ := h1 x hx
      rw [hc]; exact h sp hsp
    · right; exact ⟨k, _, by rw [h2]; rfl⟩
  obtain ⟨g, hg, ⟨v, hv, rfl⟩, rest, hrest, hperm⟩ := tag_group m hlow hd _ hgr hu1 hk1 w ps ts hps hts p hp u ho
  have hall : ∀ u ∈ g, u.cfg.kind = .pref ∨ u.cfg.kind = .suff := by
    obtain ⟨it, hit, h1, k, h2⟩ := boundGroups_mem items 0 g hg
    obtain ⟨sp, hsp, hc⟩ := h1 v hv
    have := hpred it hit ⟨sp, hsp, by rw [← hc]; exact hk⟩
    intro x hx
    obtain ⟨sp', hsp', hc'⟩ := h1 x hx
    rw [hc']; exact this sp' hsp'
  constructor
  · have h1 := c08_tag m _ w _ g [] (fun u hu => by rcases hall u hu with h | h <;> rw [h] <;> rfl) rest hrest
    refine (hperm.pairwise_iff ?_).2 h1
    intro a b h
    unfold Tag.eqv at h ⊢
    rw [Bool.eq_false_iff] at h ⊢
    intro h'
    apply h
    rw [beq_iff_eq] at h' ⊢
    exact h'.symm
  · intro t ht
    exact c07_tag m _ w _ g [] hall rest hrest t (hperm.subset ht)

theorem default_tag_predicted (m : Morph S) (hm : IsRu m ∨ IsUk m) (hlow : m.env.LowerStable) (hd : m.dict.WF) (w : Str) (ps : List (Parse S)) (ts : List Tag)
    (hps : m.parse w = .ok ps) (hts : m.tag w = .ok ts) (p : Parse S) (hp : p ∈ ps) (u : UObj) (ho : p.outer = some u) (hk : u.kind = .pref ∨ u.kind = .suff) :
    ts.Pairwise (fun a b => a.eqv b = false) ∧ ∀ t ∈ ts, ∀ g ∈ closedClasses, g ∉ t.grammemes := by
  have hpp := default_properPrefixes m hm
  rcases hm with ⟨cls, hm⟩ | ⟨cls, hm⟩
  · exact tag_predicted _ (by simp [ruUnits, UnitSpec.bound, UnitCfg.kind]) (by simp [ruUnits, UnitSpec.bound, UnitCfg.kind]) m (mkMorph_units hm).2.2.2.2
      hpp hlow hd w ps ts hps hts p hp u ho hk
  · exact tag_predicted _ (by simp [ukUnits, UnitSpec.bound, UnitCfg.kind]) (by simp [ukUnits, UnitSpec.bound, UnitCfg.kind]) m (mkMorph_units hm).2.2.2.2
      hpp hlow hd w ps ts hps hts p hp u ho hk

/-- **C07 for `tag` of the default analyzers**: when `parse(w)` has a result of prefix removal or suffix prediction, no tag of `tag(w)` has a closed-class
grammeme. -/
theorem c07_tag_default (m : Morph S) (hm : IsRu m ∨ IsUk m) (hlow : m.env.LowerStable) (hd : m.dict.WF) (w : Str) (ps : List (Parse S)) (ts : List Tag)
    (hps : m.parse w = .ok ps) (hts : m.tag w = .ok ts) (p : Parse S) (hp : p ∈ ps) (u : UObj) (ho : p.outer = some u) (hk : u.kind = .pref ∨ u.kind = .suff) :
    ∀ t ∈ ts, ∀ g ∈ closedClasses, g ∉ t.grammemes := (default_tag_predicted m hm hlow hd w ps ts hps hts p hp u ho hk).2

/-- **C08 for `tag` of the default analyzers**: when `parse(w)` has a result of prefix removal or suffix prediction, `tag(w)` lists no tag twice. -/
theorem c08_tag_default (m : Morph S) (hm : IsRu m ∨ IsUk m) (hlow : m.env.LowerStable) (hd : m.dict.WF) (w : Str) (ps : List (Parse S)) (ts : List Tag)
    (hps : m.parse w = .ok ps) (hts : m.tag w = .ok ts) (p : Parse S) (hp : p ∈ ps) (u : UObj) (ho : p.outer = some u) (hk : u.kind = .pref ∨ u.kind = .suff) :
    ts.Pairwise (fun a b => a.eqv b = false) := (default_tag_predicted m hm hlow hd w ps ts hps hts p hp u ho hk).1

/-- A guessed word meets the hypotheses. -/
example : IsRu Demo.morph ∧ Demo.morph.env.LowerStable ∧ Demo.morph.dict.WF ∧
    ((Demo.morph.parse (c!"мышка")).toOption.map fun ps => ps.map fun p => p.outer.map UObj.kind) = some [some .suff] ∧
    (Demo.morph.tag (c!"мышка")).toOption.isSome = true := ⟨Demo.morph_isRu, demoEnv_lowerStable, Demo.dict_wf, by decide +kernel, by decide +kernel⟩

end Verif
