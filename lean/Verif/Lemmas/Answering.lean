/-
The group a result comes from gives the whole answer.
-/
import Verif.Lemmas.Predict
import Verif.Props.C06
import Verif.Props.C10

set_option linter.unusedSectionVars false

namespace Verif

variable {S : Type} [Score S]

theorem boundGroups_ids (items : List (List (UnitSpec S))) (n : Nat) :
    ((boundGroups items n).flatten.map BUnit.id).Pairwise (· < ·) ∧ ∀ u ∈ (boundGroups items n).flatten, n ≤ u.id := by
  induction items generalizing n with
  | nil => simp [boundGroups]
  | cons g gs ih =>
    obtain ⟨h1, h2⟩ := ih (n + g.length)
    have hid : (g.mapIdx fun i (sp : UnitSpec S) => (⟨n + i, sp.bound⟩ : BUnit S)).map BUnit.id = (List.range g.length).map (n + ·) := by
      apply List.ext_getElem?
      intro i
      simp only [List.getElem?_map, List.getElem?_mapIdx, List.getElem?_range]
      by_cases h : i < g.length
      · simp [h]
      · simp [h]
    simp only [boundGroups, List.flatten_cons, List.map_append]
    refine ⟨?_, ?_⟩
    · rw [List.pairwise_append]
      refine ⟨?_, h1, ?_⟩
      · rw [hid, List.pairwise_map]
        exact List.pairwise_lt_range.imp (fun h => by omega)
      · intro a ha b hb
        rw [hid] at ha
        obtain ⟨i, hi, rfl⟩ := List.mem_map.1 ha
        obtain ⟨u, hu, rfl⟩ := List.mem_map.1 hb
        have := h2 u hu
        have := List.mem_range.1 hi
        omega
    · intro u hu
      rcases List.mem_append.1 hu with hu | hu
      · obtain ⟨i, hi, rfl⟩ := List.mem_mapIdx.1 hu
        simp
      · have := h2 u hu
        omega

theorem boundGroups_unique (items : List (List (UnitSpec S))) (n : Nat) (before after : List (List (BUnit S))) (g g' : List (BUnit S))
    (h : boundGroups items n = before ++ g :: after) (hg' : g' ∈ boundGroups items n) (u v : BUnit S) (hu : u ∈ g) (hv : v ∈ g')
    (he : u.obj = v.obj) : g' = g := by
  have hid : u.id = v.id := by
    have : (BUnit.obj u).id = (BUnit.obj v).id := by rw [he]
    simp only [BUnit.obj] at this
    omega
  obtain ⟨hp, -⟩ := boundGroups_ids items n
  rw [h] at hp hg'
  simp only [List.flatten_append, List.flatten_cons, List.map_append, List.pairwise_append] at hp
  rcases List.mem_append.1 hg' with hm | hm
  · have := hp.2.2 v.id (List.mem_map.2 ⟨v, List.mem_flatten.2 ⟨g', hm, hv⟩, rfl⟩) u.id (by simp only [List.mem_append]; exact .inl (List.mem_map.2 ⟨u, hu, rfl⟩))
    omega
  · rcases List.mem_cons.1 hm with hm | hm
    · exact hm
    · have := hp.2.1.2.2 u.id (List.mem_map.2 ⟨u, hu, rfl⟩) v.id (List.mem_map.2 ⟨v, List.mem_flatten.2 ⟨g', hm, hv⟩, rfl⟩)
      omega

/-- If some result comes from a unit of group `g`, then (up to scores and order) `parse` returned exactly the answer of `g`. -/
theorem answering_group {items : List (List (UnitSpec S))} {m : Morph S} {cls : TagCls}
    (hm : mkMorph m.env m.dict cls m.sub items m.est = .ok m) (rec : Rec S) (w : Str) (ps : List (Parse S)) (h : parseStep m rec w = .ok ps)
    (g : List (BUnit S)) (hg : g ∈ boundGroups items 0) (q : Parse S) (hq : q ∈ ps) (v : BUnit S) (hv : v ∈ g) (ho : q.outer = some v.obj) :
    ∃ res, groupParse m rec w (m.env.lower w) g [] = .ok res ∧ (ps.map Parse.core).Perm (res.map Parse.core) := by
  obtain ⟨res, hres, hperm⟩ := parseStep_core m rec w ps h
  rw [runParse_eq_firstGroup m _ w _ _ _ (mkMorph_units hm).2.2.2.2] at hres
  obtain ⟨q', hq', he⟩ := List.mem_map.1 (hperm.mem_iff.1 (List.mem_map.2 ⟨q, hq, rfl⟩))
  have ho' : q'.outer = some v.obj := by
    rw [← ho]
    simp only [Parse.core, Prod.mk.injEq] at he
    unfold Parse.outer
    rw [he.2.2.2]
  rcases (firstGroup_iff _ _ _).1 hres with ⟨_, before, g', after, hsplit, _, hrun⟩ | ⟨rfl, _⟩
  · obtain ⟨u, hu, seen, r, hr, hqr⟩ := groupParse_mem _ _ _ _ _ _ _ hrun q' hq'
    have := unitParse_outer _ _ _ _ _ _ _ hr q' hqr
    rw [ho'] at this
    have := boundGroups_unique items 0 before after g' g hsplit hg u v hu hv (Option.some.inj this).symm
    subst this
    exact ⟨res, hrun, hperm⟩
  · simp at hq'

/-- The same, starting from a single result: its unit and the place it is computed. -/
theorem result_unit {items : List (List (UnitSpec S))} {m : Morph S} {cls : TagCls}
    (hm : mkMorph m.env m.dict cls m.sub items m.est = .ok m) (rec : Rec S) (w : Str) (ps : List (Parse S)) (h : parseStep m rec w = .ok ps)
    (p : Parse S) (hp : p ∈ ps) : ∃ g ∈ boundGroups items 0, ∃ u ∈ g, p.outer = some u.obj ∧ ∃ seen r,
      unitParse m rec u w (m.env.lower w) seen = .ok r ∧ ∃ q ∈ r.1, q.core = p.core := by
  obtain ⟨u, hu, seen, r, hr, q, hq, he⟩ := parseStep_mem_core m rec w ps h p hp
  obtain ⟨g, hg, hug⟩ := (mem_of_isGroups (mkMorph_units hm).2.2.2.2 u.1).1 ⟨u.2, hu⟩
  refine ⟨g, hg, u.1, hug, ?_, seen, r, hr, q, hq, he⟩
  rw [← unitParse_outer _ _ _ _ _ _ _ hr q hq]
  simp only [Parse.core, Prod.mk.injEq] at he
  unfold Parse.outer
  rw [he.2.2.2]

end Verif
