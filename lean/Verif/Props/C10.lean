/-
C10 — the UNKN answer is given only when nothing else matches.
-/
import Verif.Props.C06
import Verif.Lemmas.Outer

set_option linter.unusedSectionVars false

namespace Verif

variable {S : Type} [Score S]

/-- If a group returns nothing, so does each of its units. -/
theorem groupParse_nil_units (m : Morph S) (rec : Rec S) (word wl : Str) (g : List (BUnit S)) (seen : Seen)
    (h : groupParse m rec word wl g seen = .ok []) : ∀ u ∈ g, unitParse m rec u word wl seen = .ok ([], seen) := by
  induction g generalizing seen with
  | nil => simp
  | cons u us ih =>
    simp only [groupParse, bind_ok_iff, pure_eq_ok, Except.ok.injEq] at h
    obtain ⟨r, hr, rest, hrest, he⟩ := h
    obtain ⟨h1, h2⟩ := List.append_eq_nil_iff.1 he
    have hs := unitParse_nil hr h1
    subst h2
    intro v hv
    rcases List.mem_cons.1 hv with rfl | hv
    · rw [hr]; rw [← h1, ← hs]
    · rw [hs] at hrest; exact ih _ hrest v hv

/-- `p` was produced by the `UnknAnalyzer`. -/
def Parse.isUnkn (p : Parse S) : Bool := p.outer.any fun o => decide (o.kind = .unkn)

theorem boundGroups_append (a b : List (List (UnitSpec S))) (n : Nat) :
    ∃ k, boundGroups (a ++ b) n = boundGroups a n ++ boundGroups b k := by
  induction a generalizing n with
  | nil => exact ⟨n, rfl⟩
  | cons g gs ih =>
    obtain ⟨k, hk⟩ := ih (n + g.length)
    exact ⟨k, by simp [boundGroups, hk]⟩

theorem mem_boundGroups (items : List (List (UnitSpec S))) (n : Nat) (g : List (BUnit S)) (hg : g ∈ boundGroups items n)
    (u : BUnit S) (hu : u ∈ g) : ∃ g' ∈ items, ∃ sp ∈ g', u.cfg = sp.bound := by
  induction items generalizing n with
  | nil => simp [boundGroups] at hg
  | cons x xs ih =>
    rcases List.mem_cons.1 hg with rfl | hg
    · obtain ⟨i, hi, rfl⟩ := List.mem_mapIdx.1 hu
      exact ⟨x, by simp, x[i], by simp, rfl⟩
    · obtain ⟨g', hg', h⟩ := ih _ hg
      exact ⟨g', by simp [hg'], h⟩

/-- C10 for any unit list that ends with `UnknAnalyzer` and does not use it elsewhere. -/
theorem c10_unkn_alone (items : List (List (UnitSpec S))) (hun : ∀ g ∈ items, ∀ sp ∈ g, sp.bound.kind ≠ .unkn)
    (m : Morph S) (cls : TagCls) (hm : mkMorph m.env m.dict cls m.sub (items ++ [[.unkn]]) m.est = .ok m) (w : Str)
    (ps : List (Parse S)) (h : m.parse w = .ok ps) (p : Parse S) (hp : p ∈ ps) (hu : p.isUnkn = true) :
    ps = [p] ∧ p.word = m.env.lower w ∧ p.nf = m.env.lower w ∧ p.tag.str = c!"UNKN" ∧
    ∀ u t, (u, t) ∈ m.units → u.cfg.kind ≠ .unkn →
      unitParse m (analyze m (m.env.lower w).length) u w (m.env.lower w) [] = .ok ([], []) := by
  obtain ⟨res, hres, hsc⟩ := (c06_parse_first_group _ _ cls _ _ _ m hm w ps).1 h
  have hperm : (ps.map Parse.core).Perm (res.map Parse.core) := by
    unfold rescored at hsc
    split at hsc
    · exact applyToParses_core _ _ _ _ hsc
    · simp at hsc; subst hsc; exact .refl _
  obtain ⟨q, hq, he⟩ := List.mem_map.1 (hperm.mem_iff.1 (List.mem_map.2 ⟨p, hp, rfl⟩))
  have he' := (core_eq_iff _ _).1 he
  have hqu : q.isUnkn = true := by
    rw [← hu]; simp [Parse.isUnkn, Parse.outer, he']
  obtain ⟨k, hk⟩ := boundGroups_append items [[.unkn]] 0
  have hG := (mkMorph_units hm).2.2.2.2
  rw [hk] at hres hG
  simp only [boundGroups, List.mapIdx_cons, List.mapIdx_nil, UnitSpec.bound] at hres hG
  rcases hres with ⟨hne, before, g, after, hgr, hbefore, hg⟩ | ⟨hnil, _⟩
  swap
  · subst hnil; simp at hq
  obtain ⟨u, hug, seen', r, hr, hqr⟩ := groupParse_mem _ _ _ _ _ _ _ hg q hq
  have hout := unitParse_outer _ _ _ _ _ _ _ hr q hqr
  have huk : u.cfg.kind = .unkn := by simpa [Parse.isUnkn, hout, BUnit.obj] using hqu
  have hnot : g ∉ boundGroups items 0 := by
    intro hgi
    obtain ⟨g', hg', sp, hsp, hcfg⟩ := mem_boundGroups items 0 g hgi u hug
    exact hun g' hg' sp hsp (by rw [← hcfg]; exact huk)
  have hafter : after = [] := by
    rcases List.eq_nil_or_concat after with h0 | ⟨init, x, h0⟩
    · exact h0
    · exfalso
      subst h0
      have : before ++ g :: init = boundGroups items 0 := by
        have e : (before ++ g :: init) ++ [x] = boundGroups items 0 ++ [[⟨k + 0, .unkn ⟨c!"UNKN"⟩⟩]] := by
          rw [hgr]; simp
        exact (List.append_inj' e rfl).1
      exact hnot (this ▸ by simp)
  subst hafter
  obtain ⟨e1, e2⟩ := List.append_inj' hgr rfl
  injection e2 with e2
  subst e2
  simp only [groupParse, unitParse, if_pos, ok_bind, pure_eq_ok, Except.ok.injEq, List.append_nil] at hg
  subst hg
  obtain rfl := List.mem_singleton.1 hq
  have hlen : ps.length = 1 := by simpa using hperm.length_eq
  obtain ⟨a, rfl⟩ := List.length_eq_one_iff.1 hlen
  obtain rfl := List.mem_singleton.1 hp
  refine ⟨rfl, he'.1.symm, he'.2.2.1.symm, by rw [← he'.2.1], ?_⟩
  intro v t hv hvk
  obtain ⟨gv, hgv, hvg⟩ := (mem_of_isGroups hG v).1 ⟨t, hv⟩
  rcases List.mem_append.1 hgv with hgv | hgv
  · rw [e1] at hgv
    exact groupParse_nil_units _ _ _ _ _ _ (hbefore gv hgv) v hvg
  · obtain rfl := List.mem_singleton.1 hgv
    obtain rfl := List.mem_singleton.1 hvg
    exact absurd rfl hvk

/-- C10 for the default analyzers. -/
theorem c10_default (m : Morph S) (hm : IsRu m ∨ IsUk m) (w : Str) (ps : List (Parse S)) (h : m.parse w = .ok ps)
    (p : Parse S) (hp : p ∈ ps) (hu : p.isUnkn = true) :
    ps = [p] ∧ p.word = m.env.lower w ∧ p.nf = m.env.lower w ∧ p.tag.str = c!"UNKN" ∧
    ∀ u t, (u, t) ∈ m.units → u.cfg.kind ≠ .unkn →
      unitParse m (analyze m (m.env.lower w).length) u w (m.env.lower w) [] = .ok ([], []) := by
  rcases hm with ⟨cls, hm⟩ | ⟨cls, hm⟩
  · exact c10_unkn_alone ruUnits.dropLast (by simp [ruUnits, UnitSpec.bound, UnitCfg.kind]) m cls hm w ps h p hp hu
  · exact c10_unkn_alone ukUnits.dropLast (by simp [ukUnits, UnitSpec.bound, UnitCfg.kind]) m cls hm w ps h p hp hu

/-! Non-vacuity (tests). -/
example : (Demo.morph.parse (c!"ззз")).toOption.map (·.map Parse.isUnkn) = some [true] := by decide +kernel
example : IsRu Demo.morph := Demo.morph_isRu

end Verif
