/-
C08 — predicted parses are not repeated.
-/
import Verif.Lemmas.Outer
import Verif.Lemmas.DictCheck

set_option linter.unusedSectionVars false

namespace Verif

variable {S : Type} [Score S]

/-- Result obtained by prefix removal, suffix prediction or particle removal (outermost method). -/
def UKind.predicts : UKind → Bool
  | .pref | .suff | .particle => true
  | _ => false

def Parse.predicted (p : Parse S) : Bool :=
  match p.outer with
  | some u => u.kind.predicts
  | none => false

theorem addParses_spec (ps : List (Parse S)) (seen : Seen) :
    ((addParses ps seen).1.map Parse.key).Nodup ∧
    (∀ p ∈ (addParses ps seen).1, p.key ∉ seen) ∧
    (∀ k, k ∈ (addParses ps seen).2 ↔ k ∈ seen ∨ k ∈ (addParses ps seen).1.map Parse.key) := by
  induction ps generalizing seen with
  | nil => simp [addParses]
  | cons p ps ih =>
    rw [addParses]
    split
    · exact ih seen
    · next hn =>
      obtain ⟨h1, h2, h3⟩ := ih (p.key :: seen)
      refine ⟨?_, ?_, ?_⟩
      · simp only [List.map_cons, List.nodup_cons]
        refine ⟨?_, h1⟩
        intro hm
        obtain ⟨q, hq, he⟩ := List.mem_map.1 hm
        exact h2 q hq (by simp [he])
      · intro q hq
        rcases List.mem_cons.1 hq with rfl | hq
        · exact hn
        · exact fun hs => h2 q hq (by simp [hs])
      · intro k
        rw [h3 k]
        simp only [List.mem_cons, List.map_cons]
        tauto

theorem dedupCands_spec (cs : List SfxCand) (seen : Seen) :
    ((dedupCands cs seen).1.map SfxCand.key).Nodup ∧
    (∀ p ∈ (dedupCands cs seen).1, p.key ∉ seen) ∧
    (∀ k, k ∈ (dedupCands cs seen).2 ↔ k ∈ seen ∨ k ∈ (dedupCands cs seen).1.map SfxCand.key) := by
  induction cs generalizing seen with
  | nil => simp [dedupCands]
  | cons p ps ih =>
    rw [dedupCands]
    split
    · exact ih seen
    · next hn =>
      obtain ⟨h1, h2, h3⟩ := ih (p.key :: seen)
      refine ⟨?_, ?_, ?_⟩
      · simp only [List.map_cons, List.nodup_cons]
        refine ⟨?_, h1⟩
        intro hm
        obtain ⟨q, hq, he⟩ := List.mem_map.1 hm
        exact h2 q hq (by simp [he])
      · intro q hq
        rcases List.mem_cons.1 hq with rfl | hq
        · exact hn
        · exact fun hs => h2 q hq (by simp [hs])
      · intro k
        rw [h3 k]
        simp only [List.mem_cons, List.map_cons]
        tauto

/-- Running two de-duplicating steps one after the other. -/
theorem seen_append {α κ : Type} (key : α → κ) (a b : List α) (s0 s1 s2 : List κ)
    (ha : (a.map key).Nodup) (ha' : ∀ p ∈ a, key p ∉ s0) (ha'' : ∀ k, k ∈ s1 ↔ k ∈ s0 ∨ k ∈ a.map key)
    (hb : (b.map key).Nodup) (hb' : ∀ p ∈ b, key p ∉ s1) (hb'' : ∀ k, k ∈ s2 ↔ k ∈ s1 ∨ k ∈ b.map key) :
    ((a ++ b).map key).Nodup ∧ (∀ p ∈ a ++ b, key p ∉ s0) ∧ (∀ k, k ∈ s2 ↔ k ∈ s0 ∨ k ∈ (a ++ b).map key) := by
  refine ⟨?_, ?_, ?_⟩
  · rw [List.map_append]
    refine List.nodup_append.2 ⟨ha, hb, ?_⟩
    intro x hx y hy e
    subst e
    obtain ⟨p, hp, he⟩ := List.mem_map.1 hy
    exact hb' p hp ((ha'' _).2 (.inr (he ▸ hx)))
  · intro p hp
    rcases List.mem_append.1 hp with hp | hp
    · exact ha' p hp
    · exact fun hs => hb' p hp ((ha'' _).2 (.inl hs))
  · intro k
    rw [hb'', ha'', List.map_append, List.mem_append]
    tauto

theorem sfxLoop_spec (cands : Nat → Except PyErr (List SfxCand)) (is : List Nat) (total : Nat) (seen : Seen)
    (r : List SfxCand × Nat × Seen) (h : sfxLoop cands is total seen = .ok r) :
    (r.1.map SfxCand.key).Nodup ∧ (∀ p ∈ r.1, p.key ∉ seen) ∧
    (∀ k, k ∈ r.2.2 ↔ k ∈ seen ∨ k ∈ r.1.map SfxCand.key) := by
  induction is generalizing total seen r with
  | nil => simp [sfxLoop] at h; subst h; simp
  | cons i is ih =>
    rw [sfxLoop, bind_ok_iff] at h
    obtain ⟨cs, hcs, h⟩ := h
    dsimp only at h
    split at h
    · simp at h; subst h; exact dedupCands_spec cs seen
    · simp only [bind_ok_iff, pure_eq_ok, Except.ok.injEq] at h
      obtain ⟨r', hr', rfl⟩ := h
      obtain ⟨a1, a2, a3⟩ := dedupCands_spec cs seen
      obtain ⟨b1, b2, b3⟩ := ih _ _ _ hr'
      exact seen_append _ _ _ _ _ _ a1 a2 a3 b1 b2 b3

theorem sfxPrefixLoop_spec (d : Dict) (sub : Subst) (wl : Str) (ips : List (Nat × Str)) (seen : Seen)
    (r : List (SfxCand × Nat) × Seen) (h : sfxPrefixLoop d sub wl ips seen = .ok r) :
    (r.1.map fun c => c.1.key).Nodup ∧ (∀ p ∈ r.1, p.1.key ∉ seen) ∧
    (∀ k, k ∈ r.2 ↔ k ∈ seen ∨ k ∈ r.1.map fun c => c.1.key) := by
  induction ips generalizing seen r with
  | nil => simp [sfxPrefixLoop] at h; subst h; simp
  | cons ip ips ih =>
    simp only [sfxPrefixLoop, bind_ok_iff, pure_eq_ok, Except.ok.injEq, pyGet_ok_iff] at h
    obtain ⟨t, ht, r1, hr1, r2, hr2, rfl⟩ := h
    obtain ⟨a1, a2, a3⟩ := sfxLoop_spec _ _ _ _ _ hr1
    obtain ⟨b1, b2, b3⟩ := ih _ _ hr2
    refine seen_append (fun c : SfxCand × Nat => c.1.key) _ _ _ _ _ ?_ ?_ ?_ b1 b2 b3
    · rw [List.map_map]; exact a1
    · intro p hp
      obtain ⟨c, hc, rfl⟩ := List.mem_map.1 hp
      exact a2 c hc
    · intro k; rw [a3 k, List.map_map]; rfl

/-- What one unit does to `seen_parses`. -/
theorem unitParse_seen (m : Morph S) (rec : Rec S) (u : BUnit S) (word wl : Str) (seen : Seen)
    (r : List (Parse S) × Seen) (h : unitParse m rec u word wl seen = .ok r) :
    (∀ k ∈ seen, k ∈ r.2) ∧
    (u.cfg.kind.predicts = true → (r.1.map Parse.key).Nodup ∧ (∀ p ∈ r.1, p.key ∉ seen) ∧ ∀ p ∈ r.1, p.key ∈ r.2) := by
  have fin : ∀ (x : List (Parse S)) (s : Seen), (x.map Parse.key).Nodup → (∀ p ∈ x, p.key ∉ seen) →
      (∀ k, k ∈ s ↔ k ∈ seen ∨ k ∈ x.map Parse.key) →
      (∀ k ∈ seen, k ∈ s) ∧ (u.cfg.kind.predicts = true → (x.map Parse.key).Nodup ∧ (∀ p ∈ x, p.key ∉ seen) ∧
        ∀ p ∈ x, p.key ∈ s) := by
    intro x s h1 h2 h3
    exact ⟨fun k hk => (h3 k).2 (.inl hk),
      fun _ => ⟨h1, h2, fun p hp => (h3 _).2 (.inr (List.mem_map.2 ⟨p, hp, rfl⟩))⟩⟩
  unfold unitParse at h
  split at h
  case h_8 =>
    split at h
    · simp at h; subst h; simp
    · simp only [bind_ok_iff, pure_eq_ok, Except.ok.injEq] at h
      obtain ⟨ps, _, rfl⟩ := h
      obtain ⟨h1, h2, h3⟩ := addParses_spec (ps.map (particleDeco u.obj ‹_› ‹_›)) seen
      exact fin _ _ h1 h2 h3
  case h_9 hk =>
    simp only [bind_ok_iff, pure_eq_ok, Except.ok.injEq] at h
    obtain ⟨b, _, rfl⟩ := h
    refine ⟨?_, by simp [hk, UnitCfg.kind, UKind.predicts]⟩
    intro k hkk
    cases b <;> simp [hkk]
  case h_11 | h_12 =>
    simp only [bind_ok_iff, pure_eq_ok, Except.ok.injEq] at h
    obtain ⟨ps, _, rfl⟩ := h
    obtain ⟨h1, h2, h3⟩ := addParses_spec ps seen
    exact fin _ _ h1 h2 h3
  case h_13 =>
    unfold suffixParse at h
    split at h
    · simp at h; subst h; simp
    · simp only [bind_ok_iff, pure_eq_ok, Except.ok.injEq] at h
      obtain ⟨r', hr', ps, hps, rfl⟩ := h
      obtain ⟨h1, h2, h3⟩ := sfxPrefixLoop_spec _ _ _ _ _ _ hr'
      have hkeys : ps.map Parse.key = r'.1.map fun c => c.1.key := by
        have hf := (mapE_ok_iff _ _ _).1 hps
        generalize r'.1 = l at hf
        clear hps h1 h2 h3 hr' fin
        induction hf with
        | nil => rfl
        | cons hb _ ih =>
          simp only [sfxBuild, bind_ok_iff, pure_eq_ok, Except.ok.injEq] at hb
          obtain ⟨nf, hnf, rfl⟩ := hb
          rw [List.map_cons, List.map_cons, ih]
          rfl
      have hperm : ((sortByScore ps).map Parse.key).Perm (ps.map Parse.key) := (sortByScore_perm ps).map _
      refine fin _ _ (hperm.nodup_iff.2 (hkeys ▸ h1)) ?_ ?_
      · intro p hp hs
        have : p.key ∈ ps.map Parse.key := List.mem_map.2 ⟨p, (sortByScore_perm ps).mem_iff.1 hp, rfl⟩
        rw [hkeys] at this
        obtain ⟨c, hc, he⟩ := List.mem_map.1 this
        exact h2 c hc (he ▸ hs)
      · intro k; rw [h3 k, hperm.mem_iff, hkeys]
  all_goals
    rename_i hk
    refine ⟨?_, by simp [hk, UnitCfg.kind, UKind.predicts]⟩
    first
      | (simp only [Except.ok.injEq] at h; subst h; exact fun k hk => hk)
      | (simp only [bind_ok_iff, pure_eq_ok, Except.ok.injEq] at h
         obtain ⟨ps, _, rfl⟩ := h
         exact fun k hk => hk)

theorem runParse_keys (m : Morph S) (rec : Rec S) (word wl : Str) (us : List (BUnit S × Bool)) (seen : Seen)
    (res out : List (Parse S)) (h : runParse m rec word wl us seen res = .ok out)
    (h1 : ((res.filter Parse.predicted).map Parse.key).Nodup)
    (h2 : ∀ p ∈ res, p.predicted = true → p.key ∈ seen) :
    ((out.filter Parse.predicted).map Parse.key).Nodup := by
  induction us generalizing seen res with
  | nil => simp [runParse] at h; subst h; exact h1
  | cons ut us ih =>
    obtain ⟨u, t⟩ := ut
    rw [runParse, bind_ok_iff] at h
    obtain ⟨r, hr, h⟩ := h
    obtain ⟨s1, s2⟩ := unitParse_seen _ _ _ _ _ _ _ hr
    have hout : ∀ p ∈ r.1, p.predicted = u.cfg.kind.predicts := by
      intro p hp
      have := unitParse_outer _ _ _ _ _ _ _ hr p hp
      simp [Parse.predicted, this, BUnit.obj]
    have n1 : (((res ++ r.1).filter Parse.predicted).map Parse.key).Nodup := by
      rw [List.filter_append, List.map_append]
      by_cases hu : u.cfg.kind.predicts = true
      · obtain ⟨a1, a2, a3⟩ := s2 hu
        have hf : r.1.filter Parse.predicted = r.1 := List.filter_eq_self.2 fun p hp => by rw [hout p hp, hu]
        rw [hf]
        refine List.nodup_append.2 ⟨h1, a1, ?_⟩
        intro x hx y hy e
        subst e
        obtain ⟨p, hp, he⟩ := List.mem_map.1 hx
        obtain ⟨q, hq, he'⟩ := List.mem_map.1 hy
        rw [List.mem_filter] at hp
        exact a2 q hq (by rw [he', ← he]; exact h2 p hp.1 hp.2)
      · have hf : r.1.filter Parse.predicted = [] := List.filter_eq_nil_iff.2 fun p hp => by rw [hout p hp]; exact hu
        rw [hf]; simpa using h1
    have n2 : ∀ p ∈ res ++ r.1, p.predicted = true → p.key ∈ r.2 := by
      intro p hp hpp
      rcases List.mem_append.1 hp with hp | hp
      · exact s1 _ (h2 p hp hpp)
      · rw [hout p hp] at hpp; exact (s2 hpp).2.2 p hp
    dsimp only at h
    split at h
    · simp at h; subst h; exact n1
    · exact ih _ _ h n1 n2

theorem key_core (p : Parse S) : p.key = .reduced p.core.1 p.core.2.1.tuple
    (match p.core.2.2.2.first with | some m => m.key3 | none => .none) := rfl

/-- C08 for `parse`: among the results obtained from prefix removal, suffix prediction and particle removal no two have
the same word, tag and third component of the innermost method (the paradigm, for dictionary based results). -/
theorem c08_parse_keys (m : Morph S) (w : Str) (ps : List (Parse S)) (h : m.parse w = .ok ps) :
    (ps.filter Parse.predicted).Pairwise (fun p q => p.key ≠ q.key) := by
  obtain ⟨res, hres, hperm⟩ := parseStep_core m _ w ps h
  have hn := runParse_keys m _ w _ _ _ _ _ hres (by simp) (by simp)
  have hf : ∀ l : List (Parse S), (l.filter Parse.predicted).map Parse.key =
      ((l.map Parse.core).filter (fun c => match (match c.2.2.2 with | .nil => none | .push _ m => some m.obj) with
        | some u => u.kind.predicts | none => false)).map
        (fun c => .reduced c.1 c.2.1.tuple (match c.2.2.2.first with | some m => m.key3 | none => .none)) := by
    intro l
    rw [List.filter_map, List.map_map]
    rfl
  have : ((ps.filter Parse.predicted).map Parse.key).Nodup := by
    rw [hf]
    refine (((hperm.filter _).map _).nodup_iff).2 ?_
    rw [← hf]; exact hn
  exact List.pairwise_map.1 this

/-- The paradigm a result is based on, if its innermost method is a dictionary look-up or a suffix prediction. -/
def Parse.paradigm? (p : Parse S) : Option Nat :=
  match p.stack.first with
  | some (.dict _ _ para _) => some para
  | _ => none

/-- C08 in terms of paradigms: two different predicted results based on a paradigm never agree in word, tag and
paradigm. -/
theorem c08_parse_paradigms (m : Morph S) (w : Str) (ps : List (Parse S)) (h : m.parse w = .ok ps) :
    (ps.filter Parse.predicted).Pairwise (fun p q =>
      ¬ (p.word = q.word ∧ p.tag.tuple = q.tag.tuple ∧ p.paradigm?.isSome = true ∧ p.paradigm? = q.paradigm?)) := by
  refine (c08_parse_keys m w ps h).imp ?_
  rintro p q hne ⟨h1, h2, h3, h4⟩
  apply hne
  unfold Parse.key
  rw [h1, h2]
  congr 1
  unfold Parse.paradigm? at h3 h4
  split at h3
  · next u v para idx hp =>
    rw [hp] at h4 ⊢
    dsimp only at h4
    split at h4
    · next u' v' para' idx' hq =>
      rw [hq]
      injection h4 with h4
      simp only [Method.key3, h4]
    · exact absurd h4 (by simp)
  · simp at h3

/-! ### tags -/

/-- Units whose `tag` method consults `seen_tags`. -/
def UKind.dedupsTags : UKind → Bool
  | .pref | .suff | .hyphenated | .adverb => true
  | _ => false

theorem addTags_spec (ts : List Tag) (seen : SeenTags) :
    ((addTags ts seen).1.map Tag.tuple).Nodup ∧
    (∀ t ∈ (addTags ts seen).1, t.tuple ∉ seen) ∧
    (∀ k, k ∈ (addTags ts seen).2 ↔ k ∈ seen ∨ k ∈ (addTags ts seen).1.map Tag.tuple) := by
  induction ts generalizing seen with
  | nil => simp [addTags]
  | cons p ps ih =>
    rw [addTags]
    split
    · exact ih seen
    · next hn =>
      obtain ⟨h1, h2, h3⟩ := ih (p.tuple :: seen)
      refine ⟨?_, ?_, ?_⟩
      · simp only [List.map_cons, List.nodup_cons]
        refine ⟨?_, h1⟩
        intro hm
        obtain ⟨q, hq, he⟩ := List.mem_map.1 hm
        exact h2 q hq (by simp [he])
      · intro q hq
        rcases List.mem_cons.1 hq with rfl | hq
        · exact hn
        · exact fun hs => h2 q hq (by simp [hs])
      · intro k
        rw [h3 k]
        simp only [List.mem_cons, List.map_cons]
        tauto

theorem dedupTagCands_spec (cs : List SfxCand) (seen : SeenTags) :
    ((dedupTagCands cs seen).1.map fun x => x.2.tuple).Nodup ∧
    (∀ x ∈ (dedupTagCands cs seen).1, x.2.tuple ∉ seen) ∧
    (∀ k, k ∈ (dedupTagCands cs seen).2 ↔ k ∈ seen ∨ k ∈ (dedupTagCands cs seen).1.map fun x => x.2.tuple) := by
  induction cs generalizing seen with
  | nil => simp [dedupTagCands]
  | cons p ps ih =>
    rw [dedupTagCands]
    split
    · exact ih seen
    · next hn =>
      obtain ⟨h1, h2, h3⟩ := ih (p.tag.tuple :: seen)
      refine ⟨?_, ?_, ?_⟩
      · simp only [List.map_cons, List.nodup_cons]
        refine ⟨?_, h1⟩
        intro hm
        obtain ⟨q, hq, he⟩ := List.mem_map.1 hm
        exact h2 q hq (by simp [he])
      · intro q hq
        rcases List.mem_cons.1 hq with rfl | hq
        · exact hn
        · exact fun hs => h2 q hq (by simp [hs])
      · intro k
        rw [h3 k]
        simp only [List.mem_cons, List.map_cons]
        tauto

theorem sfxTagLoop_spec (cands : Nat → Except PyErr (List SfxCand)) (is : List Nat) (seen : SeenTags)
    (r : List (Nat × Tag) × SeenTags) (h : sfxTagLoop cands is seen = .ok r) :
    (r.1.map fun x => x.2.tuple).Nodup ∧ (∀ x ∈ r.1, x.2.tuple ∉ seen) ∧
    (∀ k, k ∈ r.2 ↔ k ∈ seen ∨ k ∈ r.1.map fun x => x.2.tuple) := by
  induction is generalizing seen r with
  | nil => simp [sfxTagLoop] at h; subst h; simp
  | cons i is ih =>
    rw [sfxTagLoop, bind_ok_iff] at h
    obtain ⟨cs, hcs, h⟩ := h
    dsimp only at h
    split at h
    · simp at h; subst h; exact dedupTagCands_spec cs seen
    · simp only [bind_ok_iff, pure_eq_ok, Except.ok.injEq] at h
      obtain ⟨r', hr', rfl⟩ := h
      obtain ⟨a1, a2, a3⟩ := dedupTagCands_spec cs seen
      obtain ⟨b1, b2, b3⟩ := ih _ _ hr'
      exact seen_append (fun x : Nat × Tag => x.2.tuple) _ _ _ _ _ a1 a2 a3 b1 b2 b3

theorem sfxTagPrefixLoop_spec (d : Dict) (sub : Subst) (wl : Str) (ips : List (Nat × Str)) (seen : SeenTags)
    (r : List (Nat × Tag) × SeenTags) (h : sfxTagPrefixLoop d sub wl ips seen = .ok r) :
    (r.1.map fun x => x.2.tuple).Nodup ∧ (∀ x ∈ r.1, x.2.tuple ∉ seen) ∧
    (∀ k, k ∈ r.2 ↔ k ∈ seen ∨ k ∈ r.1.map fun x => x.2.tuple) := by
  induction ips generalizing seen r with
  | nil => simp [sfxTagPrefixLoop] at h; subst h; simp
  | cons ip ips ih =>
    simp only [sfxTagPrefixLoop, bind_ok_iff, pure_eq_ok, Except.ok.injEq, pyGet_ok_iff] at h
    obtain ⟨t, ht, r1, hr1, r2, hr2, rfl⟩ := h
    obtain ⟨a1, a2, a3⟩ := sfxTagLoop_spec _ _ _ _ hr1
    obtain ⟨b1, b2, b3⟩ := ih _ _ hr2
    exact seen_append (fun x : Nat × Tag => x.2.tuple) _ _ _ _ _ a1 a2 a3 b1 b2 b3

theorem unitTag_seen (m : Morph S) (rec : Rec S) (u : BUnit S) (word wl : Str) (seen : SeenTags)
    (hk : u.cfg.kind.dedupsTags = true) (r : List Tag × SeenTags) (h : unitTag m rec u word wl seen = .ok r) :
    (r.1.map Tag.tuple).Nodup ∧ (∀ p ∈ r.1, p.tuple ∉ seen) ∧
      (∀ k, k ∈ r.2 ↔ k ∈ seen ∨ k ∈ r.1.map Tag.tuple) := by
  unfold unitTag at h
  cases hc : u.cfg <;> simp only [hc, UnitCfg.kind, UKind.dedupsTags, Bool.false_eq_true] at hk h
  case adverb tag mult =>
    simp only [bind_ok_iff, pure_eq_ok, Except.ok.injEq] at h
    obtain ⟨b, _, rfl⟩ := h
    split
    · simp
    · next hn =>
      simp only [not_or] at hn
      refine ⟨by simp, by simp [hn.2], ?_⟩
      intro k; simp; tauto
  case hyphenated | knownPrefix | unknownPrefix =>
    simp only [bind_ok_iff, pure_eq_ok, Except.ok.injEq] at h
    obtain ⟨ps, _, rfl⟩ := h
    exact addTags_spec _ seen
  case knownSuffix =>
    unfold suffixTag at h
    split at h
    · simp at h; subst h; simp
    · simp only [bind_ok_iff, pure_eq_ok, Except.ok.injEq] at h
      obtain ⟨r', hr', rfl⟩ := h
      obtain ⟨h1, h2, h3⟩ := sfxTagPrefixLoop_spec _ _ _ _ _ _ hr'
      have hperm : ((r'.1.insertionSort (fun a b => cntTagLt a b = false)).map fun x => x.2.tuple).Perm
          (r'.1.map fun x => x.2.tuple) := (List.perm_insertionSort _ _).map _
      refine ⟨?_, ?_, ?_⟩
      · rw [List.map_map]; exact hperm.nodup_iff.2 h1
      · intro p hp
        obtain ⟨x, hx, rfl⟩ := List.mem_map.1 hp
        exact h2 x ((List.perm_insertionSort _ _).mem_iff.1 hx)
      · intro k; rw [h3 k, List.map_map]
        exact or_congr Iff.rfl hperm.mem_iff.symm

/-- C08 for `tag`: a group made of prediction, hyphen and adverb units never lists a tag twice (tags compared as the
library compares them). -/
theorem c08_tag (m : Morph S) (rec : Rec S) (w wl : Str) (g : List (BUnit S)) (seen : SeenTags)
    (hg : ∀ u ∈ g, u.cfg.kind.dedupsTags = true) (ts : List Tag) (h : groupTag m rec w wl g seen = .ok ts) :
    ts.Pairwise (fun a b => a.eqv b = false) := by
  have key : (ts.map Tag.tuple).Nodup ∧ (∀ p ∈ ts, p.tuple ∉ seen) := by
    induction g generalizing seen ts with
    | nil => simp [groupTag] at h; subst h; simp
    | cons u g ih =>
      simp only [groupTag, bind_ok_iff, pure_eq_ok, Except.ok.injEq] at h
      obtain ⟨r, hr, rest, hrest, rfl⟩ := h
      obtain ⟨a1, a2, a3⟩ := unitTag_seen _ _ _ _ _ _ (hg u (by simp)) _ hr
      obtain ⟨b1, b2⟩ := ih r.2 (fun v hv => hg v (by simp [hv])) rest hrest
      have := seen_append Tag.tuple r.1 rest seen r.2 (r.2 ++ rest.map Tag.tuple) a1 a2 a3 b1 b2 (by simp)
      exact ⟨this.1, this.2.1⟩
  refine (List.pairwise_map.1 key.1).imp ?_
  intro a b hab
  simpa [Tag.eqv] using hab

/-! Non-vacuity (tests). -/
example : (Demo.morph.parse (c!"некошка")).toOption.map (·.filter Parse.predicted |>.length) = some 1 := by decide +kernel
example : (⟨12, .knownSuffix 1 4⟩ : BUnit Rat).cfg.kind.dedupsTags = true := by decide

end Verif
