/-
C98, continued — the calls an analysis makes itself.
-/
import Verif.Props.C98
import Verif.Lemmas.Renumber

set_option linter.unusedSectionVars false

namespace Verif

variable {S : Type} [Score S]

/-- The calls made during a call. -/
def Morph.callsOf (m : Morph S) (n : Nat) : Call → List Call
  | .parse w => m.parseCalls n w
  | .tag w => m.tagCalls n w

/-- The calls during a call, as the recording functions of one level see it. -/
def RecL.log (rec : RecL S) : Call → List Call
  | .parse w => (rec.parse w).log
  | .tag w => (rec.tag w).log

/-! ### One unit -/

/-- The calls a unit makes itself. -/
def UnitCfg.direct (own : Str → Call) (l : Str) : UnitCfg S → List Call
  | .particle parts _ => (particleSplit parts l).toList.map fun s => own s.1
  | .adverb _ _ => if l.length < 5 ∨ startsWith l (c!"по-") = false then [] else [.tag (l.drop 3)]
  | .hyphenated skip _ => if hyphenShould skip l then [.parse (splitHyphen l).1, .parse (splitHyphen l).2] else []
  | .knownPrefix prefixes _ k => (possibleSplits prefixes k l).map fun s => own s.2
  | _ => []

theorem adverbShouldL_direct (m : Morph S) (rec : RecL S) (wl : Str) (tag : Tag) (mult : S) (own : Str → Call) :
    (adverbShouldL m rec wl).log = ((UnitCfg.adverb tag mult : UnitCfg S).direct own wl).flatMap rec.log := by
  unfold adverbShouldL UnitCfg.direct
  split
  · rfl
  · rw [Logged.bind_log_quiet _ _ (fun _ => rfl)]; simp [RecL.log]

theorem hyphenParseL_direct (rec : RecL S) (u : UObj) (skip : List Str) (mult : S) (wl : Str) (own : Str → Call) :
    ∃ cs, cs <+: (UnitCfg.hyphenated skip mult : UnitCfg S).direct own wl ∧ (hyphenParseL rec u skip mult wl).log = cs.flatMap rec.log ∧
      ∀ r, (hyphenParseL rec u skip mult wl).val = .ok r → cs = (UnitCfg.hyphenated skip mult : UnitCfg S).direct own wl := by
  unfold hyphenParseL
  simp only [UnitCfg.direct]
  split
  · cases hv : (rec.parse (splitHyphen wl).1).val with
    | error e =>
      refine ⟨[.parse (splitHyphen wl).1], ⟨[_], rfl⟩, ?_, ?_⟩
      · rw [Logged.bind_log_error _ _ e hv]; simp [RecL.log]
      · intro r hr
        rw [Logged.bind_val, hv] at hr
        simp at hr
    | ok a =>
      refine ⟨_, List.prefix_refl _, ?_, fun _ _ => rfl⟩
      rw [Logged.bind_log_ok _ _ a hv, Logged.bind_log_quiet _ _ (fun _ => rfl)]
      simp [RecL.log]
  · exact ⟨[], List.prefix_refl _, rfl, fun _ _ => rfl⟩

theorem prefix_map_flatMap {α : Type} (f : α → Call) (g : Call → List Call) {l' l : List α} (h : l' <+: l) :
    l'.map f <+: l.map f ∧ (l'.map f).flatMap g = l'.flatMap fun a => g (f a) :=
  ⟨h.map f, by rw [List.flatMap_map]⟩

theorem unitParseL_direct (m : Morph S) (rec : RecL S) (u : BUnit S) (word wl : Str) (seen : Seen) :
    ∃ cs, cs <+: u.cfg.direct .parse wl ∧ (unitParseL m rec u word wl seen).log = cs.flatMap rec.log ∧
      ∀ r, (unitParseL m rec u word wl seen).val = .ok r → cs = u.cfg.direct .parse wl := by
  unfold unitParseL
  split
  · next hk =>
    rw [hk]
    split
    · next hsp => exact ⟨[], List.nil_prefix, rfl, by simp [UnitCfg.direct, hsp]⟩
    · next rest part hsp =>
      refine ⟨_, List.prefix_refl _, ?_, fun _ _ => rfl⟩
      rw [Logged.bind_log_quiet _ _ (fun _ => rfl)]
      simp [UnitCfg.direct, hsp, RecL.log]
  · next hk =>
    rw [hk]
    refine ⟨_, List.prefix_refl _, ?_, fun _ _ => rfl⟩
    rw [Logged.bind_log_quiet _ _ (fun _ => rfl)]
    exact adverbShouldL_direct ..
  · next skip mult hk =>
    rw [hk]
    obtain ⟨cs, h1, h2, h3⟩ := hyphenParseL_direct rec u.obj skip mult wl Call.parse
    refine ⟨cs, h1, ?_, ?_⟩
    · rw [Logged.bind_log_quiet _ _ (fun _ => rfl)]; exact h2
    · intro r hr
      rw [Logged.bind_val, bind_ok_iff] at hr
      obtain ⟨a, ha, _⟩ := hr
      exact h3 a ha
  · next prefixes mult k hk =>
    rw [hk]
    obtain ⟨l', h1, h2, h3⟩ := prefixCandsL_log u.obj mult rec.parse (possibleSplits prefixes k wl)
    obtain ⟨h4, h5⟩ := prefix_map_flatMap (fun s : Str × Str => Call.parse s.2) rec.log h1
    refine ⟨_, h4, ?_, ?_⟩
    · rw [Logged.bind_log_quiet _ _ (fun _ => rfl), h2, h5]; rfl
    · intro r hr
      rw [Logged.bind_val, bind_ok_iff] at hr
      obtain ⟨a, ha, _⟩ := hr
      rw [h3 a ha]; rfl
  · next h1 h2 h3 h4 =>
    refine ⟨[], List.nil_prefix, rfl, fun _ _ => ?_⟩
    cases hc : u.cfg <;> first | rfl | (exfalso; first | exact h1 _ _ hc | exact h2 _ _ hc | exact h3 _ _ hc | exact h4 _ _ _ hc)

theorem unitTagL_direct (m : Morph S) (rec : RecL S) (u : BUnit S) (word wl : Str) (seen : SeenTags) :
    ∃ cs, cs <+: u.cfg.direct .tag wl ∧ (unitTagL m rec u word wl seen).log = cs.flatMap rec.log ∧
      ∀ r, (unitTagL m rec u word wl seen).val = .ok r → cs = u.cfg.direct .tag wl := by
  unfold unitTagL
  split
  · next hk =>
    rw [hk]
    split
    · next hsp => exact ⟨[], List.nil_prefix, rfl, by simp [UnitCfg.direct, hsp]⟩
    · next rest part hsp =>
      refine ⟨_, List.prefix_refl _, ?_, fun _ _ => rfl⟩
      rw [Logged.bind_log_quiet _ _ (fun _ => rfl)]
      simp [UnitCfg.direct, hsp, RecL.log]
  · next hk =>
    rw [hk]
    refine ⟨_, List.prefix_refl _, ?_, fun _ _ => rfl⟩
    rw [Logged.bind_log_quiet _ _ (fun _ => rfl)]
    exact adverbShouldL_direct ..
  · next skip mult hk =>
    rw [hk]
    obtain ⟨cs, h1, h2, h3⟩ := hyphenParseL_direct rec u.obj skip mult wl Call.tag
    refine ⟨cs, h1, ?_, ?_⟩
    · rw [Logged.bind_log_quiet _ _ (fun _ => rfl)]; exact h2
    · intro r hr
      rw [Logged.bind_val, bind_ok_iff] at hr
      obtain ⟨a, ha, _⟩ := hr
      exact h3 a ha
  · next prefixes mult k hk =>
    rw [hk]
    obtain ⟨l', h1, h2, h3⟩ := prefixTagCandsL_log rec.tag (possibleSplits prefixes k wl)
    obtain ⟨h4, h5⟩ := prefix_map_flatMap (fun s : Str × Str => Call.tag s.2) rec.log h1
    refine ⟨_, h4, ?_, ?_⟩
    · rw [Logged.bind_log_quiet _ _ (fun _ => rfl), h2, h5]; rfl
    · intro r hr
      rw [Logged.bind_val, bind_ok_iff] at hr
      obtain ⟨a, ha, _⟩ := hr
      rw [h3 a ha]; rfl
  · next h1 h2 h3 h4 =>
    refine ⟨[], List.nil_prefix, rfl, fun _ _ => ?_⟩
    cases hc : u.cfg <;> first | rfl | (exfalso; first | exact h1 _ _ hc | exact h2 _ _ hc | exact h3 _ _ hc | exact h4 _ _ _ hc)

/-! ### All units -/

theorem runParseL_direct (m : Morph S) (rec : RecL S) (word wl : Str) (us : List (BUnit S × Bool)) (seen : Seen) (res : List (Parse S)) :
    ∃ cs, cs <+: (us.flatMap fun u => u.1.cfg.direct .parse wl) ∧ (runParseL m rec word wl us seen res).log = cs.flatMap rec.log := by
  induction us generalizing seen res with
  | nil => exact ⟨[], List.prefix_refl _, rfl⟩
  | cons ut us ih =>
    obtain ⟨u, t⟩ := ut
    obtain ⟨cs, h1, h2, h3⟩ := unitParseL_direct m rec u word wl seen
    rw [runParseL, List.flatMap_cons]
    cases hv : (unitParseL m rec u word wl seen).val with
    | error e =>
      exact ⟨cs, h1.trans (List.prefix_append ..), by rw [Logged.bind_log_error _ _ e hv]; exact h2⟩
    | ok r =>
      rw [Logged.bind_log_ok _ _ r hv]
      split
      · exact ⟨cs, h1.trans (List.prefix_append ..), by simpa using h2⟩
      · obtain ⟨cs', h4, h5⟩ := ih r.2 (res ++ r.1)
        refine ⟨cs ++ cs', ?_, by rw [h2, h5, List.flatMap_append]⟩
        rw [h3 r hv]
        exact (List.prefix_append_right_inj _).2 h4

theorem runTagL_direct (m : Morph S) (rec : RecL S) (word wl : Str) (us : List (BUnit S × Bool)) (seen : SeenTags) (res : List Tag) :
    ∃ cs, cs <+: (us.flatMap fun u => u.1.cfg.direct .tag wl) ∧ (runTagL m rec word wl us seen res).log = cs.flatMap rec.log := by
  induction us generalizing seen res with
  | nil => exact ⟨[], List.prefix_refl _, rfl⟩
  | cons ut us ih =>
    obtain ⟨u, t⟩ := ut
    obtain ⟨cs, h1, h2, h3⟩ := unitTagL_direct m rec u word wl seen
    rw [runTagL, List.flatMap_cons]
    cases hv : (unitTagL m rec u word wl seen).val with
    | error e =>
      exact ⟨cs, h1.trans (List.prefix_append ..), by rw [Logged.bind_log_error _ _ e hv]; exact h2⟩
    | ok r =>
      rw [Logged.bind_log_ok _ _ r hv]
      split
      · exact ⟨cs, h1.trans (List.prefix_append ..), by simpa using h2⟩
      · obtain ⟨cs', h4, h5⟩ := ih r.2 (res ++ r.1)
        refine ⟨cs ++ cs', ?_, by rw [h2, h5, List.flatMap_append]⟩
        rw [h3 r hv]
        exact (List.prefix_append_right_inj _).2 h4

/-! ### The calls of the specification -/

theorem particle_find (parts : List Str) (hp : ∀ p ∈ parts, '-' ∈ p) (l : Str) (own : Str → Call) :
    ((particleSplit parts l).toList.map fun s => own s.1) =
      (parts.find? fun p => decide (p <:+ l ∧ p ≠ l)).toList.map fun p => own (l.take (l.length - p.length)) := by
  have key : ∀ q : Str, q ≠ [] → (q <:+ l ∧ q ≠ l ↔ endsWith l q = true ∧ dropRight l q.length ≠ []) := by
    intro q hq0
    rw [endsWith_iff]
    have hq : q.length ≠ 0 := by simpa using hq0
    constructor
    · rintro ⟨⟨r, rfl⟩, hne⟩
      refine ⟨⟨r, rfl⟩, ?_⟩
      rw [dropRight, if_neg hq, List.length_append, Nat.add_sub_cancel, List.take_left]
      rintro rfl
      simp at hne
    · rintro ⟨⟨r, rfl⟩, hne⟩
      refine ⟨⟨r, rfl⟩, ?_⟩
      intro e
      have : r = [] := by simpa using e
      subst this
      simp [dropRight] at hne
  by_cases hy : '-' ∈ l
  · unfold particleSplit
    rw [if_pos hy]
    induction parts with
    | nil => rfl
    | cons p ps ih =>
      rw [List.findSome?_cons, List.find?_cons]
      have hp0 : p ≠ [] := by
        rintro rfl
        exact absurd (hp [] (List.mem_cons_self ..)) (by simp)
      by_cases h : p <:+ l ∧ p ≠ l
      · have h' := (key p hp0).1 h
        simp only [h, h'.1, h'.2, if_true, if_false, and_self, decide_true, ne_eq, not_false_eq_true]
        simp [dropRight, hp0]
      · have h' := mt (key p hp0).2 h
        have h0 : (if endsWith l p then
            let u := dropRight l p.length
            if u = [] then none else some (u, p) else none) = (none : Option (Str × Str)) := by
          by_cases he : endsWith l p = true
          · have : dropRight l p.length = [] := by
              by_contra hc; exact h' ⟨he, hc⟩
            simp [he, this]
          · simp [he]
        rw [h0, decide_eq_false h]
        exact ih fun q hq => hp q (List.mem_cons_of_mem _ hq)
  · unfold particleSplit
    rw [if_neg hy]
    have : (parts.find? fun p => decide (p <:+ l ∧ p ≠ l)) = none := by
      rw [List.find?_eq_none]
      intro p hp' hc
      simp only [decide_eq_true_eq] at hc
      exact hy (hc.1.subset (hp p hp'))
    rw [this]; rfl

theorem stripC_eq_iff (c : Char) (s : Str) : stripC c s = s ↔ s.head? ≠ some c ∧ s.getLast? ≠ some c := by
  have hle : ∀ l : Str, (l.dropWhile (· == c)).length ≤ l.length := fun l => (List.dropWhile_sublist _).length_le
  have hlt : ∀ l : Str, l.head? = some c → (l.dropWhile (· == c)).length < l.length := by
    intro l hl
    cases l with
    | nil => simp at hl
    | cons x l =>
      have : x = c := by simpa using hl
      subst this
      have := hle l
      simp
      omega
  constructor
  · intro h
    unfold stripC at h
    have hlen := congrArg List.length h
    rw [List.length_reverse] at hlen
    have h1 := hle (s.dropWhile (· == c)).reverse
    rw [List.length_reverse] at h1
    have h2 := hle s
    constructor
    · intro hc
      have := hlt s hc
      omega
    · intro hc
      have hs : s.dropWhile (· == c) = s := (List.dropWhile_suffix _).eq_of_length (by omega)
      rw [hs] at hlen
      have := hlt s.reverse (by rw [List.head?_reverse]; exact hc)
      rw [List.length_reverse] at this
      omega
  · rintro ⟨h1, h2⟩
    exact stripC_of_ends c s h1 h2

theorem hyphen_count (skip : List Str) (l : Str) :
    hyphenShould skip l = true ↔ l.count '-' = 1 ∧ l.head? ≠ some '-' ∧ l.getLast? ≠ some '-' ∧ ∀ q ∈ skip, ¬ q <+: l := by
  have hpre : isPrefixed skip l = false ↔ ∀ q ∈ skip, ¬ q <+: l := by
    rw [Bool.eq_false_iff, ne_eq, c42_is_prefixed]
    push Not
    constructor
    · rintro h q hq ⟨r, e⟩
      exact h q hq r e.symm
    · intro h q hq r e
      exact h q hq ⟨r, e.symm⟩
  have hstrip : stripC '-' l = l ↔ l.head? ≠ some '-' ∧ l.getLast? ≠ some '-' := by
    exact stripC_eq_iff '-' l
  unfold hyphenShould
  by_cases hy : '-' ∈ l
  · rw [if_pos hy]
    dsimp only
    by_cases hs : stripC '-' l = l
    · rw [hs, if_neg (by simp)]
      have := hstrip.1 hs
      by_cases hc : l.count '-' = 1
      · rw [if_neg (by simpa using hc)]
        by_cases hp : isPrefixed skip l = true
        · rw [if_pos hp]
          have := mt hpre.2 (by rw [hp]; simp)
          simp [this]
        · rw [if_neg hp]
          have := hpre.1 (by simpa using hp)
          simp_all
      · rw [if_pos hc]; simp [hc]
    · rw [if_pos hs]
      have := mt hstrip.2 hs
      simp only [Bool.false_eq_true, false_iff]
      rintro ⟨_, h1, h2, _⟩
      exact this ⟨h1, h2⟩
  · rw [if_neg hy, List.count_eq_zero_of_not_mem hy]; simp

theorem splits_range (P : List Str) (hn : P.Nodup) (l : Str) (own : Str → Call) :
    ((possibleSplits P 3 l).map fun s => own s.2) =
      ((List.range l.length).reverse.filter fun k => decide (l.take k ∈ P ∧ k + 3 ≤ l.length)).map fun k => own (l.drop k) := by
  have h1 : ((possibleSplits P 3 l).map fun s => s.1.length) = (List.range l.length).reverse.filter fun k => decide (l.take k ∈ P ∧ k + 3 ≤ l.length) := by
    have hs1 : ((possibleSplits P 3 l).map fun s => s.1.length).Pairwise (· > ·) := by
      rw [List.pairwise_map]
      exact c42_splits_strict P hn 3 l
    have hs2 : ((List.range l.length).reverse.filter fun k => decide (l.take k ∈ P ∧ k + 3 ≤ l.length)).Pairwise (· > ·) := by
      refine List.Pairwise.filter _ ?_
      rw [List.pairwise_reverse]
      exact List.pairwise_lt_range
    refine List.Perm.eq_of_pairwise (fun a b _ _ h1 h2 => by omega) hs1 hs2 ?_
    refine (List.perm_ext_iff_of_nodup (hs1.imp fun h => by omega) (hs2.imp fun h => by omega)).2 fun k => ?_
    simp only [List.mem_map, List.mem_filter, List.mem_reverse, List.mem_range, decide_eq_true_eq]
    constructor
    · rintro ⟨⟨q, r⟩, hs, rfl⟩
      obtain ⟨h1, rfl, h3⟩ := (c42_splits_mem P 3 l q r).1 hs
      simp only [List.length_append, List.take_left]
      exact ⟨by omega, h1, by omega⟩
    · rintro ⟨hk, h1, h2⟩
      refine ⟨(l.take k, l.drop k), (c42_splits_mem P 3 l _ _).2 ⟨h1, (List.take_append_drop k l).symm, ?_⟩, ?_⟩
      · rw [List.length_drop]; omega
      · rw [List.length_take]; omega
  rw [← h1, List.map_map]
  refine List.map_congr_left fun s hs => ?_
  obtain ⟨q, r⟩ := s
  obtain ⟨_, rfl, _⟩ := (c42_splits_mem P 3 l q r).1 hs
  simp

theorem calls_eq (D : RuleData) (adv : Bool) (own : Str → Call) (l : Str) (hp : ∀ p ∈ D.particles, '-' ∈ p) (hn : D.prefixes.Nodup) :
    ((particleSplit D.particles l).toList.map fun s => own s.1) ++
      (if adv = true then (if l.length < 5 ∨ startsWith l (c!"по-") = false then [] else [.tag (l.drop 3)]) else []) ++
      (if hyphenShould D.prefixes l then [.parse (splitHyphen l).1, .parse (splitHyphen l).2] else []) ++
      ((possibleSplits D.prefixes 3 l).map fun s => own s.2) = directCalls D adv own l := by
  rw [particle_find _ hp, splits_range _ hn]
  unfold directCalls
  have e1 : (if adv = true then (if l.length < 5 ∨ startsWith l (c!"по-") = false then [] else [Call.tag (l.drop 3)]) else []) =
      if adv = true ∧ c!"по-" <+: l ∧ 5 ≤ l.length then [Call.tag (l.drop 3)] else [] := by
    cases adv with
    | false => simp
    | true =>
      by_cases h : c!"по-" <+: l
      · have h' := (startsWith_iff l (c!"по-")).2 h
        by_cases h5 : l.length < 5
        · rw [if_pos rfl, if_pos (.inl h5), if_neg]
          rintro ⟨_, _, h6⟩
          omega
        · rw [if_pos rfl, if_neg, if_pos ⟨rfl, h, by omega⟩]
          rw [h']
          simp only [reduceCtorEq, or_false]
          exact h5
      · have h' : startsWith l (c!"по-") = false := by
          rw [Bool.eq_false_iff]
          exact fun hc => h ((startsWith_iff l (c!"по-")).1 hc)
        rw [if_pos rfl, if_pos (.inr h'), if_neg]
        rintro ⟨_, h6, _⟩
        exact h h6
  have e2 : (if hyphenShould D.prefixes l then [Call.parse (splitHyphen l).1, Call.parse (splitHyphen l).2] else []) =
      if l.count '-' = 1 ∧ l.head? ≠ some '-' ∧ l.getLast? ≠ some '-' ∧ ∀ q ∈ D.prefixes, ¬ q <+: l
        then [.parse (l.takeWhile (· ≠ '-')), .parse ((l.dropWhile (· ≠ '-')).drop 1)] else [] := by
    by_cases h : hyphenShould D.prefixes l = true
    · rw [if_pos h, if_pos ((hyphen_count _ _).1 h)]; rfl
    · rw [if_neg h, if_neg (mt (hyphen_count _ _).2 h)]
  rw [e1, e2]

theorem ru_direct {m : Morph S} (hm : IsRu m) (own : Str → Call) (l : Str) :
    (m.units.flatMap fun u => u.1.cfg.direct own l) = directCalls ruData true own l := by
  rw [← calls_eq ruData true own l (by decide +kernel) c42_default_nodup.1, ru_units hm]
  simp only [List.flatMap_cons, List.flatMap_nil, UnitSpec.bound, UnitCfg.direct, List.nil_append, List.append_nil, List.append_assoc, if_true]
  rfl

theorem uk_direct {m : Morph S} (hm : IsUk m) (own : Str → Call) (l : Str) :
    (m.units.flatMap fun u => u.1.cfg.direct own l) = directCalls ukData false own l := by
  rw [← calls_eq ukData false own l (by decide +kernel) c42_default_nodup.2, uk_units hm]
  simp only [List.flatMap_cons, List.flatMap_nil, UnitSpec.bound, UnitCfg.direct, List.nil_append, List.append_nil, List.append_assoc, Bool.false_eq_true, if_false]
  rfl

theorem callsOf_log (m : Morph S) (n : Nat) : (analyzeL m n).log = m.callsOf n := by
  funext c
  cases c <;> rfl

/-- The default analyzers: Russian, with the rule for adverbs, and Ukrainian. -/
def Defaults (m : Morph S) (D : RuleData) (adv : Bool) : Prop := (IsRu m ∧ D = ruData ∧ adv = true) ∨ (IsUk m ∧ D = ukData ∧ adv = false)

/-- C98 for all words: the calls an analysis makes itself are the first ones of the list `directCalls`, each made once; all other calls are made
during these. -/
theorem c98_direct (m : Morph S) (D : RuleData) (adv : Bool) (hm : Defaults m D adv) (n : Nat) (w : Str) :
    (∃ cs, cs <+: directCalls D adv .parse (m.env.lower w) ∧ m.parseCalls (n + 1) w = .parse w :: cs.flatMap (m.callsOf n)) ∧
    (∃ cs, cs <+: directCalls D adv .tag (m.env.lower w) ∧ m.tagCalls (n + 1) w = .tag w :: cs.flatMap (m.callsOf n)) := by
  have hd : ∀ own : Str → Call, (m.units.flatMap fun u => u.1.cfg.direct own (m.env.lower w)) = directCalls D adv own (m.env.lower w) := by
    intro own
    rcases hm with ⟨h, rfl, rfl⟩ | ⟨h, rfl, rfl⟩
    · exact ru_direct h own _
    · exact uk_direct h own _
  constructor
  · obtain ⟨cs, h1, h2⟩ := runParseL_direct m (analyzeL m n) w (m.env.lower w) m.units [] []
    refine ⟨cs, hd _ ▸ h1, ?_⟩
    show Call.parse w :: (parseStepL m (analyzeL m n) w).log = _
    unfold parseStepL
    rw [Logged.bind_log_quiet _ _ (fun _ => rfl), h2, callsOf_log]
  · obtain ⟨cs, h1, h2⟩ := runTagL_direct m (analyzeL m n) w (m.env.lower w) m.units [] []
    refine ⟨cs, hd _ ▸ h1, ?_⟩
    show Call.tag w :: (tagStepL m (analyzeL m n) w).log = _
    unfold tagStepL
    rw [Logged.bind_log_quiet _ _ (fun _ => rfl), h2, callsOf_log]

/-! ### Words that are predicted -/

/-- Made by taking a prefix off, by the ending of the word, or unknown. -/
def Parse.Predicted (p : Parse S) : Prop := p.madeBy .pref ∨ p.madeBy .suff ∨ p.madeBy .unkn

def UnitCfg.earlier : UnitCfg S → Bool
  | .knownPrefix _ _ _ | .unknownPrefix _ | .knownSuffix _ _ | .unkn _ => false
  | _ => true

theorem runParse_keeps (m : Morph S) (rec : Rec S) (word wl : Str) (us : List (BUnit S × Bool)) (seen : Seen) (res out : List (Parse S))
    (h : runParse m rec word wl us seen res = .ok out) : ∀ p ∈ res, p ∈ out := by
  induction us generalizing seen res with
  | nil =>
    simp only [runParse, Except.ok.injEq] at h
    intro p hp
    exact h ▸ hp
  | cons ut us ih =>
    obtain ⟨u, t⟩ := ut
    rw [runParse, bind_ok_iff] at h
    obtain ⟨r, _, h⟩ := h
    intro p hp
    dsimp only at h
    split at h
    · simp only [pure_eq_ok, Except.ok.injEq] at h
      rw [← h]
      exact List.mem_append_left _ hp
    · exact ih _ _ h p (List.mem_append_left _ hp)

theorem runParseL_all (m : Morph S) (rec : RecL S) (word wl : Str) (a b : List (BUnit S × Bool)) (k : BUnit S) (t : Bool)
    (ha : ∀ u ∈ a, u.1.cfg.earlier = true) (hb : ∀ u ∈ b, u.1.cfg.direct .parse wl = []) (seen : Seen) (out : List (Parse S))
    (h : (runParseL m rec word wl (a ++ (k, t) :: b) seen []).val = .ok out) (hout : ∀ p ∈ out, p.Predicted) :
    (runParseL m rec word wl (a ++ (k, t) :: b) seen []).log = ((a ++ (k, t) :: b).flatMap fun u => u.1.cfg.direct .parse wl).flatMap rec.log := by
  induction a generalizing seen with
  | nil =>
    have hb' : (b.flatMap fun u => u.1.cfg.direct .parse wl) = [] := by
      rw [List.flatMap_eq_nil_iff]
      exact hb
    simp only [List.nil_append, List.flatMap_cons, hb', List.append_nil] at h ⊢
    obtain ⟨cs, h1, h2, h3⟩ := unitParseL_direct m rec k word wl seen
    rw [runParseL] at h ⊢
    rw [Logged.bind_val, bind_ok_iff] at h
    obtain ⟨r, hr, _⟩ := h
    rw [Logged.bind_log_ok _ _ r hr, h2, h3 r hr]
    split
    · simp
    · obtain ⟨cs', h4, h5⟩ := runParseL_direct m rec word wl b r.2 ([] ++ r.1)
      rw [hb'] at h4
      rw [h5, List.prefix_nil.1 h4]
      simp
  | cons vt a ih =>
    obtain ⟨v, tv⟩ := vt
    obtain ⟨cs, h1, h2, h3⟩ := unitParseL_direct m rec v word wl seen
    rw [List.cons_append, runParseL] at h ⊢
    have h' := h
    rw [Logged.bind_val, bind_ok_iff] at h'
    obtain ⟨r, hr, hrest⟩ := h'
    have hr0 : r.1 = [] := by
      rw [List.eq_nil_iff_forall_not_mem]
      intro p hp
      have hpo : p ∈ out := by
        split at hrest
        · simp only [Logged.pure_val, Except.ok.injEq] at hrest
          rw [← hrest]; simpa using hp
        · rw [runParseL_val] at hrest
          exact runParse_keeps _ _ _ _ _ _ _ _ hrest p (by simpa using hp)
      have ho := unitParse_outer m rec.erase v word wl seen r (by rw [← unitParseL_val]; exact hr) p hp
      have hv := ha _ (List.mem_cons_self ..)
      rcases hout p hpo with ⟨u, h4, h5⟩ | ⟨u, h4, h5⟩ | ⟨u, h4, h5⟩
      all_goals
        rw [ho] at h4
        simp only [Option.some.injEq] at h4
        subst h4
        revert h5 hv
        dsimp only
        cases hc : v.cfg <;> simp [UnitCfg.earlier, BUnit.obj, UnitCfg.kind, hc]
    rw [Logged.bind_log_ok _ _ r hr, List.flatMap_cons, List.flatMap_append, h2, h3 r hr]
    rw [hr0, if_neg (by simp), List.nil_append] at hrest ⊢
    rw [ih (fun u hu => ha u (List.mem_cons_of_mem _ hu)) r.2 hrest]

theorem units_split {m : Morph S} {D : RuleData} {adv : Bool} (hm : Defaults m D adv) (l : Str) :
    ∃ a k t b, m.units = a ++ (k, t) :: b ∧ (∀ u ∈ a, u.1.cfg.earlier = true) ∧ ∀ u ∈ b, u.1.cfg.direct .parse l = [] := by
  rcases hm with ⟨hm, _, _⟩ | ⟨hm, _, _⟩
  · refine ⟨m.units.take 10, ⟨10, (UnitSpec.knownPrefix ruKnownPrefixes (dec 75 100) 3).bound⟩, true, m.units.drop 11, ?_, ?_, ?_⟩
    · rw [ru_units hm]; rfl
    · rw [ru_units hm]; simp [UnitSpec.bound, UnitCfg.earlier]
    · rw [ru_units hm]; simp [UnitSpec.bound, UnitCfg.direct]
  · refine ⟨m.units.take 9, ⟨9, (UnitSpec.knownPrefix ukKnownPrefixes (dec 75 100) 3).bound⟩, true, m.units.drop 10, ?_, ?_, ?_⟩
    · rw [uk_units hm]; rfl
    · rw [uk_units hm]; simp [UnitSpec.bound, UnitCfg.earlier]
    · rw [uk_units hm]; simp [UnitSpec.bound, UnitCfg.direct]

/-- C98: when the answer is a prediction, all the calls of the list are made. -/
theorem c98_predicted (m : Morph S) (D : RuleData) (adv : Bool) (hm : Defaults m D adv) (n : Nat) (w : Str) (ps : List (Parse S))
    (h : (analyze m (n + 1)).parse w = .ok ps) (hps : ∀ p ∈ ps, p.Predicted) :
    m.parseCalls (n + 1) w = .parse w :: (directCalls D adv .parse (m.env.lower w)).flatMap (m.callsOf n) := by
  have hd : (m.units.flatMap fun u => u.1.cfg.direct .parse (m.env.lower w)) = directCalls D adv .parse (m.env.lower w) := by
    rcases hm with ⟨h, rfl, rfl⟩ | ⟨h, rfl, rfl⟩
    · exact ru_direct h _ _
    · exact uk_direct h _ _
  obtain ⟨a, k, t, b, hu, ha, hb⟩ := units_split hm (m.env.lower w)
  rw [← (c98_recorded m (n + 1) w).1] at h
  have h : (parseStepL m (analyzeL m n) w).val = .ok ps := h
  show Call.parse w :: (parseStepL m (analyzeL m n) w).log = _
  unfold parseStepL at h ⊢
  rw [Logged.bind_val, bind_ok_iff] at h
  obtain ⟨out, hout, hest⟩ := h
  have hcore : (ps.map Parse.core).Perm (out.map Parse.core) := by
    have hest : estimateParses m (m.env.lower w) out = .ok ps := hest
    unfold estimateParses at hest
    split at hest
    · exact applyToParses_core _ _ _ _ hest
    · simp only [Except.ok.injEq] at hest
      rw [hest]
  have hpred : ∀ p ∈ out, p.Predicted := by
    intro p hp
    obtain ⟨q, hq, e⟩ := List.mem_map.1 (hcore.mem_iff.2 (List.mem_map_of_mem hp))
    have est : q.stack = p.stack := congrArg (·.2.2.2) e
    have eo : q.outer = p.outer := by unfold Parse.outer; rw [est]
    have := hps q hq
    unfold Parse.Predicted Parse.madeBy at this ⊢
    rwa [eo] at this
  rw [Logged.bind_log_quiet _ _ (fun _ => rfl), ← hd]
  rw [hu] at hout ⊢
  rw [runParseL_all m _ w _ a b k t ha hb [] out hout hpred, callsOf_log]

/-! ### Words that are recognized -/

/-- With results at hand the loop stops at the next terminal unit. -/
theorem runParseL_stop (m : Morph S) (rec : RecL S) (word wl : Str) (a rest : List (BUnit S × Bool)) (ha : ∀ u ∈ a, u.1.cfg.direct .parse wl = [])
    (hl : ∃ u ∈ a, u.2 = true) (seen : Seen) (res : List (Parse S)) (hres : res ≠ []) : (runParseL m rec word wl (a ++ rest) seen res).log = [] := by
  induction a generalizing seen res with
  | nil => obtain ⟨u, hu, _⟩ := hl; simp at hu
  | cons vt a ih =>
    obtain ⟨v, t⟩ := vt
    obtain ⟨cs, h1, h2, _⟩ := unitParseL_direct m rec v word wl seen
    rw [ha _ (List.mem_cons_self ..), List.prefix_nil] at h1
    subst h1
    rw [List.cons_append, runParseL]
    cases hv : (unitParseL m rec v word wl seen).val with
    | error e => rw [Logged.bind_log_error _ _ e hv, h2]; rfl
    | ok r =>
      rw [Logged.bind_log_ok _ _ r hv, h2]
      split
      · rfl
      · next hstop =>
        have hne : res ++ r.1 ≠ [] := by simp [hres]
        have ht : t ≠ true := fun ht => hstop ⟨ht, hne⟩
        rw [ih (fun u hu => ha u (List.mem_cons_of_mem _ hu)) ?_ r.2 _ hne]
        · rfl
        · obtain ⟨u, hu, hut⟩ := hl
          rcases List.mem_cons.1 hu with rfl | hu
          · exact absurd hut ht
          · exact ⟨u, hu, hut⟩

theorem runTagL_stop (m : Morph S) (rec : RecL S) (word wl : Str) (a rest : List (BUnit S × Bool)) (ha : ∀ u ∈ a, u.1.cfg.direct .tag wl = [])
    (hl : ∃ u ∈ a, u.2 = true) (seen : SeenTags) (res : List Tag) (hres : res ≠ []) : (runTagL m rec word wl (a ++ rest) seen res).log = [] := by
  induction a generalizing seen res with
  | nil => obtain ⟨u, hu, _⟩ := hl; simp at hu
  | cons vt a ih =>
    obtain ⟨v, t⟩ := vt
    obtain ⟨cs, h1, h2, _⟩ := unitTagL_direct m rec v word wl seen
    rw [ha _ (List.mem_cons_self ..), List.prefix_nil] at h1
    subst h1
    rw [List.cons_append, runTagL]
    cases hv : (unitTagL m rec v word wl seen).val with
    | error e => rw [Logged.bind_log_error _ _ e hv, h2]; rfl
    | ok r =>
      rw [Logged.bind_log_ok _ _ r hv, h2]
      split
      · rfl
      · next hstop =>
        have hne : res ++ r.1 ≠ [] := by simp [hres]
        have ht : t ≠ true := fun ht => hstop ⟨ht, hne⟩
        rw [ih (fun u hu => ha u (List.mem_cons_of_mem _ hu)) ?_ r.2 _ hne]
        · rfl
        · obtain ⟨u, hu, hut⟩ := hl
          rcases List.mem_cons.1 hu with rfl | hu
          · exact absurd hut ht
          · exact ⟨u, hu, hut⟩

/-- C98: a word of the dictionary takes one call. -/
theorem c98_known (m : Morph S) (hm : IsRu m ∨ IsUk m) (n : Nat) (w : Str) (hw : m.wordIsKnown w = true) :
    m.parseCalls n w = [.parse w] ∧ m.tagCalls n w = [.tag w] := by
  cases n with
  | zero => exact ⟨rfl, rfl⟩
  | succ n =>
  have hl := (known_iff m w).1 hw
  obtain ⟨u, a, rest, hu, hd, ha, hat⟩ : ∃ u a rest, m.units = (u, false) :: (a ++ rest) ∧ u.cfg = .dictionary ∧
      (∀ own l, ∀ v ∈ a, v.1.cfg.direct own l = []) ∧ ∃ v ∈ a, v.2 = true := by
    rcases hm with hm | hm
    · refine ⟨⟨0, UnitSpec.dictionary.bound⟩, (m.units.drop 1).take 2, (m.units.drop 1).drop 2, ?_, rfl, ?_, ?_⟩
      · rw [List.take_append_drop, ru_units hm]; rfl
      · rw [ru_units hm]; simp [UnitSpec.bound, UnitCfg.direct]
      · rw [ru_units hm]; simp [UnitSpec.bound]
    · refine ⟨⟨0, UnitSpec.dictionary.bound⟩, (m.units.drop 1).take 4, (m.units.drop 1).drop 4, ?_, rfl, ?_, ?_⟩
      · rw [List.take_append_drop, uk_units hm]; rfl
      · rw [uk_units hm]; simp [UnitSpec.bound, UnitCfg.direct]
      · rw [uk_units hm]; simp [UnitSpec.bound]
  constructor
  · show Call.parse w :: (parseStepL m (analyzeL m n) w).log = _
    unfold parseStepL
    rw [Logged.bind_log_quiet _ _ (fun _ => rfl), hu, runParseL]
    obtain ⟨cs, h1, h2, _⟩ := unitParseL_direct m (analyzeL m n) u w (m.env.lower w) []
    simp only [hd, UnitCfg.direct, List.prefix_nil] at h1
    subst h1
    cases hv : (unitParseL m (analyzeL m n) u w (m.env.lower w) []).val with
    | error e => rw [Logged.bind_log_error _ _ e hv, h2]; rfl
    | ok r =>
      rw [Logged.bind_log_ok _ _ r hv, h2, if_neg (by simp)]
      have hne : r.1 ≠ [] := by
        rw [unitParseL_val] at hv
        unfold unitParse at hv
        rw [hd] at hv
        simp only [bind_ok_iff, pure_eq_ok, Except.ok.injEq] at hv
        obtain ⟨ps, hps, rfl⟩ := hv
        exact (dictParse_known m u.obj w ps hps).1.2 hw
      rw [runParseL_stop m _ w _ a rest (ha _ _) hat _ _ (by simpa using hne)]
      rfl
  · show Call.tag w :: (tagStepL m (analyzeL m n) w).log = _
    unfold tagStepL
    rw [Logged.bind_log_quiet _ _ (fun _ => rfl), hu, runTagL]
    obtain ⟨cs, h1, h2, _⟩ := unitTagL_direct m (analyzeL m n) u w (m.env.lower w) []
    simp only [hd, UnitCfg.direct, List.prefix_nil] at h1
    subst h1
    cases hv : (unitTagL m (analyzeL m n) u w (m.env.lower w) []).val with
    | error e => rw [Logged.bind_log_error _ _ e hv, h2]; rfl
    | ok r =>
      rw [Logged.bind_log_ok _ _ r hv, h2, if_neg (by simp)]
      have hne : r.1 ≠ [] := by
        rw [unitTagL_val] at hv
        unfold unitTag at hv
        rw [hd] at hv
        simp only [bind_ok_iff, pure_eq_ok, Except.ok.injEq] at hv
        obtain ⟨ts, hts, rfl⟩ := hv
        unfold dictTag at hts
        rw [itemValues_lookup] at hts
        have hlen := ((mapE_ok_iff _ _ _).1 hts).length_eq
        rw [List.length_map] at hlen
        intro h0
        have h0 : ts = [] := h0
        rw [h0, List.length_nil, List.length_eq_zero_iff] at hlen
        exact hl hlen
      rw [runTagL_stop m _ w _ a rest (ha _ _) hat _ _ (by simpa using hne)]
      rfl

/-! Examples -/

/-- The two parts of a compound; the rest without the particle and the adjective after по-; the longest prefix first. -/
example : directCalls ruData true .parse (c!"кошка-недокош") = [.parse (c!"кошка"), .parse (c!"недокош")] ∧
    directCalls ruData true .tag (c!"по-кошачьи-то") = [.tag (c!"по-кошачьи"), .tag (c!"кошачьи-то")] ∧
    directCalls ruData true .tag (c!"по-кошачьи") = [.tag (c!"кошачьи"), .parse (c!"по"), .parse (c!"кошачьи")] ∧
    directCalls ruData true .parse (c!"небезкош") = [.parse (c!"кош"), .parse (c!"безкош")] := by
  decide +kernel

/-- недокошка is predicted from кошка: two direct calls. -/
example : Demo.morph.parseCalls 12 (c!"недокошка") = .parse (c!"недокошка") :: (Demo.morph.callsOf 11 (.parse (c!"кошка")) ++ Demo.morph.callsOf 11 (.parse (c!"докошка"))) := by
  have h0 : ∃ ks, ((analyze Demo.morph 12).parse (c!"недокошка")).map (fun ps => ps.map fun p => p.outer.map (·.kind)) = .ok ks ∧ ks = [some .pref] :=
    ⟨_, by decide +kernel, rfl⟩
  obtain ⟨ks, h, rfl⟩ := h0
  cases hp : (analyze Demo.morph 12).parse (c!"недокошка") with
  | error e => rw [hp] at h; cases h
  | ok ps =>
    rw [hp] at h
    have h : (ps.map fun p => p.outer.map (·.kind)) = [some .pref] := by injection h
    have hps : ∀ p ∈ ps, p.Predicted := by
      intro p hmem
      have := List.mem_map_of_mem (f := fun p : Parse Rat => p.outer.map (·.kind)) hmem
      rw [h, List.mem_singleton] at this
      obtain ⟨u, h1, h2⟩ := Option.map_eq_some_iff.1 this
      exact .inl ⟨u, h1, h2⟩
    rw [c98_predicted Demo.morph ruData true (.inl ⟨Demo.morph_isRu, rfl, rfl⟩) 11 _ ps hp hps]
    have e : directCalls ruData true .parse (Demo.morph.env.lower (c!"недокошка")) = [.parse (c!"кошка"), .parse (c!"докошка")] := by decide +kernel
    rw [e]
    simp

/-- A known word takes one call, whatever else it looks like. -/
example : Demo.morph.wordIsKnown (c!"Кошка") = true ∧ Demo.morph.parseCalls 12 (c!"Кошка") = [.parse (c!"Кошка")] :=
  ⟨by decide +kernel, (c98_known Demo.morph (.inl Demo.morph_isRu) 12 _ (by decide +kernel)).1⟩

end Verif
