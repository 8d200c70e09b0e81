/-
C70 — the optional C extension changes no answer.
-/
import Verif.Model.Ext
import Verif.Props.C42
import Verif.Props.C08
import Verif.Lemmas.Predict
import Verif.Props.C01
import Verif.Demo

set_option linter.unusedSectionVars false

namespace Verif

variable {S : Type} [Score S]

/-! ### The two matchers -/

theorem mem_dawgPrefixes (ps : List Str) (w p : Str) : p ∈ dawgPrefixes ps w ↔ p ∈ ps ∧ p ≠ [] ∧ ∃ r, w = p ++ r := by
  unfold dawgPrefixes
  simp only [List.mem_filter, List.mem_map, List.mem_range, decide_eq_true_eq]
  constructor
  · rintro ⟨⟨i, hi, rfl⟩, hp⟩
    refine ⟨hp, ?_, w.drop (i + 1), (List.take_append_drop _ _).symm⟩
    intro h0
    have := congrArg List.length h0
    simp only [List.length_take, List.length_nil] at this
    omega
  · rintro ⟨hp, hne, r, rfl⟩
    have hl : 0 < p.length := List.length_pos_iff.2 hne
    exact ⟨⟨p.length - 1, by simp; omega, by rw [show p.length - 1 + 1 = p.length by omega]; simp⟩, hp⟩

theorem mem_possibleSplitsX (ps : List Str) (k : Nat) (w a b : Str) :
    (a, b) ∈ possibleSplitsX ps k w ↔ a ∈ ps ∧ a ≠ [] ∧ w = a ++ b ∧ k ≤ b.length := by
  unfold possibleSplitsX
  simp only [List.mem_filter, List.mem_map, (List.perm_insertionSort _ _).mem_iff, mem_dawgPrefixes,
    Prod.mk.injEq, decide_eq_true_eq]
  constructor
  · rintro ⟨⟨p, ⟨hp, h0, r, rfl⟩, rfl, rfl⟩, h⟩
    exact ⟨hp, h0, by simp, h⟩
  · rintro ⟨ha, h0, rfl, h⟩
    exact ⟨⟨a, ⟨ha, h0, b, rfl⟩, rfl, by simp⟩, h⟩

theorem dawgPrefixes_nodup (ps : List Str) (w : Str) : (dawgPrefixes ps w).Nodup := by
  unfold dawgPrefixes
  refine List.Nodup.filter _ ?_
  refine List.Nodup.map_on ?_ List.nodup_range
  intro x hx y hy h
  have := congrArg List.length h
  simp only [List.mem_range] at hx hy
  simp only [List.length_take] at this
  omega

theorem possibleSplitsX_strict (ps : List Str) (k : Nat) (w : Str) :
    (possibleSplitsX ps k w).Pairwise fun s t => t.1.length < s.1.length := by
  have h1 : (possibleSplitsX ps k w).Pairwise fun s t => t.1.length ≤ s.1.length := by
    unfold possibleSplitsX
    refine List.Pairwise.filter _ (List.pairwise_map.2 ?_)
    exact List.pairwise_insertionSort (fun a b : Str => b.length ≤ a.length) _
  have hnd : ((possibleSplitsX ps k w).map Prod.fst).Nodup := by
    unfold possibleSplitsX
    have h2 : ((dawgPrefixes ps w).insertionSort fun a b => b.length ≤ a.length).Nodup :=
      (List.perm_insertionSort _ _).nodup_iff.2 (dawgPrefixes_nodup ps w)
    refine List.Nodup.sublist (List.Sublist.map _ List.filter_sublist) ?_
    rw [List.map_map]
    exact (List.map_id _).symm ▸ h2
  have h3 := List.pairwise_map.1 hnd
  refine (h1.and h3).imp_of_mem ?_
  rintro ⟨a, b⟩ ⟨c, d⟩ hs ht ⟨hle, hne⟩
  obtain ⟨_, _, rfl, _⟩ := (mem_possibleSplitsX ps k _ a b).1 hs
  obtain ⟨_, _, he, _⟩ := (mem_possibleSplitsX ps k _ c d).1 ht
  rcases Nat.lt_or_eq_of_le hle with h | h
  · exact h
  · exact absurd (List.append_inj_left he h.symm) hne

/-! ### Adjacent repeats -/

/-- `L` is `L'` with some elements repeated on the spot. -/
inductive Stutter {α : Type} : List α → List α → Prop
  | nil : Stutter [] []
  | step (a : α) {L L' : List α} : Stutter L L' → Stutter (a :: L) (a :: L')
  | rep (a : α) {L L' : List α} : Stutter (a :: L) L' → Stutter (a :: a :: L) L'

theorem stutter_of_sorted {α : Type} (len : α → Nat) (L : List α) : ∀ L' : List α,
    (∀ a ∈ L, ∀ b ∈ L, len a = len b → a = b) →
    L.Pairwise (fun s t => len t ≤ len s) → L'.Pairwise (fun s t => len t < len s) → (∀ x, x ∈ L ↔ x ∈ L') →
    Stutter L L' := by
  induction L with
  | nil =>
    intro L' _ _ _ hm
    cases L' with
    | nil => exact .nil
    | cons b L' => exact absurd ((hm b).2 (by simp)) (by simp)
  | cons a L ih =>
    intro L' hinj h1 h2 hm
    cases L' with
    | nil => exact absurd ((hm a).1 (by simp)) (by simp)
    | cons b L' =>
      rw [List.pairwise_cons] at h1 h2
      have hba : b = a := by
        have hb := (hm b).2 (by simp)
        rcases List.mem_cons.1 hb with h | h
        · exact h
        · have ha := (hm a).1 (by simp)
          rcases List.mem_cons.1 ha with h' | h'
          · exact h'.symm
          · have := h1.1 b h
            have := h2.1 a h'
            omega
      subst hba
      by_cases hb : b ∈ L
      · cases L with
        | nil => exact absurd hb (by simp)
        | cons c L =>
          have hcb : c = b := by
            have hc := h1.1 c (by simp)
            have hle : len b ≤ len c := by
              rcases List.mem_cons.1 hb with h | h
              · rw [h]
              · exact (List.pairwise_cons.1 h1.2).1 b h
            exact hinj c (by simp) b (by simp) (by omega)
          subst hcb
          refine .rep _ (ih (c :: L') (fun x hx y hy => hinj x (List.mem_cons_of_mem _ hx) y (List.mem_cons_of_mem _ hy)) h1.2
            (List.pairwise_cons.2 h2) fun x => ?_)
          rw [← hm x]
          simp
      · refine .step _ (ih L' (fun x hx y hy => hinj x (List.mem_cons_of_mem _ hx) y (List.mem_cons_of_mem _ hy)) h1.2 h2.2
          fun x => ?_)
        constructor
        · intro hx
          rcases List.mem_cons.1 ((hm x).1 (List.mem_cons_of_mem _ hx)) with h | h
          · exact absurd (h ▸ hx) hb
          · exact h
        · intro hx
          rcases List.mem_cons.1 ((hm x).2 (List.mem_cons_of_mem _ hx)) with h | h
          · subst h
            exact absurd (h2.1 x hx) (by omega)
          · exact h

theorem mapE_stutter {α β : Type} (f : α → Except PyErr β) {L L' : List α} (h : Stutter L L') :
    (∃ e, mapE f L = .error e ∧ mapE f L' = .error e) ∨
    ∃ rs rs', mapE f L = .ok rs ∧ mapE f L' = .ok rs' ∧ Stutter rs rs' := by
  induction h with
  | nil => exact .inr ⟨[], [], rfl, rfl, .nil⟩
  | step a _ ih =>
    cases hf : f a with
    | error e => exact .inl ⟨e, by simp [mapE, hf], by simp [mapE, hf]⟩
    | ok r =>
      rcases ih with ⟨e, h1, h2⟩ | ⟨rs, rs', h1, h2, hs⟩
      · exact .inl ⟨e, by simp [mapE, hf, h1], by simp [mapE, hf, h2]⟩
      · exact .inr ⟨r :: rs, r :: rs', by simp [mapE, hf, h1], by simp [mapE, hf, h2], .step _ hs⟩
  | @rep a L L' _ ih =>
    cases hf : f a with
    | error e =>
      rcases ih with ⟨e', h1, h2⟩ | ⟨rs, rs', h1, h2, hs⟩
      · have : e' = e := by simpa [mapE, hf] using h1.symm
        exact .inl ⟨e, by simp [mapE, hf], this ▸ h2⟩
      · simp [mapE, hf] at h1
    | ok r =>
      rcases ih with ⟨e, h1, h2⟩ | ⟨rs, rs', h1, h2, hs⟩
      · exact .inl ⟨e, by rw [mapE]; simp [hf, h1], h2⟩
      · cases hL : mapE f L with
        | error e => simp [mapE, hf, hL] at h1
        | ok q =>
          have : rs = r :: q := by simpa [mapE, hf, hL] using h1.symm
          subst this
          exact .inr ⟨r :: r :: q, rs', by simp [mapE, hf, hL], h2, .rep _ hs⟩

theorem addParses_append (a b : List (Parse S)) (seen : Seen) : addParses (a ++ b) seen =
    ((addParses a seen).1 ++ (addParses b (addParses a seen).2).1, (addParses b (addParses a seen).2).2) := by
  induction a generalizing seen with
  | nil => simp [addParses]
  | cons p a ih =>
    simp only [List.cons_append, addParses]
    split
    · exact ih seen
    · simp [ih]

theorem addParses_all_seen (a : List (Parse S)) (seen : Seen) (h : ∀ p ∈ a, p.key ∈ seen) : addParses a seen = ([], seen) := by
  induction a with
  | nil => rfl
  | cons p a ih =>
    rw [addParses, if_pos (h p (by simp))]
    exact ih fun q hq => h q (by simp [hq])

theorem addParses_stutter {rs rs' : List (List (Parse S))} (h : Stutter rs rs') :
    ∀ seen, addParses rs.flatten seen = addParses rs'.flatten seen := by
  induction h with
  | nil => intro seen; rfl
  | step a _ ih =>
    intro seen
    simp only [List.flatten_cons, addParses_append, ih]
  | rep a _ ih =>
    intro seen
    rw [← ih seen]
    simp only [List.flatten_cons, addParses_append]
    rw [addParses_all_seen a (addParses a seen).2 fun p hp => addParses_seen a seen p hp]
    simp

theorem addTags_append (a b : List Tag) (seen : SeenTags) : addTags (a ++ b) seen =
    ((addTags a seen).1 ++ (addTags b (addTags a seen).2).1, (addTags b (addTags a seen).2).2) := by
  induction a generalizing seen with
  | nil => simp [addTags]
  | cons p a ih =>
    simp only [List.cons_append, addTags]
    split
    · exact ih seen
    · simp [ih]

theorem addTags_all_seen (a : List Tag) (seen : SeenTags) (h : ∀ p ∈ a, p.tuple ∈ seen) : addTags a seen = ([], seen) := by
  induction a with
  | nil => rfl
  | cons p a ih =>
    rw [addTags, if_pos (h p (by simp))]
    exact ih fun q hq => h q (by simp [hq])

theorem addTags_seen (ts : List Tag) (seen : SeenTags) : (∀ k ∈ seen, k ∈ (addTags ts seen).2) ∧
    ∀ p ∈ ts, p.tuple ∈ (addTags ts seen).2 := by
  induction ts generalizing seen with
  | nil => simp [addTags]
  | cons t ts ih =>
    rw [addTags]
    split
    · next h =>
      refine ⟨(ih seen).1, fun p hp => ?_⟩
      rcases List.mem_cons.1 hp with rfl | hp
      · exact (ih seen).1 _ h
      · exact (ih seen).2 p hp
    · refine ⟨fun k hk => (ih _).1 k (by simp [hk]), fun p hp => ?_⟩
      rcases List.mem_cons.1 hp with rfl | hp
      · exact (ih _).1 _ (by simp)
      · exact (ih _).2 p hp

theorem addTags_stutter {rs rs' : List (List Tag)} (h : Stutter rs rs') :
    ∀ seen, addTags rs.flatten seen = addTags rs'.flatten seen := by
  induction h with
  | nil => intro seen; rfl
  | step a _ ih =>
    intro seen
    simp only [List.flatten_cons, addTags_append, ih]
  | rep a _ ih =>
    intro seen
    rw [← ih seen]
    simp only [List.flatten_cons, addTags_append]
    rw [addTags_all_seen a (addTags a seen).2 fun p hp => (addTags_seen a seen).2 p hp]
    simp

/-! ### The two analyzers -/

/-- The same unit with the empty string removed from its list of prefixes. -/
def UnitCfg.dropEmpty : UnitCfg S → UnitCfg S
  | .hyphenated skip mult => .hyphenated (skip.filter (· ≠ [])) mult
  | .knownPrefix ps mult k => .knownPrefix (ps.filter (· ≠ [])) mult k
  | c => c

/-- The same analyzer with the empty string removed from the prefix lists of its units. -/
def Morph.dropEmpty (m : Morph S) : Morph S :=
  { m with units := m.units.map fun ut => (⟨ut.1.id, ut.1.cfg.dropEmpty⟩, ut.2) }

theorem splits_stutter (ps : List Str) (k : Nat) (w : Str) :
    Stutter (possibleSplits (ps.filter (· ≠ [])) k w) (possibleSplitsX ps k w) := by
  refine stutter_of_sorted (fun s => s.1.length) _ _ ?_ (c42_splits_longest_first _ k w) (possibleSplitsX_strict ps k w) ?_
  · rintro ⟨a, b⟩ ha ⟨c, d⟩ hc hl
    obtain ⟨_, rfl, _⟩ := (c42_splits_mem _ k _ a b).1 ha
    obtain ⟨_, he, _⟩ := (c42_splits_mem _ k _ c d).1 hc
    obtain ⟨h1, h2⟩ := List.append_inj he hl
    rw [h1, h2]
  · rintro ⟨a, b⟩
    rw [c42_splits_mem, mem_possibleSplitsX]
    simp [and_assoc]

theorem hyphenShould_ext (skip : List Str) (w : Str) : hyphenShouldX skip w = hyphenShould (skip.filter (· ≠ [])) w := by
  have : isPrefixedX skip w = isPrefixed (skip.filter (· ≠ [])) w := by
    rw [Bool.eq_iff_iff, c42_is_prefixed]
    unfold isPrefixedX
    have hne : dawgPrefixes skip w ≠ [] ↔ ∃ p, p ∈ dawgPrefixes skip w :=
      ⟨fun h => List.exists_mem_of_ne_nil _ h, fun ⟨p, hp⟩ => List.ne_nil_of_mem hp⟩
    rw [decide_eq_true_eq, hne]
    simp only [mem_dawgPrefixes, List.mem_filter]
    constructor
    · rintro ⟨p, h1, h2, h3⟩
      exact ⟨p, ⟨h1, by simpa using h2⟩, h3⟩
    · rintro ⟨p, ⟨h1, h2⟩, h3⟩
      exact ⟨p, h1, by simpa using h2, h3⟩
  unfold hyphenShouldX hyphenShould
  rw [this]

theorem prefixCands_ext (u : UObj) (mult : S) (f : Str → Except PyErr (List (Parse S))) (ps : List Str) (k : Nat) (w : Str)
    (seen : Seen) :
    (prefixCands u mult f (possibleSplitsX ps k w) >>= fun c => pure (addParses c seen)) =
    (prefixCands u mult f (possibleSplits (ps.filter (· ≠ [])) k w) >>= fun c => pure (addParses c seen)) := by
  unfold prefixCands
  rcases mapE_stutter (fun s : Str × Str => do
    let r ← f s.2
    pure (prefixDeco u mult s.1 r)) (splits_stutter ps k w) with ⟨e, h1, h2⟩ | ⟨rs, rs', h1, h2, hs⟩
  · rw [h1, h2]
  · rw [h1, h2]
    exact congrArg Except.ok (addParses_stutter hs seen).symm

theorem prefixTagCands_ext (f : Str → Except PyErr (List Tag)) (ps : List Str) (k : Nat) (w : Str) (seen : SeenTags) :
    (prefixTagCands f (possibleSplitsX ps k w) >>= fun c => pure (addTags c seen)) =
    (prefixTagCands f (possibleSplits (ps.filter (· ≠ [])) k w) >>= fun c => pure (addTags c seen)) := by
  unfold prefixTagCands
  rcases mapE_stutter (fun s : Str × Str => do
    let r ← f s.2
    pure (r.filter Tag.isProductive)) (splits_stutter ps k w) with ⟨e, h1, h2⟩ | ⟨rs, rs', h1, h2, hs⟩
  · rw [h1, h2]
  · rw [h1, h2]
    exact congrArg Except.ok (addTags_stutter hs seen).symm

theorem unitParse_ext (m : Morph S) (rec : Rec S) (u : BUnit S) (word wl : Str) (seen : Seen) :
    unitParseX m rec u word wl seen = unitParse m.dropEmpty rec ⟨u.id, u.cfg.dropEmpty⟩ word wl seen := by
  obtain ⟨i, c⟩ := u
  cases c with
  | hyphenated skip mult =>
    simp only [unitParseX, unitParse, UnitCfg.dropEmpty, hyphenParseX, hyphenParse, hyphenShould_ext]
    rfl
  | knownPrefix ps mult k =>
    simp only [unitParseX, unitParse, UnitCfg.dropEmpty]
    exact prefixCands_ext _ mult rec.parse ps k wl seen
  | _ => rfl

theorem unitTag_ext (m : Morph S) (rec : Rec S) (u : BUnit S) (word wl : Str) (seen : SeenTags) :
    unitTagX m rec u word wl seen = unitTag m.dropEmpty rec ⟨u.id, u.cfg.dropEmpty⟩ word wl seen := by
  obtain ⟨i, c⟩ := u
  cases c with
  | hyphenated skip mult =>
    simp only [unitTagX, unitTag, UnitCfg.dropEmpty, hyphenParseX, hyphenParse, hyphenShould_ext]
    rfl
  | knownPrefix ps mult k =>
    simp only [unitTagX, unitTag, UnitCfg.dropEmpty]
    exact prefixTagCands_ext rec.tag ps k wl seen
  | _ => rfl

theorem runParse_ext (m : Morph S) (rec : Rec S) (word wl : Str) (us : List (BUnit S × Bool)) (seen : Seen) (res : List (Parse S)) :
    runParseX m rec word wl us seen res =
      runParse m.dropEmpty rec word wl (us.map fun ut => (⟨ut.1.id, ut.1.cfg.dropEmpty⟩, ut.2)) seen res := by
  induction us generalizing seen res with
  | nil => rfl
  | cons ut us ih =>
    simp only [runParseX, List.map_cons, runParse, unitParse_ext, ih]

theorem runTag_ext (m : Morph S) (rec : Rec S) (word wl : Str) (us : List (BUnit S × Bool)) (seen : SeenTags) (res : List Tag) :
    runTagX m rec word wl us seen res =
      runTag m.dropEmpty rec word wl (us.map fun ut => (⟨ut.1.id, ut.1.cfg.dropEmpty⟩, ut.2)) seen res := by
  induction us generalizing seen res with
  | nil => rfl
  | cons ut us ih =>
    simp only [runTagX, List.map_cons, runTag, unitTag_ext, ih]

/-- **C70.** With the C extension, `parse` and `tag` return (or raise) exactly what they return without it for the same
configuration with the empty string removed from the lists of known prefixes and of skipped prefixes — for every word, and whether or not
the lists contain duplicates. -/
theorem c70_extension (m : Morph S) (n : Nat) : analyzeX m n = analyze m.dropEmpty n := by
  induction n with
  | zero => rfl
  | succ n ih =>
    rw [analyzeX, analyze, ih]
    congr 1
    · funext w
      unfold parseStepX parseStep
      simp only [runParse_ext]
      rfl
    · funext w
      unfold tagStepX tagStep
      simp only [runTag_ext]
      rfl

/-- No unit of the analyzer has the empty string among its prefixes. -/
def NoEmptyPrefix (m : Morph S) : Prop :=
  ∀ ut ∈ m.units, (∀ skip mult, ut.1.cfg = .hyphenated skip mult → [] ∉ skip) ∧
    ∀ ps mult k, ut.1.cfg = .knownPrefix ps mult k → [] ∉ ps

/-- So, when no prefix list contains the empty string, installing or removing the extension changes no answer at all. -/
theorem c70_same (m : Morph S) (h : NoEmptyPrefix m) (n : Nat) : analyzeX m n = analyze m n := by
  rw [c70_extension]
  have hd : m.dropEmpty = m := by
    have hu : m.units.map (fun ut => ((⟨ut.1.id, ut.1.cfg.dropEmpty⟩ : BUnit S), ut.2)) = m.units := by
      conv_rhs => rw [← List.map_id m.units]
      refine List.map_congr_left fun ut hut => ?_
      obtain ⟨⟨i, c⟩, t⟩ := ut
      have hc : c.dropEmpty = c := by
        have hf : ∀ l : List Str, [] ∉ l → l.filter (fun p => decide (p ≠ [])) = l := by
          intro l hl
          rw [List.filter_eq_self]
          intro p hp
          simp only [ne_eq, decide_not, Bool.not_eq_true', decide_eq_false_iff_not]
          rintro rfl
          exact hl hp
        cases c with
        | hyphenated skip mult => simp only [UnitCfg.dropEmpty, hf skip ((h _ hut).1 skip mult rfl)]
        | knownPrefix ps mult k => simp only [UnitCfg.dropEmpty, hf ps ((h _ hut).2 ps mult k rfl)]
        | _ => rfl
      simp [hc]
    unfold Morph.dropEmpty
    rw [hu]
  rw [hd]

/-- The configured lists of the `ru` and `uk` analyzers contain no empty string. -/
theorem default_noEmptyPrefix (m : Morph S) (hm : IsRu m ∨ IsUk m) : NoEmptyPrefix m := by
  have hk : ([] : Str) ∉ ruKnownPrefixes := by decide +kernel
  have hk' : ([] : Str) ∉ ukKnownPrefixes := by decide +kernel
  rintro ⟨u, t⟩ hu
  rcases hm with ⟨cls, hm⟩ | ⟨cls, hm⟩
  all_goals
    obtain ⟨_, _, _, _, hgr⟩ := mkMorph_units hm
    obtain ⟨g, hg, hug⟩ := (mem_of_isGroups hgr u).1 ⟨t, hu⟩
    obtain ⟨g', hg', sp, hsp, he⟩ := mem_boundGroups _ _ g hg u hug
    dsimp only
    rw [he]
    clear he
    revert hsp
    revert sp hg' g'
  · simp [ruUnits, UnitSpec.bound, hk]
  · simp [ukUnits, UnitSpec.bound, hk']

/-- **C70.** For the default Russian and Ukrainian analyzers every `parse` and every `tag` is the same with and without the extension. -/
theorem c70_default (m : Morph S) (hm : IsRu m ∨ IsUk m) (n : Nat) (w : Str) :
    (analyzeX m n).parse w = (analyze m n).parse w ∧ (analyzeX m n).tag w = (analyze m n).tag w := by
  rw [c70_same m (default_noEmptyPrefix m hm) n]
  exact ⟨rfl, rfl⟩

/-- **C70, where it fails.** With the empty string as a known prefix, the analyzer without the extension calls itself on the same word for
ever: whatever the limit on nested calls, it is exceeded, whenever a remainder of the whole word's length is allowed. -/
theorem c70_empty_prefix_recurses (m : Morph S) (hlow : m.env.LowerStable) (u : BUnit S) (t : Bool) (us : List (BUnit S × Bool)) (mult : S) (k : Nat)
    (hm : m.units = (u, t) :: us) (hu : u.cfg = .knownPrefix [[]] mult k) (n : Nat) (w : Str) (hk : k ≤ (m.env.lower w).length) :
    (analyze m n).parse w = .error .recursionError ∧ (analyze m n).tag w = .error .recursionError := by
  induction n generalizing w with
  | zero => exact ⟨rfl, rfl⟩
  | succ n ih =>
    have hs : possibleSplits [[]] k (m.env.lower w) = [([], m.env.lower w)] := by
      simp [possibleSplits, matchPrefixes, isPrefixed, startsWith, hk]
    have hl : m.env.lower (m.env.lower w) = m.env.lower w := hlow w _ (List.infix_refl _)
    obtain ⟨h1, h2⟩ := ih (m.env.lower w) (by rw [hl]; exact hk)
    constructor
    · show parseStep m (analyze m n) w = _
      unfold parseStep
      simp only [hm, runParse, unitParse, hu, hs, prefixCands, mapE, h1]
      rfl
    · show tagStep m (analyze m n) w = _
      unfold tagStep
      simp only [hm, runTag, unitTag, hu, hs, prefixTagCands, mapE, h2]
      rfl

/-- The empty string among the skipped prefixes turns the hyphenated-words rule off without the extension; with it, it is ignored. -/
theorem c70_empty_skip (rec : Rec S) (u : UObj) (skip : List Str) (mult : S) (wl : Str) (h : [] ∈ skip) :
    hyphenParse rec u skip mult wl = .ok [] ∧
    hyphenParseX rec u skip mult wl = hyphenParse rec u (skip.filter (· ≠ [])) mult wl := by
  constructor
  · have hp : isPrefixed skip wl = true := (c42_is_prefixed skip wl).2 ⟨[], h, wl, rfl⟩
    unfold hyphenParse hyphenShould
    rw [hp]
    by_cases h1 : '-' ∈ wl
    · simp [h1]
    · simp [h1]
  · unfold hyphenParseX hyphenParse
    rw [hyphenShould_ext]

/-! Non-vacuity: the demo analyzer satisfies the hypothesis, and an analyzer with an empty prefix that answers with the extension only. -/
example : NoEmptyPrefix Demo.morph := default_noEmptyPrefix _ (.inl Demo.morph_isRu)

/-- An analyzer with the empty prefix in front of the unit for unknown words. -/
def Demo.emptyPrefix : Morph Rat :=
  { Demo.morph with units := [(⟨0, .knownPrefix [[]] (dec 75 100) 3⟩, true), (⟨1, .unkn ⟨c!"UNKN"⟩⟩, true)], est := none }

example : ((analyze Demo.emptyPrefix 50).parse (c!"ааа")).map (·.map Parse.word) = .error .recursionError ∧
    ((analyzeX Demo.emptyPrefix 50).parse (c!"ааа")).map (·.map Parse.word) = .ok [c!"ааа"] := by decide +kernel

/-- Duplicates in the list make no difference to the answer (the word is analyzed twice, its parses are returned once). -/
example : possibleSplits [c!"не", c!"небез", c!"не"] 3 (c!"небезопасный") =
      [(c!"небез", c!"опасный"), (c!"не", c!"безопасный"), (c!"не", c!"безопасный")] ∧
    possibleSplitsX [c!"не", c!"небез", c!"не"] 3 (c!"небезопасный") =
      [(c!"небез", c!"опасный"), (c!"не", c!"безопасный")] := by decide +kernel

end Verif
