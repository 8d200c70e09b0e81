/-
C77 — what a list of prefixes or particles means: a set of lower-case strings.
-/
import Mathlib.Data.List.Forall2
import Verif.Props.C70

set_option linter.unusedSectionVars false

namespace Verif

variable {S : Type} [Score S]

/-! ### Specification -/

/-- Two units of the same kind with the same parameters, whose lists of known (skipped) prefixes have the same lower-case members —
whatever their order, repetitions and members that are not in lower case —, or whose lists of particles have the same lower-case members in the
same order. -/
def UnitCfg.SameLists (env : Env) : UnitCfg S → UnitCfg S → Prop
  | .hyphenated a x, .hyphenated b y => x = y ∧ ∀ p, env.lower p = p → (p ∈ a ↔ p ∈ b)
  | .knownPrefix a x k, .knownPrefix b y l => x = y ∧ k = l ∧ ∀ p, env.lower p = p → (p ∈ a ↔ p ∈ b)
  | .particle a x, .particle b y => x = y ∧ a.filter (fun p => decide (env.lower p = p)) = b.filter (fun p => decide (env.lower p = p))
  | c, d => c = d

/-- The same, unit by unit, for two lists of units. -/
def SameUnits (env : Env) (us vs : List (BUnit S × Bool)) : Prop :=
  List.Forall₂ (fun a b => a.1.id = b.1.id ∧ a.2 = b.2 ∧ a.1.cfg.SameLists env b.1.cfg) us vs

/-! ### Proof -/

theorem splits_dedup (ps : List Str) (k : Nat) (w : Str) :
    ((possibleSplits ps k w).dedup).Pairwise fun s t => t.1.length < s.1.length := by
  have h1 := (c42_splits_longest_first ps k w).sublist (List.dedup_sublist (possibleSplits ps k w))
  have h2 : ((possibleSplits ps k w).dedup).Pairwise (· ≠ ·) := List.nodup_dedup _
  refine (h1.and h2).imp_of_mem ?_
  rintro ⟨a, b⟩ ⟨c, d⟩ hs ht ⟨hle, hne⟩
  obtain ⟨_, rfl, _⟩ := (c42_splits_mem ps k _ a b).1 (List.mem_dedup.1 hs)
  obtain ⟨_, he, _⟩ := (c42_splits_mem ps k _ c d).1 (List.mem_dedup.1 ht)
  rcases Nat.lt_or_eq_of_le hle with h | h
  · exact h
  · obtain ⟨h3, h4⟩ := List.append_inj he h.symm
    exact absurd (by rw [h3, h4]) hne

/-- The splits only depend on the set of prefixes the word begins with, up to repetitions. -/
theorem splits_stutter_set (ps qs : List Str) (k : Nat) (w : Str) (h : ∀ p, p <+: w → (p ∈ ps ↔ p ∈ qs)) :
    Stutter (possibleSplits ps k w) ((possibleSplits qs k w).dedup) := by
  refine stutter_of_sorted (fun s => s.1.length) _ _ ?_ (c42_splits_longest_first _ k w) (splits_dedup qs k w) ?_
  · rintro ⟨a, b⟩ ha ⟨c, d⟩ hc hl
    obtain ⟨_, rfl, _⟩ := (c42_splits_mem _ k _ a b).1 ha
    obtain ⟨_, he, _⟩ := (c42_splits_mem _ k _ c d).1 hc
    obtain ⟨h1, h2⟩ := List.append_inj he hl
    rw [h1, h2]
  · rintro ⟨a, b⟩
    rw [List.mem_dedup, c42_splits_mem, c42_splits_mem]
    constructor
    · rintro ⟨h1, rfl, h3⟩
      exact ⟨(h a ⟨b, rfl⟩).1 h1, rfl, h3⟩
    · rintro ⟨h1, rfl, h3⟩
      exact ⟨(h a ⟨b, rfl⟩).2 h1, rfl, h3⟩

theorem prefixCands_set (u : UObj) (mult : S) (f : Str → Except PyErr (List (Parse S))) (ps qs : List Str) (k : Nat) (w : Str)
    (seen : Seen) (h : ∀ p, p <+: w → (p ∈ ps ↔ p ∈ qs)) :
    (prefixCands u mult f (possibleSplits ps k w) >>= fun c => pure (addParses c seen)) =
    (prefixCands u mult f (possibleSplits qs k w) >>= fun c => pure (addParses c seen)) := by
  have key : ∀ ps, (∀ p, p <+: w → (p ∈ ps ↔ p ∈ qs)) →
      (prefixCands u mult f (possibleSplits ps k w) >>= fun c => pure (addParses c seen)) =
      (prefixCands u mult f ((possibleSplits qs k w).dedup) >>= fun c => pure (addParses c seen)) := by
    intro ps h
    unfold prefixCands
    rcases mapE_stutter (fun s : Str × Str => do
      let r ← f s.2
      pure (prefixDeco u mult s.1 r)) (splits_stutter_set ps qs k w h) with ⟨e, h1, h2⟩ | ⟨rs, rs', h1, h2, hs⟩
    · rw [h1, h2]
    · rw [h1, h2]
      exact congrArg Except.ok (addParses_stutter hs seen)
  rw [key ps h, key qs fun p _ => Iff.rfl]

theorem prefixTagCands_set (f : Str → Except PyErr (List Tag)) (ps qs : List Str) (k : Nat) (w : Str) (seen : SeenTags)
    (h : ∀ p, p <+: w → (p ∈ ps ↔ p ∈ qs)) :
    (prefixTagCands f (possibleSplits ps k w) >>= fun c => pure (addTags c seen)) =
    (prefixTagCands f (possibleSplits qs k w) >>= fun c => pure (addTags c seen)) := by
  have key : ∀ ps, (∀ p, p <+: w → (p ∈ ps ↔ p ∈ qs)) →
      (prefixTagCands f (possibleSplits ps k w) >>= fun c => pure (addTags c seen)) =
      (prefixTagCands f ((possibleSplits qs k w).dedup) >>= fun c => pure (addTags c seen)) := by
    intro ps h
    unfold prefixTagCands
    rcases mapE_stutter (fun s : Str × Str => do
      let r ← f s.2
      pure (r.filter Tag.isProductive)) (splits_stutter_set ps qs k w h) with ⟨e, h1, h2⟩ | ⟨rs, rs', h1, h2, hs⟩
    · rw [h1, h2]
    · rw [h1, h2]
      exact congrArg Except.ok (addTags_stutter hs seen)
  rw [key ps h, key qs fun p _ => Iff.rfl]

theorem hyphenShould_set (a b : List Str) (w : Str) (h : ∀ p, p <+: w → (p ∈ a ↔ p ∈ b)) : hyphenShould a w = hyphenShould b w := by
  have : isPrefixed a w = isPrefixed b w := by
    rw [Bool.eq_iff_iff, c42_is_prefixed, c42_is_prefixed]
    constructor
    · rintro ⟨p, h1, r, rfl⟩
      exact ⟨p, (h p ⟨r, rfl⟩).1 h1, r, rfl⟩
    · rintro ⟨p, h1, r, rfl⟩
      exact ⟨p, (h p ⟨r, rfl⟩).2 h1, r, rfl⟩
  unfold hyphenShould
  rw [this]

theorem particleSplit_filter (f : Str → Bool) (ps : List Str) (w : Str) (h : ∀ p ∈ ps, p <:+ w → f p = true) :
    particleSplit (ps.filter f) w = particleSplit ps w := by
  unfold particleSplit
  split
  · induction ps with
    | nil => rfl
    | cons p ps ih =>
      have ih := ih fun q hq => h q (List.mem_cons_of_mem _ hq)
      by_cases hf : f p = true
      · rw [List.filter_cons_of_pos hf]
        simp only [List.findSome?_cons, ih]
      · have he : endsWith w p = false := by
          cases hc : endsWith w p with
          | false => rfl
          | true => exact absurd (h p (by simp) (by simpa [endsWith] using hc)) hf
        rw [List.filter_cons_of_neg hf, List.findSome?_cons]
        simpa [he] using ih
  · rfl

theorem unitParse_lists (m : Morph S) (vs : List (BUnit S × Bool)) (rec : Rec S) (hlow : m.env.LowerStable) (u v : BUnit S) (word : Str)
    (seen : Seen) (hid : u.id = v.id) (h : u.cfg.SameLists m.env v.cfg) :
    unitParse m rec u word (m.env.lower word) seen = unitParse { m with units := vs } rec v word (m.env.lower word) seen := by
  have hpre : ∀ p, p <+: m.env.lower word → m.env.lower p = p := fun p hp => hlow word p hp.isInfix
  have hsuf : ∀ p, p <:+ m.env.lower word → m.env.lower p = p := fun p hp => hlow word p hp.isInfix
  obtain ⟨i, c⟩ := u
  obtain ⟨j, d⟩ := v
  dsimp only at hid h
  subst hid
  cases c with
  | hyphenated a x =>
    cases d with
    | hyphenated b y =>
      obtain ⟨rfl, h⟩ := h
      simp only [unitParse, hyphenParse]
      rw [hyphenShould_set a b _ fun p hp => h p (hpre p hp)]
      rfl
    | _ => cases h
  | knownPrefix a x k =>
    cases d with
    | knownPrefix b y l =>
      obtain ⟨rfl, rfl, h⟩ := h
      exact prefixCands_set _ x rec.parse a b k _ seen fun p hp => h p (hpre p hp)
    | _ => cases h
  | particle a x =>
    cases d with
    | particle b y =>
      obtain ⟨rfl, h⟩ := h
      have ha := particleSplit_filter (fun p => decide (m.env.lower p = p)) a (m.env.lower word) fun p _ hp => by simpa using hsuf p hp
      have hb := particleSplit_filter (fun p => decide (m.env.lower p = p)) b (m.env.lower word) fun p _ hp => by simpa using hsuf p hp
      have : particleSplit a (m.env.lower word) = particleSplit b (m.env.lower word) := by rw [← ha, h, hb]
      simp only [unitParse, this]
      rfl
    | _ => cases h
  | _ =>
    cases d with
    | hyphenated b y => cases h
    | knownPrefix b y l => cases h
    | particle b y => cases h
    | _ => cases h <;> rfl

theorem unitTag_lists (m : Morph S) (vs : List (BUnit S × Bool)) (rec : Rec S) (hlow : m.env.LowerStable) (u v : BUnit S) (word : Str)
    (seen : SeenTags) (hid : u.id = v.id) (h : u.cfg.SameLists m.env v.cfg) :
    unitTag m rec u word (m.env.lower word) seen = unitTag { m with units := vs } rec v word (m.env.lower word) seen := by
  have hpre : ∀ p, p <+: m.env.lower word → m.env.lower p = p := fun p hp => hlow word p hp.isInfix
  have hsuf : ∀ p, p <:+ m.env.lower word → m.env.lower p = p := fun p hp => hlow word p hp.isInfix
  obtain ⟨i, c⟩ := u
  obtain ⟨j, d⟩ := v
  dsimp only at hid h
  subst hid
  cases c with
  | hyphenated a x =>
    cases d with
    | hyphenated b y =>
      obtain ⟨rfl, h⟩ := h
      simp only [unitTag, hyphenParse]
      rw [hyphenShould_set a b _ fun p hp => h p (hpre p hp)]
      rfl
    | _ => cases h
  | knownPrefix a x k =>
    cases d with
    | knownPrefix b y l =>
      obtain ⟨rfl, rfl, h⟩ := h
      exact prefixTagCands_set rec.tag a b k _ seen fun p hp => h p (hpre p hp)
    | _ => cases h
  | particle a x =>
    cases d with
    | particle b y =>
      obtain ⟨rfl, h⟩ := h
      have ha := particleSplit_filter (fun p => decide (m.env.lower p = p)) a (m.env.lower word) fun p _ hp => by simpa using hsuf p hp
      have hb := particleSplit_filter (fun p => decide (m.env.lower p = p)) b (m.env.lower word) fun p _ hp => by simpa using hsuf p hp
      have : particleSplit a (m.env.lower word) = particleSplit b (m.env.lower word) := by rw [← ha, h, hb]
      simp only [unitTag, this]
    | _ => cases h
  | _ =>
    cases d with
    | hyphenated b y => cases h
    | knownPrefix b y l => cases h
    | particle b y => cases h
    | _ => cases h <;> rfl

theorem runParse_lists (m : Morph S) (ws : List (BUnit S × Bool)) (rec : Rec S) (hlow : m.env.LowerStable) (word : Str)
    {us vs : List (BUnit S × Bool)} (h : SameUnits m.env us vs) : ∀ (seen : Seen) (res : List (Parse S)),
    runParse m rec word (m.env.lower word) us seen res = runParse { m with units := ws } rec word (m.env.lower word) vs seen res := by
  unfold SameUnits at h
  induction h with
  | nil => intro seen res; rfl
  | @cons a b us vs hab _ ih =>
    intro seen res
    obtain ⟨u, t⟩ := a
    obtain ⟨v, t'⟩ := b
    obtain ⟨h1, h2, h3⟩ := hab
    dsimp only at h2
    subst h2
    simp only [runParse, unitParse_lists m ws rec hlow u v word seen h1 h3, ih]

theorem runTag_lists (m : Morph S) (ws : List (BUnit S × Bool)) (rec : Rec S) (hlow : m.env.LowerStable) (word : Str)
    {us vs : List (BUnit S × Bool)} (h : SameUnits m.env us vs) : ∀ (seen : SeenTags) (res : List Tag),
    runTag m rec word (m.env.lower word) us seen res = runTag { m with units := ws } rec word (m.env.lower word) vs seen res := by
  unfold SameUnits at h
  induction h with
  | nil => intro seen res; rfl
  | @cons a b us vs hab _ ih =>
    intro seen res
    obtain ⟨u, t⟩ := a
    obtain ⟨v, t'⟩ := b
    obtain ⟨h1, h2, h3⟩ := hab
    dsimp only at h2
    subst h2
    simp only [runTag, unitTag_lists m ws rec hlow u v word seen h1 h3, ih]

/-- **C77.** Two analyzers whose units differ only in the order, the repetitions and the not-lower-case members of their prefix
lists (and the not-lower-case members of their particle lists) give the same answer — or raise the same exception — to every `parse` and every
`tag`. -/
theorem c77_lists (m : Morph S) (hlow : m.env.LowerStable) (vs : List (BUnit S × Bool)) (h : SameUnits m.env m.units vs) (n : Nat) (w : Str) :
    (analyze { m with units := vs } n).parse w = (analyze m n).parse w ∧
    (analyze { m with units := vs } n).tag w = (analyze m n).tag w := by
  have key : analyze { m with units := vs } n = analyze m n := by
    induction n with
    | zero => rfl
    | succ n ih =>
      rw [analyze, analyze, ih]
      congr 1
      · funext w
        unfold parseStep
        simp only [runParse_lists m vs (analyze m n) hlow w h]
      · funext w
        unfold tagStep
        simp only [runTag_lists m vs (analyze m n) hlow w h]
  rw [key]
  exact ⟨rfl, rfl⟩

/-- The unit without the members of its lists that are not in lower case. -/
def UnitCfg.lowerOnly (env : Env) : UnitCfg S → UnitCfg S
  | .hyphenated a x => .hyphenated (a.filter fun p => decide (env.lower p = p)) x
  | .knownPrefix a x k => .knownPrefix (a.filter fun p => decide (env.lower p = p)) x k
  | .particle a x => .particle (a.filter fun p => decide (env.lower p = p)) x
  | c => c

/-- The analyzer with such units. -/
def Morph.lowerOnly (m : Morph S) : Morph S :=
  { m with units := m.units.map fun ut => (⟨ut.1.id, ut.1.cfg.lowerOnly m.env⟩, ut.2) }

/-- **C77.** Prefixes and particles with a letter that is not in lower case are never used: removing them all changes no answer. -/
theorem c77_capitals_unused (m : Morph S) (hlow : m.env.LowerStable) (n : Nat) (w : Str) :
    (analyze m.lowerOnly n).parse w = (analyze m n).parse w ∧ (analyze m.lowerOnly n).tag w = (analyze m n).tag w := by
  refine c77_lists m hlow _ ?_ n w
  unfold SameUnits
  rw [List.forall₂_map_right_iff]
  refine List.forall₂_same.2 ?_
  rintro ⟨⟨i, c⟩, t⟩ _
  refine ⟨rfl, rfl, ?_⟩
  cases c with
  | hyphenated a x =>
    refine ⟨rfl, fun p hp => ?_⟩
    simp [hp]
  | knownPrefix a x k =>
    refine ⟨rfl, rfl, fun p hp => ?_⟩
    simp [hp]
  | particle a x =>
    refine ⟨rfl, ?_⟩
    simp
  | _ => rfl

/-- In particular no result of a known-prefix unit has such a prefix: every prefix removed from a word is in lower case. -/
theorem c77_removed_prefix (m : Morph S) (hlow : m.env.LowerStable) (ps : List Str) (k : Nat) (w pre rest : Str)
    (h : (pre, rest) ∈ possibleSplits ps k (m.env.lower w)) : m.env.lower pre = pre := by
  obtain ⟨_, he, _⟩ := (c42_splits_mem ps k _ pre rest).1 h
  exact hlow w pre (he ▸ (List.prefix_append pre rest).isInfix)

/-- **C77.** The same with the C extension. -/
theorem c77_lists_extension (m : Morph S) (hlow : m.env.LowerStable) (vs : List (BUnit S × Bool)) (h : SameUnits m.env m.units vs) (n : Nat)
    (w : Str) :
    (analyzeX { m with units := vs } n).parse w = (analyzeX m n).parse w ∧
    (analyzeX { m with units := vs } n).tag w = (analyzeX m n).tag w := by
  rw [c70_extension, c70_extension]
  refine c77_lists m.dropEmpty hlow _ ?_ n w
  unfold SameUnits at h ⊢
  unfold Morph.dropEmpty
  rw [List.forall₂_map_left_iff, List.forall₂_map_right_iff]
  refine h.imp ?_
  rintro ⟨⟨i, c⟩, t⟩ ⟨⟨j, d⟩, t'⟩ ⟨h1, h2, h3⟩
  refine ⟨h1, h2, ?_⟩
  dsimp only at h3 ⊢
  cases c with
  | hyphenated a x =>
    cases d with
    | hyphenated b y =>
      obtain ⟨rfl, h⟩ := h3
      refine ⟨rfl, fun p hp => ?_⟩
      simp [h p hp]
    | _ => cases h3
  | knownPrefix a x k =>
    cases d with
    | knownPrefix b y l =>
      obtain ⟨rfl, rfl, h⟩ := h3
      refine ⟨rfl, rfl, fun p hp => ?_⟩
      simp [h p hp]
    | _ => cases h3
  | particle a x =>
    cases d with
    | particle b y => exact h3
    | _ => cases h3
  | _ =>
    cases d with
    | hyphenated b y => cases h3
    | knownPrefix b y l => cases h3
    | particle b y => cases h3
    | _ => cases h3 <;> rfl

/-- A capital letter of the Latin, Russian or Ukrainian alphabet. -/
def isCapital (c : Char) : Bool :=
  (65 ≤ c.toNat && c.toNat ≤ 90) || (0x410 ≤ c.toNat && c.toNat ≤ 0x42F) || (c!"ЁЄІЇҐ").contains c

/-- `str.lower` leaves no such letter. -/
def Env.LowersCapitals (e : Env) : Prop := ∀ (w : Str) (c : Char), c ∈ e.lower w → isCapital c = false

/-- The units with `f` applied to the lists of prefixes. -/
def filterPrefixes (f : Str → Bool) (us : List (BUnit S × Bool)) : List (BUnit S × Bool) :=
  us.map fun ut => (⟨ut.1.id, match ut.1.cfg with
    | .hyphenated a x => .hyphenated (a.filter f) x
    | .knownPrefix a x k => .knownPrefix (a.filter f) x k
    | c => c⟩, ut.2)

/-- **C77, the shipped configuration.** The 75 of the 445 prefixes configured for Ukrainian that contain a capital letter (`2D-`, `USB-`, `ВІЛ-`, …)
have no effect: without them every answer is the same.  No Russian prefix and no particle contains one. -/
theorem c77_shipped (m : Morph S) (hm : IsUk m) (hlow : m.env.LowerStable) (hcap : m.env.LowersCapitals) :
    (∃ u ∈ m.units, ∃ x, u.1.cfg = .knownPrefix ukKnownPrefixes x 3) ∧
    (ukKnownPrefixes.length = 445 ∧ (ukKnownPrefixes.filter fun p => p.any isCapital).length = 75) ∧
    (∀ p ∈ ruKnownPrefixes ++ ruParticles ++ ukParticles, p.any isCapital = false) ∧
    ∀ n w, (analyze { m with units := filterPrefixes (fun p => ! p.any isCapital) m.units } n).parse w = (analyze m n).parse w ∧
      (analyze { m with units := filterPrefixes (fun p => ! p.any isCapital) m.units } n).tag w = (analyze m n).tag w := by
  refine ⟨?_, by decide +kernel, by decide +kernel, fun n w => c77_lists m hlow _ ?_ n w⟩
  · obtain ⟨cls, hm⟩ := hm
    obtain ⟨_, _, _, _, hgr⟩ := mkMorph_units hm
    obtain ⟨t, ht⟩ := (mem_of_isGroups hgr ⟨9, .knownPrefix ukKnownPrefixes (dec 75 100) 3⟩).2
      ⟨[⟨9, .knownPrefix ukKnownPrefixes (dec 75 100) 3⟩], by simp [boundGroups, ukUnits, UnitSpec.bound], by simp⟩
    exact ⟨_, ht, _, rfl⟩
  · unfold SameUnits filterPrefixes
    rw [List.forall₂_map_right_iff]
    refine List.forall₂_same.2 ?_
    rintro ⟨⟨i, c⟩, t⟩ _
    have hno : ∀ p, m.env.lower p = p → p.any isCapital = false := by
      intro p hp
      rw [List.any_eq_false]
      intro c hc
      have := hcap p c (by rw [hp]; exact hc)
      simp [this]
    refine ⟨rfl, rfl, ?_⟩
    cases c with
    | hyphenated a x =>
      refine ⟨rfl, fun p hp => ?_⟩
      have := hno p hp
      simp [this]
    | knownPrefix a x k =>
      refine ⟨rfl, rfl, fun p hp => ?_⟩
      have := hno p hp
      simp [this]
    | particle a x => exact ⟨rfl, rfl⟩
    | _ => rfl

theorem demoEnv_lowersCapitals : demoEnv.LowersCapitals := by
  intro w c hc
  obtain ⟨d, hd, rfl⟩ : ∃ d ∈ w, lowerChar d = c := by simpa [demoEnv] using hc
  have hi := congrArg Char.toNat (lowerChar_idem d)
  generalize lowerChar d = c at hi
  have hv : ∀ n, n < 0xd800 → (Char.ofNat n).toNat = n := fun n hn => toNat_ofNat_valid (Or.inl hn)
  cases h : isCapital c with
  | false => rfl
  | true =>
    exfalso
    have hcase : (65 ≤ c.toNat ∧ c.toNat ≤ 90) ∨ (0x410 ≤ c.toNat ∧ c.toNat ≤ 0x42F) ∨
        c.toNat = 0x401 ∨ c.toNat = 0x404 ∨ c.toNat = 0x406 ∨ c.toNat = 0x407 ∨ c.toNat = 0x490 := by
      simp only [isCapital, Bool.or_eq_true, Bool.and_eq_true, decide_eq_true_eq, List.contains_iff_mem] at h
      rcases h with (h | h) | h
      · exact .inl h
      · exact .inr (.inl h)
      · have : c = 'Ё' ∨ c = 'Є' ∨ c = 'І' ∨ c = 'Ї' ∨ c = 'Ґ' := by simpa using h
        rcases this with rfl | rfl | rfl | rfl | rfl
        all_goals decide
    simp only [lowerChar] at hi
    split at hi
    · rw [hv _ (by omega)] at hi; omega
    · split at hi
      · rw [hv _ (by omega)] at hi; omega
      · split at hi
        · rw [hv _ (by omega)] at hi; omega
        · split at hi
          · rw [hv _ (by omega)] at hi; omega
          · omega

/-! Non-vacuity: a Ukrainian analyzer over the demo dictionary; a word beginning with a listed prefix in capitals is analyzed as a compound
(its first part is not in the dictionary), one beginning with a listed prefix in small letters by the prefix rule. -/

def Demo.boundUk : TagCls × List (BUnit Rat × Bool) :=
  match initUnits (ukUnits (S := Rat)) Demo.cls with
  | .ok r => r
  | .error _ => (Demo.cls, [])

def Demo.morphUk : Morph Rat := ⟨demoEnv, Demo.dict, Demo.boundUk.1, ukSubst, Demo.boundUk.2, none⟩

theorem Demo.morphUk_isUk : IsUk Demo.morphUk := by
  refine ⟨Demo.cls, ?_⟩
  have hb : initUnits (ukUnits (S := Rat)) Demo.cls = .ok Demo.boundUk := by
    have : (initUnits (ukUnits (S := Rat)) Demo.cls).toOption.isSome = true := by decide +kernel
    unfold Demo.boundUk
    cases h : initUnits (ukUnits (S := Rat)) Demo.cls with
    | ok r => rfl
    | error e => rw [h] at this; simp [Except.toOption] at this
  unfold mkMorph
  show (initUnits (ukUnits (S := Rat)) Demo.cls >>= fun r =>
    pure (⟨Demo.morphUk.env, Demo.morphUk.dict, r.1, Demo.morphUk.sub, r.2, Demo.morphUk.est⟩ : Morph Rat)) = _
  rw [hb]; rfl

example : IsUk Demo.morphUk ∧ Demo.morphUk.env.LowerStable ∧ Demo.morphUk.env.LowersCapitals ∧
    c!"USB-" ∈ ukKnownPrefixes ∧ c!"web-" ∈ ukKnownPrefixes ∧
    ((Demo.morphUk.parse (c!"USB-кошка")).toOption.getD []).map (fun p => (p.word, p.outer.map UObj.kind)) = [(c!"usb-кошка", some .hyphenated)] ∧
    ((Demo.morphUk.parse (c!"web-кошка")).toOption.getD []).map (fun p => (p.word, p.outer.map UObj.kind)) = [(c!"web-кошка", some .pref)] :=
  ⟨Demo.morphUk_isUk, demoEnv_lowerStable, demoEnv_lowersCapitals, by decide +kernel, by decide +kernel, by decide +kernel, by decide +kernel⟩

/-- Order, repetitions and capitals of the prefix list are ignored. -/
example : (UnitCfg.knownPrefix [c!"не", c!"супер"] (3/4 : Rat) 3).SameLists demoEnv (.knownPrefix [c!"супер", c!"Анти", c!"не", c!"супер"] (3/4) 3) := by
  refine ⟨rfl, rfl, fun p hp => ?_⟩
  simp only [List.mem_cons, List.not_mem_nil, or_false]
  constructor
  · rintro (rfl | rfl) <;> simp
  · rintro (rfl | rfl | rfl | rfl)
    · simp
    · exact absurd hp (by decide +kernel)
    · simp
    · simp

end Verif
