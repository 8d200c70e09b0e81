/-
C98 — how much work an analysis is: the calls of `parse` and `tag` made while a word is analyzed.
-/
import Verif.Model.Cost
import Verif.Spec.Peel
import Verif.Lemmas.Cost
import Verif.Props.C42
import Verif.Props.C71
import Verif.Props.C80
import Verif.Props.C04
import Mathlib.Tactic.Ring
import Mathlib.Data.List.Nodup

set_option linter.unusedSectionVars false

namespace Verif

variable {S : Type} [Score S]

/-- All the calls made during `morph.parse(word)`, that call included, when the interpreter allows `n` nested calls. -/
def Morph.parseCalls (m : Morph S) (n : Nat) (word : Str) : List Call := ((analyzeL m n).parse word).log

/-- All the calls made during `morph.tag(word)`, that call included. -/
def Morph.tagCalls (m : Morph S) (n : Nat) (word : Str) : List Call := ((analyzeL m n).tag word).log

/-- The recorded computations are the computations of the other theorems. -/
theorem c98_recorded (m : Morph S) (n : Nat) (w : Str) :
    ((analyzeL m n).parse w).val = (analyze m n).parse w ∧ ((analyzeL m n).tag w).val = (analyze m n).tag w := by
  rw [← analyzeL_erase]; exact ⟨rfl, rfl⟩

/-! ### Logs of loops -/

theorem mapL_log {α β : Type} (f : α → Logged β) (l : List α) :
    ∃ l', l' <+: l ∧ (mapL f l).log = l'.flatMap (fun a => (f a).log) ∧ ∀ r, (mapL f l).val = .ok r → l' = l := by
  induction l with
  | nil => exact ⟨[], List.prefix_refl _, rfl, fun _ _ => rfl⟩
  | cons a as ih =>
    obtain ⟨l', h1, h2, h3⟩ := ih
    have e : mapL f (a :: as) = f a >>= fun b => mapL f as >>= fun bs => pure (b :: bs) := rfl
    rw [e]
    cases hv : (f a).val with
    | error er =>
      refine ⟨[a], ⟨as, rfl⟩, ?_, ?_⟩
      · rw [Logged.bind_log_error _ _ er hv]; simp
      · intro r hr
        rw [Logged.bind_val, hv] at hr
        simp at hr
    | ok b =>
      refine ⟨a :: l', by simpa using h1, ?_, ?_⟩
      · rw [Logged.bind_log_ok _ _ b hv, Logged.bind_log_quiet _ _ (fun _ => rfl), h2]; rfl
      · intro r hr
        rw [Logged.bind_val, hv, ok_bind, Logged.bind_val, bind_ok_iff] at hr
        obtain ⟨bs, hbs, _⟩ := hr
        rw [h3 bs hbs]

theorem prefixCandsL_log (u : UObj) (mult : S) (f : Str → Logged (List (Parse S))) (splits : List (Str × Str)) :
    ∃ l', l' <+: splits ∧ (prefixCandsL u mult f splits).log = l'.flatMap (fun s => (f s.2).log) ∧
      ∀ r, (prefixCandsL u mult f splits).val = .ok r → l' = splits := by
  obtain ⟨l', h1, h2, h3⟩ := mapL_log (fun s : Str × Str => f s.2 >>= fun r => (pure (prefixDeco u mult s.1 r) : Logged _)) splits
  refine ⟨l', h1, ?_, ?_⟩
  · unfold prefixCandsL
    rw [Logged.bind_log_quiet _ _ (fun _ => rfl), h2]
    refine List.flatMap_congr fun s _ => ?_
    exact Logged.bind_log_quiet _ _ (fun _ => rfl)
  · intro r hr
    unfold prefixCandsL at hr
    rw [Logged.bind_val, bind_ok_iff] at hr
    obtain ⟨a, ha, _⟩ := hr
    exact h3 a ha

theorem prefixTagCandsL_log (f : Str → Logged (List Tag)) (splits : List (Str × Str)) :
    ∃ l', l' <+: splits ∧ (prefixTagCandsL f splits).log = l'.flatMap (fun s => (f s.2).log) ∧
      ∀ r, (prefixTagCandsL f splits).val = .ok r → l' = splits := by
  obtain ⟨l', h1, h2, h3⟩ := mapL_log (fun s : Str × Str => f s.2 >>= fun r => (pure (r.filter Tag.isProductive) : Logged _)) splits
  refine ⟨l', h1, ?_, ?_⟩
  · unfold prefixTagCandsL
    rw [Logged.bind_log_quiet _ _ (fun _ => rfl), h2]
    refine List.flatMap_congr fun s _ => ?_
    exact Logged.bind_log_quiet _ _ (fun _ => rfl)
  · intro r hr
    unfold prefixTagCandsL at hr
    rw [Logged.bind_val, bind_ok_iff] at hr
    obtain ⟨a, ha, _⟩ := hr
    exact h3 a ha

/-! ### A bound for all words -/

/-- The units whose methods call back `morph.parse` or `morph.tag`. -/
def UnitCfg.callsBack : UnitCfg S → Bool
  | .particle _ _ | .adverb _ _ | .hyphenated _ _ | .knownPrefix _ _ _ => true
  | _ => false

/-- Particles and known prefixes are proper: known prefixes are not empty and none is listed twice. -/
def UnitCfg.ProperPrefixes : UnitCfg S → Prop
  | .knownPrefix prefixes _ _ => prefixes.Nodup ∧ [] ∉ prefixes
  | _ => True

/-- `B 0 + … + B (n - 1)` -/
def sumBelow (B : Nat → Nat) (n : Nat) : Nat := ((List.range n).map B).sum

theorem sumBelow_succ (B : Nat → Nat) (n : Nat) : sumBelow B (n + 1) = sumBelow B n + B n := by
  simp [sumBelow, List.range_succ]

theorem sumBelow_mono (B : Nat → Nat) {i n : Nat} (h : i ≤ n) : sumBelow B i ≤ sumBelow B n := by
  induction h with
  | refl => exact Nat.le_refl _
  | step _ ih => rw [sumBelow_succ]; omega

theorem le_sumBelow (B : Nat → Nat) {i n : Nat} (h : i < n) : B i ≤ sumBelow B n := by
  have := sumBelow_mono B h
  rw [sumBelow_succ] at this
  omega

theorem sum_decreasing (B : Nat → Nat) (l : List Nat) (n : Nat) (hl : l.Pairwise (· > ·)) (h : ∀ i ∈ l, i < n) :
    (l.map B).sum ≤ sumBelow B n := by
  induction l generalizing n with
  | nil => simp
  | cons a l ih =>
    rw [List.pairwise_cons] at hl
    have h1 := ih a hl.2 hl.1
    have h2 := sumBelow_mono B (h a (List.mem_cons_self ..))
    rw [sumBelow_succ] at h2
    simp only [List.map_cons, List.sum_cons]
    omega

theorem sum_splits (B : Nat → Nat) (P : List Str) (hn : P.Nodup) (he : [] ∉ P) (k : Nat) (wl : Str) (l' : List (Str × Str))
    (hl : l' <+: possibleSplits P k wl) : (l'.map fun s => B s.2.length).sum ≤ sumBelow B wl.length := by
  have hp : ∀ s ∈ l', s.2.length < wl.length := by
    rintro ⟨q, r⟩ hs
    obtain ⟨hw, hq, _⟩ := possibleSplits_mem _ _ _ _ _ (hl.subset hs)
    have : q ≠ [] := fun e => he (e ▸ hq)
    have := List.length_pos_iff.2 this
    rw [hw, List.length_append]
    dsimp only
    omega
  have hs : (l'.map fun s => s.2.length).Pairwise (· < ·) := by
    rw [List.pairwise_map]
    refine List.Pairwise.imp_of_mem ?_ ((c42_splits_strict P hn k wl).sublist hl.sublist)
    rintro ⟨q, r⟩ ⟨q', r'⟩ h1 h2 hlt
    obtain ⟨e1, _, _⟩ := possibleSplits_mem _ _ _ _ _ (hl.subset h1)
    obtain ⟨e2, _, _⟩ := possibleSplits_mem _ _ _ _ _ (hl.subset h2)
    have := congrArg List.length e1
    have := congrArg List.length e2
    simp only [List.length_append] at *
    omega
  have := sum_decreasing B (l'.map fun s => s.2.length).reverse wl.length (List.pairwise_reverse.2 hs) (by
    intro i hi
    obtain ⟨s, hs', rfl⟩ := List.mem_map.1 (List.mem_reverse.1 hi)
    exact hp s hs')
  rw [List.map_reverse, List.sum_reverse, List.map_map] at this
  exact this

theorem length_flatMap_le {α : Type} (l : List α) (f : α → List Call) (g : α → Nat) (h : ∀ a ∈ l, (f a).length ≤ g a) :
    (l.flatMap f).length ≤ (l.map g).sum := by
  induction l with
  | nil => simp
  | cons a l ih =>
    simp only [List.flatMap_cons, List.length_append, List.map_cons, List.sum_cons]
    have := h a (List.mem_cons_self ..)
    have := ih fun b hb => h b (List.mem_cons_of_mem _ hb)
    omega

/-- Nested calls for a part `x` of the word take at most `B` calls of the length of `x`. -/
def Within (B : Nat → Nat) (wl : Str) (rec : RecL S) : Prop :=
  ∀ x : Str, x <:+: wl → (rec.parse x).log.length ≤ B x.length ∧ (rec.tag x).log.length ≤ B x.length

theorem adverbShouldL_log (m : Morph S) (rec : RecL S) (wl : Str) (B : Nat → Nat) (hrec : Within B wl rec) :
    (adverbShouldL m rec wl).log.length ≤ sumBelow B wl.length := by
  unfold adverbShouldL
  split
  · simp
  · next h =>
    rw [Logged.bind_log_quiet _ _ (fun _ => rfl)]
    have h1 := (hrec (wl.drop 3) ⟨wl.take 3, [], by simp⟩).2
    have h2 : (wl.drop 3).length < wl.length := by
      simp only [not_or, Nat.not_lt] at h
      simp only [List.length_drop]
      omega
    exact Nat.le_trans h1 (le_sumBelow B h2)

theorem hyphenParseL_log (rec : RecL S) (u : UObj) (skip : List Str) (mult : S) (wl : Str) (B : Nat → Nat) (hrec : Within B wl rec) :
    (hyphenParseL rec u skip mult wl).log.length ≤ 2 * sumBelow B wl.length := by
  unfold hyphenParseL
  split
  · next hsh =>
    obtain ⟨hw, _⟩ := hyphenShould_split _ _ hsh
    generalize hA : (splitHyphen wl).1 = left at *
    generalize hB : (splitHyphen wl).2 = right at *
    have hlen := congrArg List.length hw
    simp only [List.length_append, List.length_cons] at hlen
    have h1 := Nat.le_trans (hrec left ⟨[], '-' :: right, by simp [hw]⟩).1 (le_sumBelow B (n := wl.length) (by omega))
    have h2 := Nat.le_trans (hrec right ⟨left ++ ['-'], [], by simp [hw]⟩).1 (le_sumBelow B (n := wl.length) (by omega))
    cases hv : (rec.parse left).val with
    | error e =>
      rw [Logged.bind_log_error _ _ e hv]
      omega
    | ok a =>
      rw [Logged.bind_log_ok _ _ a hv, Logged.bind_log_quiet _ _ (fun _ => rfl), List.length_append]
      omega
  · simp

theorem particle_lt {parts : List Str} {wl rest part : Str} (h : particleSplit parts wl = some (rest, part)) :
    rest <:+: wl ∧ rest.length < wl.length := by
  obtain ⟨hw, _, _, hp, _⟩ := particleSplit_some _ _ _ _ h
  refine ⟨⟨[], part, by simp [hw]⟩, ?_⟩
  have := List.length_pos_iff.2 hp
  rw [hw, List.length_append]
  omega

theorem unitParseL_log (m : Morph S) (rec : RecL S) (u : BUnit S) (hu : u.cfg.ProperPrefixes) (word wl : Str) (seen : Seen) (B : Nat → Nat)
    (hrec : Within B wl rec) :
    (unitParseL m rec u word wl seen).log.length ≤ (if u.cfg.callsBack then 2 * sumBelow B wl.length else 0) := by
  unfold unitParseL
  split
  · next hk =>
    rw [hk]
    simp only [UnitCfg.callsBack, if_true]
    split
    · simp
    · next rest part hsp =>
      obtain ⟨h1, h2⟩ := particle_lt hsp
      rw [Logged.bind_log_quiet _ _ (fun _ => rfl)]
      have := Nat.le_trans (hrec rest h1).1 (le_sumBelow B h2)
      omega
  · next hk =>
    rw [hk]
    simp only [UnitCfg.callsBack, if_true]
    rw [Logged.bind_log_quiet _ _ (fun _ => rfl)]
    have := adverbShouldL_log m rec wl B hrec
    omega
  · next hk =>
    rw [hk]
    simp only [UnitCfg.callsBack, if_true]
    rw [Logged.bind_log_quiet _ _ (fun _ => rfl)]
    exact hyphenParseL_log rec _ _ _ wl B hrec
  · next prefixes mult k hk =>
    rw [hk] at hu ⊢
    simp only [UnitCfg.callsBack, if_true]
    rw [Logged.bind_log_quiet _ _ (fun _ => rfl)]
    obtain ⟨l', h1, h2, _⟩ := prefixCandsL_log u.obj mult rec.parse (possibleSplits prefixes k wl)
    rw [h2]
    have h3 := sum_splits B prefixes hu.1 hu.2 k wl l' h1
    have h4 := length_flatMap_le l' (fun s => (rec.parse s.2).log) (fun s => B s.2.length) (by
      rintro ⟨q, r⟩ hs
      obtain ⟨hw, _, _⟩ := possibleSplits_mem _ _ _ _ _ (h1.subset hs)
      exact (hrec r ⟨q, [], by simp [hw]⟩).1)
    omega
  · simp

theorem unitTagL_log (m : Morph S) (rec : RecL S) (u : BUnit S) (hu : u.cfg.ProperPrefixes) (word wl : Str) (seen : SeenTags) (B : Nat → Nat)
    (hrec : Within B wl rec) :
    (unitTagL m rec u word wl seen).log.length ≤ (if u.cfg.callsBack then 2 * sumBelow B wl.length else 0) := by
  unfold unitTagL
  split
  · next hk =>
    rw [hk]
    simp only [UnitCfg.callsBack, if_true]
    split
    · simp
    · next rest part hsp =>
      obtain ⟨h1, h2⟩ := particle_lt hsp
      rw [Logged.bind_log_quiet _ _ (fun _ => rfl)]
      have := Nat.le_trans (hrec rest h1).2 (le_sumBelow B h2)
      omega
  · next hk =>
    rw [hk]
    simp only [UnitCfg.callsBack, if_true]
    rw [Logged.bind_log_quiet _ _ (fun _ => rfl)]
    have := adverbShouldL_log m rec wl B hrec
    omega
  · next hk =>
    rw [hk]
    simp only [UnitCfg.callsBack, if_true]
    rw [Logged.bind_log_quiet _ _ (fun _ => rfl)]
    exact hyphenParseL_log rec _ _ _ wl B hrec
  · next prefixes mult k hk =>
    rw [hk] at hu ⊢
    simp only [UnitCfg.callsBack, if_true]
    rw [Logged.bind_log_quiet _ _ (fun _ => rfl)]
    obtain ⟨l', h1, h2, _⟩ := prefixTagCandsL_log rec.tag (possibleSplits prefixes k wl)
    rw [h2]
    have h3 := sum_splits B prefixes hu.1 hu.2 k wl l' h1
    have h4 := length_flatMap_le l' (fun s => (rec.tag s.2).log) (fun s => B s.2.length) (by
      rintro ⟨q, r⟩ hs
      obtain ⟨hw, _, _⟩ := possibleSplits_mem _ _ _ _ _ (h1.subset hs)
      exact (hrec r ⟨q, [], by simp [hw]⟩).2)
    omega
  · simp

/-- The number of units that call back. -/
def callers (us : List (BUnit S × Bool)) : Nat := us.countP fun u => u.1.cfg.callsBack

theorem runParseL_log (m : Morph S) (rec : RecL S) (word wl : Str) (us : List (BUnit S × Bool)) (hu : ∀ u ∈ us, u.1.cfg.ProperPrefixes)
    (seen : Seen) (res : List (Parse S)) (B : Nat → Nat) (hrec : Within B wl rec) :
    (runParseL m rec word wl us seen res).log.length ≤ callers us * (2 * sumBelow B wl.length) := by
  induction us generalizing seen res with
  | nil => simp [runParseL]
  | cons ut us ih =>
    obtain ⟨u, t⟩ := ut
    have h1 := unitParseL_log m rec u (hu _ (List.mem_cons_self ..)) word wl seen B hrec
    have hc : callers ((u, t) :: us) * (2 * sumBelow B wl.length) =
        callers us * (2 * sumBelow B wl.length) + (if u.cfg.callsBack then 2 * sumBelow B wl.length else 0) := by
      unfold callers
      rw [List.countP_cons]
      dsimp only
      split <;> simp [Nat.add_mul]
    rw [hc, runParseL]
    cases hv : (unitParseL m rec u word wl seen).val with
    | error e => rw [Logged.bind_log_error _ _ e hv]; omega
    | ok r =>
      rw [Logged.bind_log_ok _ _ r hv, List.length_append]
      have h2 := ih (fun v hv => hu v (List.mem_cons_of_mem _ hv)) r.2 (res ++ r.1)
      split
      · simp only [Logged.pure_log, List.length_nil]; omega
      · omega

theorem runTagL_log (m : Morph S) (rec : RecL S) (word wl : Str) (us : List (BUnit S × Bool)) (hu : ∀ u ∈ us, u.1.cfg.ProperPrefixes)
    (seen : SeenTags) (res : List Tag) (B : Nat → Nat) (hrec : Within B wl rec) :
    (runTagL m rec word wl us seen res).log.length ≤ callers us * (2 * sumBelow B wl.length) := by
  induction us generalizing seen res with
  | nil => simp [runTagL]
  | cons ut us ih =>
    obtain ⟨u, t⟩ := ut
    have h1 := unitTagL_log m rec u (hu _ (List.mem_cons_self ..)) word wl seen B hrec
    have hc : callers ((u, t) :: us) * (2 * sumBelow B wl.length) =
        callers us * (2 * sumBelow B wl.length) + (if u.cfg.callsBack then 2 * sumBelow B wl.length else 0) := by
      unfold callers
      rw [List.countP_cons]
      dsimp only
      split <;> simp [Nat.add_mul]
    rw [hc, runTagL]
    cases hv : (unitTagL m rec u word wl seen).val with
    | error e => rw [Logged.bind_log_error _ _ e hv]; omega
    | ok r =>
      rw [Logged.bind_log_ok _ _ r hv, List.length_append]
      have h2 := ih (fun v hv => hu v (List.mem_cons_of_mem _ hv)) r.2 (res ++ r.1)
      split
      · simp only [Logged.pure_log, List.length_nil]; omega
      · omega

theorem geometric (K n : Nat) : 1 + K * (2 * sumBelow (fun j => (1 + 2 * K) ^ j) n) = (1 + 2 * K) ^ n := by
  induction n with
  | zero => simp [sumBelow]
  | succ n ih =>
    rw [sumBelow_succ, Nat.pow_succ, ← ih]
    generalize sumBelow (fun j => (1 + 2 * K) ^ j) n = s
    ring

theorem analyzeL_bound (m : Morph S) (hlow : m.env.LowerStable) (hu : ∀ u ∈ m.units, u.1.cfg.ProperPrefixes) (n : Nat) (w : Str) :
    (m.parseCalls n w).length ≤ (1 + 2 * callers m.units) ^ (m.env.lower w).length ∧
    (m.tagCalls n w).length ≤ (1 + 2 * callers m.units) ^ (m.env.lower w).length := by
  induction n generalizing w with
  | zero =>
    have : 1 ≤ (1 + 2 * callers m.units) ^ (m.env.lower w).length := Nat.one_le_pow _ _ (by omega)
    exact ⟨this, this⟩
  | succ n ih =>
    have hrec : Within (fun j => (1 + 2 * callers m.units) ^ j) (m.env.lower w) (analyzeL m n) := by
      intro x hx
      have := ih x
      rw [hlow w x hx] at this
      exact this
    have h1 := runParseL_log m (analyzeL m n) w (m.env.lower w) m.units hu [] [] _ hrec
    have h2 := runTagL_log m (analyzeL m n) w (m.env.lower w) m.units hu [] [] _ hrec
    have e1 : (m.parseCalls (n + 1) w).length = 1 + (runParseL m (analyzeL m n) w (m.env.lower w) m.units [] []).log.length := by
      show (Call.parse w :: (parseStepL m (analyzeL m n) w).log).length = _
      unfold parseStepL
      rw [Logged.bind_log_quiet _ _ (fun _ => rfl), List.length_cons, Nat.add_comm]
    have e2 : (m.tagCalls (n + 1) w).length = 1 + (runTagL m (analyzeL m n) w (m.env.lower w) m.units [] []).log.length := by
      show (Call.tag w :: (tagStepL m (analyzeL m n) w).log).length = _
      unfold tagStepL
      rw [Logged.bind_log_quiet _ _ (fun _ => rfl), List.length_cons, Nat.add_comm]
    rw [e1, e2, ← geometric]
    omega

/-- The units of the default analyzers, one by one. -/
theorem ru_units {m : Morph S} (hm : IsRu m) : m.units =
    [(⟨0, (UnitSpec.dictionary).bound⟩, false), (⟨1, (UnitSpec.firstName ruInitialLetters firstNamePattern (dec 1 10)).bound⟩, false),
     (⟨2, (UnitSpec.patronymic ruInitialLetters patronymicPattern (dec 1 10)).bound⟩, true),
     (⟨3, (UnitSpec.number (dec 9 10)).bound⟩, true), (⟨4, (UnitSpec.punct (dec 9 10)).bound⟩, true),
     (⟨5, (UnitSpec.roman (dec 9 10)).bound⟩, false), (⟨6, (UnitSpec.latin (dec 9 10)).bound⟩, true),
     (⟨7, (UnitSpec.particle ruParticles (dec 9 10)).bound⟩, true), (⟨8, (UnitSpec.adverb (dec 7 10)).bound⟩, true),
     (⟨9, (UnitSpec.hyphenated ruKnownPrefixes (dec 75 100)).bound⟩, true),
     (⟨10, (UnitSpec.knownPrefix ruKnownPrefixes (dec 75 100) 3).bound⟩, true),
     (⟨11, (UnitSpec.unknownPrefix (dec 5 10)).bound⟩, false), (⟨12, (UnitSpec.knownSuffix (dec 5 10) 4).bound⟩, true),
     (⟨13, UnitSpec.unkn.bound⟩, true)] := by
  obtain ⟨cls, hm⟩ := hm
  obtain ⟨_, _, _, _, _, hu⟩ := mkMorph_units hm
  rw [hu]
  rfl

theorem uk_units {m : Morph S} (hm : IsUk m) : m.units =
    [(⟨0, (UnitSpec.dictionary).bound⟩, false), (⟨1, (UnitSpec.firstName ukInitialLetters firstNamePattern (dec 1 10)).bound⟩, false),
     (⟨2, (UnitSpec.patronymic ukInitialLetters patronymicPattern (dec 1 10)).bound⟩, false),
     (⟨3, (UnitSpec.roman (dec 9 10)).bound⟩, false), (⟨4, (UnitSpec.latin (dec 9 10)).bound⟩, true),
     (⟨5, (UnitSpec.number (dec 9 10)).bound⟩, true), (⟨6, (UnitSpec.punct (dec 9 10)).bound⟩, true),
     (⟨7, (UnitSpec.particle ukParticles (dec 9 10)).bound⟩, true),
     (⟨8, (UnitSpec.hyphenated ukKnownPrefixes (dec 75 100)).bound⟩, true),
     (⟨9, (UnitSpec.knownPrefix ukKnownPrefixes (dec 75 100) 3).bound⟩, true),
     (⟨10, (UnitSpec.unknownPrefix (dec 5 10)).bound⟩, false), (⟨11, (UnitSpec.knownSuffix (dec 5 10) 4).bound⟩, true),
     (⟨12, UnitSpec.unkn.bound⟩, true)] := by
  obtain ⟨cls, hm⟩ := hm
  obtain ⟨_, _, _, _, _, hu⟩ := mkMorph_units hm
  rw [hu]
  rfl

theorem known_nonempty : [] ∉ ruKnownPrefixes ∧ [] ∉ ukKnownPrefixes := by
  constructor <;> decide +kernel

/-- C98, a bound for all words: with the Russian units a word of `k` letters takes at most `9 ^ k` calls of `parse` and `tag`,
with the Ukrainian ones at most `7 ^ k` — whatever the dictionary, the word and the interpreter's limit. -/
theorem c98_bound (m : Morph S) (hlow : m.env.LowerStable) (n : Nat) (w : Str) :
    (IsRu m → (m.parseCalls n w).length ≤ 9 ^ (m.env.lower w).length ∧ (m.tagCalls n w).length ≤ 9 ^ (m.env.lower w).length) ∧
    (IsUk m → (m.parseCalls n w).length ≤ 7 ^ (m.env.lower w).length ∧ (m.tagCalls n w).length ≤ 7 ^ (m.env.lower w).length) := by
  constructor
  · intro hm
    have hu := ru_units hm
    have hk : callers m.units = 4 := by rw [hu]; rfl
    have := analyzeL_bound m hlow (by
      rw [hu]
      simp only [List.mem_cons, List.not_mem_nil, or_false, forall_eq_or_imp, forall_eq, UnitSpec.bound, UnitCfg.ProperPrefixes, true_and, and_true]
      exact ⟨c42_default_nodup.1, known_nonempty.1⟩) n w
    rw [hk] at this
    exact this
  · intro hm
    have hu := uk_units hm
    have hk : callers m.units = 3 := by rw [hu]; rfl
    have := analyzeL_bound m hlow (by
      rw [hu]
      simp only [List.mem_cons, List.not_mem_nil, or_false, forall_eq_or_imp, forall_eq, UnitSpec.bound, UnitCfg.ProperPrefixes, true_and, and_true]
      exact ⟨c42_default_nodup.2, known_nonempty.2⟩) n w
    rw [hk] at this
    exact this

/-! ### Words without a hyphen -/

theorem afterPeeling_cons (q r : Str) (qs : List Str) : afterPeeling (q ++ r) (q :: qs) = afterPeeling r qs := by
  unfold afterPeeling
  rw [List.flatten_cons, List.length_append, List.drop_append, List.drop_of_length_le (by omega), List.nil_append]
  congr 1
  omega

theorem peels_iff (P : List Str) (w q : Str) (qs : List Str) : Peels P w (q :: qs) ↔ ∃ r, (q, r) ∈ possibleSplits P 3 w ∧ Peels P r qs := by
  simp only [c42_splits_mem]
  constructor
  · rintro (_ | ⟨_, r, _, h1, h2, h3⟩)
    exact ⟨r, ⟨h1, rfl, h2⟩, h3⟩
  · rintro ⟨r, ⟨h1, rfl, h2⟩, h3⟩
    exact .off q r qs h1 h2 h3

/-- From one level of calls to all of them. -/
theorem peel_trace (P : List Str) (hnd : P.Nodup) (lower : Str → Str) (hlow : ∀ w x : Str, x <:+: lower w → lower x = x) (mk : Str → Call)
    (F : Nat → Str → List Call) (full : Nat → Str → Prop) (h0 : ∀ w, F 0 w = [mk w] ∧ ¬ full 0 w)
    (hs : ∀ n w, '-' ∉ lower w → ∃ l', l' <+: possibleSplits P 3 (lower w) ∧ F (n + 1) w = mk w :: l'.flatMap (fun s => F n s.2) ∧
      (full (n + 1) w → l' = possibleSplits P 3 (lower w) ∧ ∀ s ∈ possibleSplits P 3 (lower w), full n s.2)) (n : Nat) (w : Str) (hw : '-' ∉ lower w) :
    ∃ L : List (List Str), L.Nodup ∧ (∀ qs ∈ L, qs ≠ [] ∧ Peels P (lower w) qs) ∧ F n w = mk w :: L.map (fun qs => mk (afterPeeling (lower w) qs)) ∧
      (full n w → ∀ qs, qs ≠ [] → Peels P (lower w) qs → qs ∈ L) := by
  induction n generalizing w with
  | zero => exact ⟨[], List.nodup_nil, by simp, (h0 w).1, fun hf => absurd hf (h0 w).2⟩
  | succ n ih =>
    obtain ⟨l', h1, h2, h3⟩ := hs n w hw
    have hinf : ∀ s ∈ l', s.2 <:+: lower w ∧ lower w = s.1 ++ s.2 := by
      rintro ⟨q, r⟩ hs'
      obtain ⟨e, _, _⟩ := possibleSplits_mem _ _ _ _ _ (h1.subset hs')
      exact ⟨⟨q, [], by simp [e]⟩, e⟩
    have hsub : ∀ s ∈ l', ∃ L : List (List Str), L.Nodup ∧ (∀ qs ∈ L, qs ≠ [] ∧ Peels P s.2 qs) ∧ F n s.2 = mk s.2 :: L.map (fun qs => mk (afterPeeling s.2 qs)) ∧
        (full n s.2 → ∀ qs, qs ≠ [] → Peels P s.2 qs → qs ∈ L) := by
      intro s hs'
      have e := hlow w s.2 (hinf s hs').1
      have := ih s.2 (by rw [e]; exact fun hc => hw ((hinf s hs').1.subset hc))
      rw [e] at this
      exact this
    choose! g hg1 hg2 hg3 hg4 using hsub
    have hstrict := (c42_splits_strict P hnd 3 (lower w)).sublist h1.sublist
    refine ⟨l'.flatMap (fun s => [s.1] :: (g s).map (fun qs => s.1 :: qs)), ?_, ?_, ?_, ?_⟩
    · refine List.nodup_flatMap.2 ⟨?_, ?_⟩
      · intro s hs'
        rw [List.nodup_cons]
        refine ⟨?_, (hg1 s hs').map (fun a b e => by simpa using e)⟩
        intro hc
        obtain ⟨qs, hqs, he⟩ := List.mem_map.1 hc
        simp only [List.cons.injEq, true_and] at he
        exact (hg2 s hs' qs hqs).1 he
      · refine hstrict.imp ?_
        intro s t hlt
        simp only [Function.onFun, List.disjoint_left]
        intro qs ha hb
        have hhead : ∀ (x : Str × Str), qs ∈ ([x.1] :: (g x).map (fun qs => x.1 :: qs)) → qs.head? = some x.1 := by
          intro x hx
          rcases List.mem_cons.1 hx with rfl | hx
          · rfl
          · obtain ⟨_, _, rfl⟩ := List.mem_map.1 hx
            rfl
        have := (hhead s ha).symm.trans (hhead t hb)
        simp only [Option.some.injEq] at this
        rw [this] at hlt
        omega
    · intro qs hqs
      obtain ⟨⟨q, r⟩, hs', hm⟩ := List.mem_flatMap.1 hqs
      rcases List.mem_cons.1 hm with rfl | hm
      · exact ⟨by simp, (peels_iff _ _ _ _).2 ⟨r, h1.subset hs', .none _⟩⟩
      · obtain ⟨qs', hq', rfl⟩ := List.mem_map.1 hm
        exact ⟨by simp, (peels_iff _ _ _ _).2 ⟨r, h1.subset hs', (hg2 _ hs' _ hq').2⟩⟩
    · rw [h2, List.map_flatMap]
      congr 1
      refine List.flatMap_congr fun s hs' => ?_
      obtain ⟨q, r⟩ := s
      rw [hg3 _ hs', List.map_cons, List.map_map, (hinf _ hs').2]
      congr 1
      · rw [afterPeeling_cons]; rfl
      · refine List.map_congr_left fun qs _ => ?_
        rw [Function.comp_apply, afterPeeling_cons]
    · intro hf qs hne hp
      obtain ⟨he, hfull⟩ := h3 hf
      cases qs with
      | nil => exact absurd rfl hne
      | cons q qs =>
        obtain ⟨r, hr, hpr⟩ := (peels_iff _ _ _ _).1 hp
        refine List.mem_flatMap.2 ⟨(q, r), he ▸ hr, ?_⟩
        by_cases hq : qs = []
        · subst hq; exact List.mem_cons_self ..
        · exact List.mem_cons_of_mem _ (List.mem_map.2 ⟨qs, hg4 (q, r) (he ▸ hr) (hfull _ hr) qs hq hpr, rfl⟩)

/-- The units tried before the known prefixes: look-up, initials (of the language), forms, and the three units for words with a hyphen. -/
def UnitCfg.Early (D : RuleData) : UnitCfg S → Prop
  | .firstName letters _ _ _ | .patronymic letters _ _ => ∀ l ∈ letters, D.initial l
  | .knownPrefix _ _ _ | .unknownPrefix _ | .knownSuffix _ _ | .unkn _ => False
  | _ => True

/-- The unit is not the one that takes known prefixes off. -/
def UnitCfg.NotKnownPrefix : UnitCfg S → Prop
  | .knownPrefix _ _ _ => False
  | _ => True

theorem no_hyphen_parts {wl : Str} (h : '-' ∉ wl) (parts skip : List Str) :
    particleSplit parts wl = none ∧ hyphenShould skip wl = false ∧ startsWith wl (c!"по-") = false := by
  refine ⟨by unfold particleSplit; rw [if_neg h], by unfold hyphenShould; rw [if_neg h], ?_⟩
  cases hc : startsWith wl (c!"по-") with
  | false => rfl
  | true =>
    obtain ⟨r, hr⟩ := (startsWith_iff _ _).1 hc
    exact absurd (by rw [← hr]; simp) h

theorem unitParseL_noLog (m : Morph S) (rec : RecL S) (u : BUnit S) (hu : u.cfg.NotKnownPrefix) (word wl : Str) (h : '-' ∉ wl) (seen : Seen) :
    (unitParseL m rec u word wl seen).log = [] := by
  unfold unitParseL
  split
  · rw [(no_hyphen_parts h _ []).1]; rfl
  · rw [Logged.bind_log_quiet _ _ (fun _ => rfl)]
    unfold adverbShouldL
    rw [if_pos (.inr (no_hyphen_parts h [] []).2.2)]; rfl
  · rw [Logged.bind_log_quiet _ _ (fun _ => rfl)]
    unfold hyphenParseL
    rw [if_neg (by rw [(no_hyphen_parts h [] _).2.1]; simp)]; rfl
  · next hk => rw [hk] at hu; exact hu.elim
  · rfl

theorem unitTagL_noLog (m : Morph S) (rec : RecL S) (u : BUnit S) (hu : u.cfg.NotKnownPrefix) (word wl : Str) (h : '-' ∉ wl) (seen : SeenTags) :
    (unitTagL m rec u word wl seen).log = [] := by
  unfold unitTagL
  split
  · rw [(no_hyphen_parts h _ []).1]; rfl
  · rw [Logged.bind_log_quiet _ _ (fun _ => rfl)]
    unfold adverbShouldL
    rw [if_pos (.inr (no_hyphen_parts h [] []).2.2)]; rfl
  · rw [Logged.bind_log_quiet _ _ (fun _ => rfl)]
    unfold hyphenParseL
    rw [if_neg (by rw [(no_hyphen_parts h [] _).2.1]; simp)]; rfl
  · next hk => rw [hk] at hu; exact hu.elim
  · rfl

theorem obscure_lookup {m : Morph S} {D : RuleData} {w : Str} (h : Obscure m D w) : lookup m.dict.words m.sub (m.env.lower w) = [] := by
  by_contra hc
  have := (known_iff m w).2 hc
  rw [h.unknown] at this
  cases this

theorem obscure_number {m : Morph S} {D : RuleData} {w : Str} (h : Obscure m D w) (a b : Tag) : numberShape m.env a b w = none := by
  unfold numberShape
  rw [h.noInt]
  have := h.noReal
  unfold SaysFloat at this
  simp [this]

theorem unitParse_silent (m : Morph S) (rec : Rec S) (u : BUnit S) (D : RuleData) (hu : u.cfg.Early D) (w : Str) (ho : Obscure m D w)
    (h : '-' ∉ m.env.lower w) (seen : Seen) : unitParse m rec u w (m.env.lower w) seen = .ok ([], seen) := by
  unfold unitParse
  split
  · rw [dictParse, obscure_lookup ho]; rfl
  · next hk =>
    rw [hk] at hu
    rw [initialsParse, if_neg (fun hc => ho.noInitial (hu _ hc))]
  · next hk =>
    rw [hk] at hu
    rw [initialsParse, if_neg (fun hc => ho.noInitial (hu _ hc))]
  · next hk => rw [hk]; simp only [shapeTag, obscure_number ho]; rfl
  · next hk => rw [hk]; simp only [shapeTag, ho.noPunct]; rfl
  · next hk => rw [hk]; simp only [shapeTag, ho.noLatin]; rfl
  · next hk => rw [hk]; simp only [shapeTag, ho.noRoman]; rfl
  · rw [(no_hyphen_parts h _ []).1]
  · rw [adverbShould, if_pos (.inr (no_hyphen_parts h [] []).2.2)]; rfl
  · rw [hyphenParse, if_neg (by rw [(no_hyphen_parts h [] _).2.1]; simp)]; rfl
  all_goals
    next hk => rw [hk] at hu; exact hu.elim

theorem unitTag_silent (m : Morph S) (rec : Rec S) (u : BUnit S) (D : RuleData) (hu : u.cfg.Early D) (w : Str) (ho : Obscure m D w)
    (h : '-' ∉ m.env.lower w) (seen : SeenTags) : unitTag m rec u w (m.env.lower w) seen = .ok ([], seen) := by
  have hl : (m.dict.words.similarItemValues m.sub (m.env.lower w)).flatten = [] := by
    rw [List.eq_nil_iff_forall_not_mem]
    intro r hr
    have h1 := obscure_lookup ho
    obtain ⟨vs, hvs, hr⟩ := List.mem_flatten.1 hr
    simp only [Dawg.similarItemValues, List.mem_map] at hvs
    obtain ⟨v, hv, rfl⟩ := hvs
    have : (v, r) ∈ lookup m.dict.words m.sub (m.env.lower w) := by
      rw [mem_lookup]
      exact ⟨((Dawg.mem_similarKeys _ _ _ _).1 hv).1, (Dawg.mem_vals _ _ _).1 hr⟩
    rw [h1] at this
    cases this
  unfold unitTag
  split
  · rw [dictTag, hl]; rfl
  · next hk =>
    rw [hk] at hu
    rw [initialsTag, if_neg (fun hc => ho.noInitial (hu _ hc))]
  · next hk =>
    rw [hk] at hu
    rw [initialsTag, if_neg (fun hc => ho.noInitial (hu _ hc))]
  · next hk => rw [hk]; simp only [shapeTag, obscure_number ho]; rfl
  · next hk => rw [hk]; simp only [shapeTag, ho.noPunct]; rfl
  · next hk => rw [hk]; simp only [shapeTag, ho.noLatin]; rfl
  · next hk => rw [hk]; simp only [shapeTag, ho.noRoman]; rfl
  · rw [(no_hyphen_parts h _ []).1]
  · rw [adverbShould, if_pos (.inr (no_hyphen_parts h [] []).2.2)]; rfl
  · rw [hyphenParse, if_neg (by rw [(no_hyphen_parts h [] _).2.1]; simp)]; rfl
  all_goals
    next hk => rw [hk] at hu; exact hu.elim

theorem runParseL_noLog (m : Morph S) (rec : RecL S) (word wl : Str) (h : '-' ∉ wl) (us : List (BUnit S × Bool))
    (hu : ∀ u ∈ us, u.1.cfg.NotKnownPrefix) (seen : Seen) (res : List (Parse S)) : (runParseL m rec word wl us seen res).log = [] := by
  induction us generalizing seen res with
  | nil => rfl
  | cons ut us ih =>
    obtain ⟨u, t⟩ := ut
    have h1 := unitParseL_noLog m rec u (hu _ (List.mem_cons_self ..)) word wl h seen
    rw [runParseL]
    cases hv : (unitParseL m rec u word wl seen).val with
    | error e => rw [Logged.bind_log_error _ _ e hv, h1]
    | ok r =>
      rw [Logged.bind_log_ok _ _ r hv, h1, List.nil_append]
      split
      · rfl
      · exact ih (fun v hv => hu v (List.mem_cons_of_mem _ hv)) _ _

theorem runTagL_noLog (m : Morph S) (rec : RecL S) (word wl : Str) (h : '-' ∉ wl) (us : List (BUnit S × Bool))
    (hu : ∀ u ∈ us, u.1.cfg.NotKnownPrefix) (seen : SeenTags) (res : List Tag) : (runTagL m rec word wl us seen res).log = [] := by
  induction us generalizing seen res with
  | nil => rfl
  | cons ut us ih =>
    obtain ⟨u, t⟩ := ut
    have h1 := unitTagL_noLog m rec u (hu _ (List.mem_cons_self ..)) word wl h seen
    rw [runTagL]
    cases hv : (unitTagL m rec u word wl seen).val with
    | error e => rw [Logged.bind_log_error _ _ e hv, h1]
    | ok r =>
      rw [Logged.bind_log_ok _ _ r hv, h1, List.nil_append]
      split
      · rfl
      · exact ih (fun v hv => hu v (List.mem_cons_of_mem _ hv)) _ _

/-- One known-prefix unit among units that do not call back (the word has no hyphen). -/
theorem runParseL_one (m : Morph S) (rec : RecL S) (word wl : Str) (h : '-' ∉ wl) (P : List Str) (mult : S) (u : BUnit S) (t : Bool)
    (hk : u.cfg = .knownPrefix P mult 3) (a b : List (BUnit S × Bool)) (ha : ∀ v ∈ a, v.1.cfg.NotKnownPrefix) (hb : ∀ v ∈ b, v.1.cfg.NotKnownPrefix)
    (seen : Seen) (res : List (Parse S)) :
    ∃ l', l' <+: possibleSplits P 3 wl ∧ (runParseL m rec word wl (a ++ (u, t) :: b) seen res).log = l'.flatMap (fun s => (rec.parse s.2).log) ∧
      (∀ out, (runParseL m rec word wl (a ++ (u, t) :: b) seen res).val = .ok out →
        (∀ v ∈ a, ∀ seen, unitParse m rec.erase v.1 word wl seen = .ok ([], seen)) → res = [] →
        l' = possibleSplits P 3 wl ∧ ∀ s ∈ possibleSplits P 3 wl, ∃ ps, (rec.parse s.2).val = .ok ps) := by
  induction a generalizing seen res with
  | nil =>
    rw [List.nil_append, runParseL]
    obtain ⟨l', h1, h2, h3⟩ := prefixCandsL_log u.obj mult rec.parse (possibleSplits P 3 wl)
    have hunit : unitParseL m rec u word wl seen = prefixCandsL u.obj mult rec.parse (possibleSplits P 3 wl) >>= fun ps => pure (addParses ps seen) := by
      unfold unitParseL; rw [hk]
    have hlog : (unitParseL m rec u word wl seen).log = l'.flatMap (fun s => (rec.parse s.2).log) := by
      rw [hunit, Logged.bind_log_quiet _ _ (fun _ => rfl), h2]
    refine ⟨l', h1, ?_, ?_⟩
    · cases hv : (unitParseL m rec u word wl seen).val with
      | error e => rw [Logged.bind_log_error _ _ e hv, hlog]
      | ok r =>
        rw [Logged.bind_log_ok _ _ r hv, hlog]
        split
        · simp
        · rw [runParseL_noLog m rec word wl h b hb, List.append_nil]
    · intro out hout _ _
      rw [Logged.bind_val, bind_ok_iff] at hout
      obtain ⟨r, hr, _⟩ := hout
      rw [hunit, Logged.bind_val, bind_ok_iff] at hr
      obtain ⟨ps, hps, _⟩ := hr
      refine ⟨h3 ps hps, ?_⟩
      intro s hs
      rw [prefixCandsL_val] at hps
      simp only [prefixCands, bind_ok_iff] at hps
      obtain ⟨pss, hpss, _⟩ := hps
      obtain ⟨x, _, hx⟩ := mapE_mem' hpss hs
      simp only [bind_ok_iff] at hx
      obtain ⟨ps', hps', _⟩ := hx
      exact ⟨ps', hps'⟩
  | cons vt a ih =>
    obtain ⟨v, tv⟩ := vt
    rw [List.cons_append, runParseL]
    have hl := unitParseL_noLog m rec v (ha _ (List.mem_cons_self ..)) word wl h seen
    cases hv : (unitParseL m rec v word wl seen).val with
    | error e =>
      refine ⟨[], List.nil_prefix, ?_, ?_⟩
      · rw [Logged.bind_log_error _ _ e hv, hl]; rfl
      · intro out hout
        rw [Logged.bind_val, hv] at hout
        simp at hout
    | ok r =>
      by_cases hstop : tv = true ∧ res ++ r.1 ≠ []
      · refine ⟨[], List.nil_prefix, ?_, ?_⟩
        · rw [Logged.bind_log_ok _ _ r hv, hl, if_pos hstop]; rfl
        · intro out _ hsil hres
          have := hsil _ (List.mem_cons_self ..) seen
          rw [← unitParseL_val, hv] at this
          simp only [Except.ok.injEq] at this
          rw [this, hres] at hstop
          simp at hstop
      · obtain ⟨l', h1, h2, h3⟩ := ih (fun x hx => ha x (List.mem_cons_of_mem _ hx)) r.2 (res ++ r.1)
        refine ⟨l', h1, ?_, ?_⟩
        · rw [Logged.bind_log_ok _ _ r hv, hl, if_neg hstop, h2]; rfl
        · intro out hout hsil hres
          rw [Logged.bind_val, hv, ok_bind, if_neg hstop] at hout
          have := hsil _ (List.mem_cons_self ..) seen
          rw [← unitParseL_val, hv] at this
          simp only [Except.ok.injEq] at this
          exact h3 out hout (fun x hx => hsil x (List.mem_cons_of_mem _ hx)) (by rw [this, hres]; rfl)

theorem runTagL_one (m : Morph S) (rec : RecL S) (word wl : Str) (h : '-' ∉ wl) (P : List Str) (mult : S) (u : BUnit S) (t : Bool)
    (hk : u.cfg = .knownPrefix P mult 3) (a b : List (BUnit S × Bool)) (ha : ∀ v ∈ a, v.1.cfg.NotKnownPrefix) (hb : ∀ v ∈ b, v.1.cfg.NotKnownPrefix)
    (seen : SeenTags) (res : List Tag) :
    ∃ l', l' <+: possibleSplits P 3 wl ∧ (runTagL m rec word wl (a ++ (u, t) :: b) seen res).log = l'.flatMap (fun s => (rec.tag s.2).log) ∧
      (∀ out, (runTagL m rec word wl (a ++ (u, t) :: b) seen res).val = .ok out →
        (∀ v ∈ a, ∀ seen, unitTag m rec.erase v.1 word wl seen = .ok ([], seen)) → res = [] →
        l' = possibleSplits P 3 wl ∧ ∀ s ∈ possibleSplits P 3 wl, ∃ ts, (rec.tag s.2).val = .ok ts) := by
  induction a generalizing seen res with
  | nil =>
    rw [List.nil_append, runTagL]
    obtain ⟨l', h1, h2, h3⟩ := prefixTagCandsL_log rec.tag (possibleSplits P 3 wl)
    have hunit : unitTagL m rec u word wl seen = prefixTagCandsL rec.tag (possibleSplits P 3 wl) >>= fun ts => pure (addTags ts seen) := by
      unfold unitTagL; rw [hk]
    have hlog : (unitTagL m rec u word wl seen).log = l'.flatMap (fun s => (rec.tag s.2).log) := by
      rw [hunit, Logged.bind_log_quiet _ _ (fun _ => rfl), h2]
    refine ⟨l', h1, ?_, ?_⟩
    · cases hv : (unitTagL m rec u word wl seen).val with
      | error e => rw [Logged.bind_log_error _ _ e hv, hlog]
      | ok r =>
        rw [Logged.bind_log_ok _ _ r hv, hlog]
        split
        · simp
        · rw [runTagL_noLog m rec word wl h b hb, List.append_nil]
    · intro out hout _ _
      rw [Logged.bind_val, bind_ok_iff] at hout
      obtain ⟨r, hr, _⟩ := hout
      rw [hunit, Logged.bind_val, bind_ok_iff] at hr
      obtain ⟨ps, hps, _⟩ := hr
      refine ⟨h3 ps hps, ?_⟩
      intro s hs
      rw [prefixTagCandsL_val] at hps
      simp only [prefixTagCands, bind_ok_iff] at hps
      obtain ⟨pss, hpss, _⟩ := hps
      obtain ⟨x, _, hx⟩ := mapE_mem' hpss hs
      simp only [bind_ok_iff] at hx
      obtain ⟨ps', hps', _⟩ := hx
      exact ⟨ps', hps'⟩
  | cons vt a ih =>
    obtain ⟨v, tv⟩ := vt
    rw [List.cons_append, runTagL]
    have hl := unitTagL_noLog m rec v (ha _ (List.mem_cons_self ..)) word wl h seen
    cases hv : (unitTagL m rec v word wl seen).val with
    | error e =>
      refine ⟨[], List.nil_prefix, ?_, ?_⟩
      · rw [Logged.bind_log_error _ _ e hv, hl]; rfl
      · intro out hout
        rw [Logged.bind_val, hv] at hout
        simp at hout
    | ok r =>
      by_cases hstop : tv = true ∧ res ++ r.1 ≠ []
      · refine ⟨[], List.nil_prefix, ?_, ?_⟩
        · rw [Logged.bind_log_ok _ _ r hv, hl, if_pos hstop]; rfl
        · intro out _ hsil hres
          have := hsil _ (List.mem_cons_self ..) seen
          rw [← unitTagL_val, hv] at this
          simp only [Except.ok.injEq] at this
          rw [this, hres] at hstop
          simp at hstop
      · obtain ⟨l', h1, h2, h3⟩ := ih (fun x hx => ha x (List.mem_cons_of_mem _ hx)) r.2 (res ++ r.1)
        refine ⟨l', h1, ?_, ?_⟩
        · rw [Logged.bind_log_ok _ _ r hv, hl, if_neg hstop, h2]; rfl
        · intro out hout hsil hres
          rw [Logged.bind_val, hv, ok_bind, if_neg hstop] at hout
          have := hsil _ (List.mem_cons_self ..) seen
          rw [← unitTagL_val, hv] at this
          simp only [Except.ok.injEq] at this
          exact h3 out hout (fun x hx => hsil x (List.mem_cons_of_mem _ hx)) (by rw [this, hres]; rfl)

/-- `m` is a default analyzer and `D` the data of its language. -/
def OfLanguage (m : Morph S) (D : RuleData) : Prop := (IsRu m ∧ D = ruData) ∨ (IsUk m ∧ D = ukData)

theorem Early.not {D : RuleData} {c : UnitCfg S} (h : c.Early D) : c.NotKnownPrefix := by
  cases c <;> first | trivial | exact h.elim

theorem language_split {m : Morph S} {D : RuleData} (hm : OfLanguage m D) : D.prefixes.Nodup ∧
    ∃ a u t b mult, m.units = a ++ (u, t) :: b ∧ u.cfg = .knownPrefix D.prefixes mult 3 ∧ (∀ v ∈ a, v.1.cfg.Early D) ∧ ∀ v ∈ b, v.1.cfg.NotKnownPrefix := by
  rcases hm with ⟨hm, rfl⟩ | ⟨hm, rfl⟩
  · refine ⟨c42_default_nodup.1, m.units.take 10, ⟨10, (UnitSpec.knownPrefix ruKnownPrefixes (dec 75 100) 3).bound⟩, true, m.units.drop 11, dec 75 100, ?_, rfl, ?_, ?_⟩
    · rw [ru_units hm]; rfl
    · rw [ru_units hm]
      simp only [List.take_succ_cons, List.take_zero, List.mem_cons, List.not_mem_nil, or_false, forall_eq_or_imp, forall_eq, UnitSpec.bound, UnitCfg.Early,
        true_and, and_true]
      exact ⟨fun l hl => (ruInitial_iff l).2 hl, fun l hl => (ruInitial_iff l).2 hl⟩
    · rw [ru_units hm]
      simp only [List.drop_succ_cons, List.drop_zero, List.mem_cons, List.not_mem_nil, or_false, forall_eq_or_imp, forall_eq, UnitSpec.bound,
        UnitCfg.NotKnownPrefix, and_self]
  · refine ⟨c42_default_nodup.2, m.units.take 9, ⟨9, (UnitSpec.knownPrefix ukKnownPrefixes (dec 75 100) 3).bound⟩, true, m.units.drop 10, dec 75 100, ?_, rfl, ?_, ?_⟩
    · rw [uk_units hm]; rfl
    · rw [uk_units hm]
      simp only [List.take_succ_cons, List.take_zero, List.mem_cons, List.not_mem_nil, or_false, forall_eq_or_imp, forall_eq, UnitSpec.bound, UnitCfg.Early,
        true_and, and_true]
      exact ⟨fun l hl => (ukInitial_iff l).2 hl, fun l hl => (ukInitial_iff l).2 hl⟩
    · rw [uk_units hm]
      simp only [List.drop_succ_cons, List.drop_zero, List.mem_cons, List.not_mem_nil, or_false, forall_eq_or_imp, forall_eq, UnitSpec.bound,
        UnitCfg.NotKnownPrefix, and_self]

/-- The word and all that is left of it when known prefixes are taken off are obscure. -/
def ObscureThroughout (m : Morph S) (D : RuleData) (w : Str) : Prop :=
  Obscure m D w ∧ ∀ qs, qs ≠ [] → Peels D.prefixes (m.env.lower w) qs → Obscure m D (afterPeeling (m.env.lower w) qs)

theorem ObscureThroughout.rest {m : Morph S} {D : RuleData} {w : Str} (hlow : m.env.LowerStable) (h : ObscureThroughout m D w) (s : Str × Str)
    (hs : s ∈ possibleSplits D.prefixes 3 (m.env.lower w)) : ObscureThroughout m D s.2 := by
  obtain ⟨q, r⟩ := s
  obtain ⟨e, _, _⟩ := possibleSplits_mem _ _ _ _ _ hs
  have hr : m.env.lower r = r := hlow w r ⟨q, [], by simp [e]⟩
  have key : ∀ qs, Peels D.prefixes r qs → Obscure m D (afterPeeling r qs) := by
    intro qs hqs
    have := h.2 (q :: qs) (by simp) ((peels_iff _ _ _ _).2 ⟨r, hs, hqs⟩)
    rw [e, afterPeeling_cons] at this
    exact this
  constructor
  · exact key [] (.none r)
  · intro qs _ hqs
    dsimp only at hqs ⊢
    rw [hr] at hqs ⊢
    exact key qs hqs

/-- C98 for words without a hyphen: apart from the call itself, `parse` is called on what is left of the word when known prefixes are
taken off, at most once for each way of taking them off; `tag` is not called. If the word and what is left of it are obscure (and no
exception ends the work early), these are all the ways there are: so many calls are made. The same for `tag`. -/
theorem c98_peelings (m : Morph S) (D : RuleData) (hm : OfLanguage m D) (hlow : m.env.LowerStable) (n : Nat) (w : Str) (hw : '-' ∉ m.env.lower w) :
    (∃ L : List (List Str), L.Nodup ∧ (∀ qs ∈ L, qs ≠ [] ∧ Peels D.prefixes (m.env.lower w) qs) ∧
      m.parseCalls n w = .parse w :: L.map (fun qs => .parse (afterPeeling (m.env.lower w) qs)) ∧
      ((∃ ps, (analyze m n).parse w = .ok ps) → ObscureThroughout m D w → ∀ qs, qs ≠ [] → Peels D.prefixes (m.env.lower w) qs → qs ∈ L)) ∧
    (∃ L : List (List Str), L.Nodup ∧ (∀ qs ∈ L, qs ≠ [] ∧ Peels D.prefixes (m.env.lower w) qs) ∧
      m.tagCalls n w = .tag w :: L.map (fun qs => .tag (afterPeeling (m.env.lower w) qs)) ∧
      ((∃ ts, (analyze m n).tag w = .ok ts) → ObscureThroughout m D w → ∀ qs, qs ≠ [] → Peels D.prefixes (m.env.lower w) qs → qs ∈ L)) := by
  obtain ⟨hnd, a, u, t, b, mult, hunits, hk, ha, hb⟩ := language_split hm
  constructor
  · obtain ⟨L, h1, h2, h3, h4⟩ := peel_trace D.prefixes hnd m.env.lower hlow Call.parse m.parseCalls
      (fun n w => (∃ ps, (analyze m n).parse w = .ok ps) ∧ ObscureThroughout m D w) (fun w => ⟨rfl, by simp [analyze]⟩) (by
        intro n w hw
        obtain ⟨l', h1, h2, h3⟩ := runParseL_one m (analyzeL m n) w _ hw D.prefixes mult u t hk a b (fun v hv => Early.not (ha v hv)) hb [] []
        refine ⟨l', h1, ?_, ?_⟩
        · show Call.parse w :: (parseStepL m (analyzeL m n) w).log = _
          unfold parseStepL
          rw [Logged.bind_log_quiet _ _ (fun _ => rfl), hunits, h2]
          rfl
        · rintro ⟨⟨ps, hps⟩, hob⟩
          rw [← (c98_recorded m (n + 1) w).1] at hps
          have hps : (parseStepL m (analyzeL m n) w).val = .ok ps := hps
          unfold parseStepL at hps
          rw [Logged.bind_val, bind_ok_iff, hunits] at hps
          obtain ⟨out, hout, _⟩ := hps
          obtain ⟨h5, h6⟩ := h3 out hout (fun v hv seen => unitParse_silent m _ v.1 D (ha v hv) w hob.1 hw seen) rfl
          refine ⟨h5, fun s hs => ⟨?_, hob.rest hlow s hs⟩⟩
          obtain ⟨ps, hps⟩ := h6 s hs
          exact ⟨ps, by rw [← (c98_recorded m n s.2).1]; exact hps⟩) n w hw
    exact ⟨L, h1, h2, h3, fun hp ho => h4 ⟨hp, ho⟩⟩
  · obtain ⟨L, h1, h2, h3, h4⟩ := peel_trace D.prefixes hnd m.env.lower hlow Call.tag m.tagCalls
      (fun n w => (∃ ps, (analyze m n).tag w = .ok ps) ∧ ObscureThroughout m D w) (fun w => ⟨rfl, by simp [analyze]⟩) (by
        intro n w hw
        obtain ⟨l', h1, h2, h3⟩ := runTagL_one m (analyzeL m n) w _ hw D.prefixes mult u t hk a b (fun v hv => Early.not (ha v hv)) hb [] []
        refine ⟨l', h1, ?_, ?_⟩
        · show Call.tag w :: (tagStepL m (analyzeL m n) w).log = _
          unfold tagStepL
          rw [Logged.bind_log_quiet _ _ (fun _ => rfl), hunits, h2]
          rfl
        · rintro ⟨⟨ps, hps⟩, hob⟩
          rw [← (c98_recorded m (n + 1) w).2] at hps
          have hps : (tagStepL m (analyzeL m n) w).val = .ok ps := hps
          unfold tagStepL at hps
          rw [Logged.bind_val, bind_ok_iff, hunits] at hps
          obtain ⟨out, hout, _⟩ := hps
          obtain ⟨h5, h6⟩ := h3 out hout (fun v hv seen => unitTag_silent m _ v.1 D (ha v hv) w hob.1 hw seen) rfl
          refine ⟨h5, fun s hs => ⟨?_, hob.rest hlow s hs⟩⟩
          obtain ⟨ps, hps⟩ := h6 s hs
          exact ⟨ps, by rw [← (c98_recorded m n s.2).2]; exact hps⟩) n w hw
    exact ⟨L, h1, h2, h3, fun hp ho => h4 ⟨hp, ho⟩⟩

/-! ### A short word that takes long -/

/-- недо repeated `k` times, then ъъъ: `4 * k + 3` letters. -/
def slowWord : Nat → Str
  | 0 => c!"ъъъ"
  | k + 1 => c!"недо" ++ slowWord k

theorem slowWord_length (k : Nat) : (slowWord k).length = 4 * k + 3 := by
  induction k with
  | zero => rfl
  | succ k ih => simp [slowWord, ih]; omega

/-- For each block недо: either taken off at once, or не and then до. -/
def slowPeelings : Nat → List (List Str)
  | 0 => [[]]
  | k + 1 => (slowPeelings k).map ([c!"недо"] ++ ·) ++ (slowPeelings k).map ([c!"не", c!"до"] ++ ·)

theorem slowPeelings_length (k : Nat) : (slowPeelings k).length = 2 ^ k := by
  induction k with
  | zero => rfl
  | succ k ih => simp [slowPeelings, ih, Nat.pow_succ]; omega

theorem slowPeelings_nodup (k : Nat) : (slowPeelings k).Nodup := by
  induction k with
  | zero => simp [slowPeelings]
  | succ k ih =>
    rw [slowPeelings, List.nodup_append]
    refine ⟨ih.map fun a b e => by simpa using e, ih.map fun a b e => by simpa using e, ?_⟩
    intro x hx y hy e
    obtain ⟨a, _, rfl⟩ := List.mem_map.1 hx
    obtain ⟨b, _, rfl⟩ := List.mem_map.1 hy
    simp at e

theorem slowPeelings_peel (k : Nat) : ∀ qs ∈ slowPeelings k, Peels ruData.prefixes (slowWord k) qs := by
  have p1 : c!"недо" ∈ ruData.prefixes := by decide +kernel
  have p2 : c!"не" ∈ ruData.prefixes := by decide +kernel
  have p3 : c!"до" ∈ ruData.prefixes := by decide +kernel
  induction k with
  | zero =>
    intro qs hqs
    simp only [slowPeelings, List.mem_singleton] at hqs
    subst hqs
    exact .none _
  | succ k ih =>
    have hl := slowWord_length k
    intro qs hqs
    rcases List.mem_append.1 hqs with h | h
    · obtain ⟨a, ha, rfl⟩ := List.mem_map.1 h
      exact .off _ _ _ p1 (by omega) (ih a ha)
    · obtain ⟨a, ha, rfl⟩ := List.mem_map.1 h
      exact .off (c!"не") (c!"до" ++ slowWord k) _ p2 (by rw [List.length_append]; omega) (.off _ _ _ p3 (by omega) (ih a ha))

theorem slowWord_noHyphen (k : Nat) : '-' ∉ slowWord k := by
  induction k with
  | zero => decide
  | succ k ih =>
    rw [slowWord, List.mem_append, not_or]
    exact ⟨by decide, ih⟩

/-- What is left is an ending of the word, of three letters or more. -/
theorem Peels.rest {P : List Str} {w : Str} {qs : List Str} (h : Peels P w qs) (hw : 3 ≤ w.length) :
    afterPeeling w qs <:+ w ∧ 3 ≤ (afterPeeling w qs).length := by
  induction h with
  | none w => exact ⟨List.drop_suffix _ _, by simpa [afterPeeling] using hw⟩
  | off q r qs _ h3 _ ih =>
    rw [afterPeeling_cons]
    exact ⟨(ih h3).1.trans (List.suffix_append ..), (ih h3).2⟩

/-- C98, the lower bound: the work is exponential in the length of the word. If nothing that is left of недо…недоъъъ is recognized,
`parse` of this word of `4 k + 3` letters makes at least `2 ^ k` calls of `parse` (if it returns at all), and `tag` as many of `tag`. -/
theorem c98_exponential (m : Morph S) (hm : IsRu m) (hlow : m.env.LowerStable) (k n : Nat) (hl : m.env.lower (slowWord k) = slowWord k)
    (ho : ∀ x, x <:+ slowWord k → 3 ≤ x.length → Obscure m ruData x) :
    (∀ ps, (analyze m n).parse (slowWord k) = .ok ps → 2 ^ k ≤ (m.parseCalls n (slowWord k)).length) ∧
    (∀ ts, (analyze m n).tag (slowWord k) = .ok ts → 2 ^ k ≤ (m.tagCalls n (slowWord k)).length) := by
  have h3 : 3 ≤ (slowWord k).length := by rw [slowWord_length]; omega
  have hob : ObscureThroughout m ruData (slowWord k) := by
    refine ⟨ho _ (List.suffix_refl _) h3, ?_⟩
    intro qs _ hqs
    rw [hl] at hqs ⊢
    exact ho _ (hqs.rest h3).1 (hqs.rest h3).2
  have count : ∀ L : List (List Str), (∀ qs, qs ≠ [] → Peels ruData.prefixes (slowWord k) qs → qs ∈ L) → 2 ^ k ≤ L.length + 1 := by
    intro L hL
    rw [← slowPeelings_length k, ← List.length_cons (a := [])]
    refine ((slowPeelings_nodup k).subperm ?_).length_le
    intro qs hqs
    by_cases e : qs = []
    · rw [e]; exact List.mem_cons_self ..
    · exact List.mem_cons_of_mem _ (hL qs e (slowPeelings_peel k qs hqs))
  obtain ⟨⟨L, _, _, e, hL⟩, ⟨L', _, _, e', hL'⟩⟩ := c98_peelings m ruData (.inl ⟨hm, rfl⟩) hlow n (slowWord k) (by rw [hl]; exact slowWord_noHyphen k)
  rw [hl] at hL hL'
  constructor
  · intro ps hps
    rw [e, List.length_cons, List.length_map]
    exact count L (hL ⟨ps, hps⟩ hob)
  · intro ts hts
    rw [e', List.length_cons, List.length_map]
    exact count L' (hL' ⟨ts, hts⟩ hob)

/-! ### On CPython -/

open Cpython Unicode

/-- Words of the letters н, е, д, о, ъ are no numbers, punctuation, Roman numbers or Latin words. -/
theorem plain_letters (x : Str) (hne : x ≠ []) (hx : ∀ c ∈ x, c ∈ c!"недоъ") :
    cpython.isInt x = false ∧ ¬ SaysFloat cpython x ∧ isPunctuation cpython x = false ∧ isRomanNumber cpython x = false ∧ isLatin cpython x = .ok false := by
  have hall : ∀ c ∈ c!"недоъ", asciiOf c = '?' ∧ isAlpha c = true ∧ charName c = some (c!"OTHER") ∧ isSpace c = false ∧ isPunct c = false ∧
      reFold c ∉ c!"MDCLXVI\n" := by decide +kernel
  obtain ⟨c, t, rfl⟩ := List.exists_cons_of_ne_nil hne
  obtain ⟨h1, h2, h3, h4, h5, h6⟩ := hall c (hx c (List.mem_cons_self ..))
  have hoth : isSub (c!"LATIN") (c!"OTHER") = false := by decide
  refine ⟨(no_number _ c (List.mem_cons_self ..) h1).1, ?_, ?_, ?_, ?_⟩
  · unfold SaysFloat
    rw [(no_number _ c (List.mem_cons_self ..) h1).2]; simp
  · unfold isPunctuation
    rw [cp_isPunct, cp_isSpace]
    simp [h4, h5]
  · unfold isRomanNumber
    rw [cp_reFold]
    simp only [List.isEmpty_cons, Bool.false_eq_true, if_false, List.map_cons]
    exact roman_ne _ _ h6
  · unfold isLatin
    simp only [allLatin, isLatinChar, cp_isAlpha, cp_charName, List.any_cons, h2, h3, hoth, Bool.true_or, if_true]
    rfl

theorem slowWord_letters (k : Nat) : ∀ c ∈ slowWord k, c ∈ c!"недоъ" := by
  induction k with
  | zero => decide
  | succ k ih =>
    intro c hc
    rcases List.mem_append.1 hc with h | h
    · exact (by decide : ∀ c ∈ c!"недо", c ∈ c!"недоъ") c h
    · exact ih c h

theorem slowWord_end (k : Nat) : c!"ъъъ" <:+ slowWord k := by
  induction k with
  | zero => exact List.suffix_refl _
  | succ k ih => exact ih.trans (List.suffix_append ..)

theorem slowWord_lower (k : Nat) : cpython.lower (slowWord k) = slowWord k := by
  apply lowerFrom_settled
  have hall : ∀ c ∈ c!"недоъ", lowerFull c = [c] ∧ c ≠ 'Σ' := by decide +kernel
  intro c hc
  exact ⟨(hall c (slowWord_letters k c hc)).1, (hall c (slowWord_letters k c hc)).2⟩

theorem slowWord_obscure (m : Morph S) (he : m.env = cpython) (hs : m.sub = ruSubst) (hd : ∀ e ∈ m.dict.words, ¬ c!"ъъъ" <:+ e.1) (k : Nat) (x : Str)
    (hx : x <:+ slowWord k) (h3 : 3 ≤ x.length) : Obscure m ruData x := by
  have hlow : cpython.lower x = x := c80_lower_stable (slowWord k) x (by rw [slowWord_lower]; exact hx.isInfix)
  have hend : c!"ъъъ" <:+ x := List.suffix_of_suffix_length_le (slowWord_end k) hx h3
  obtain ⟨h1, h2, h4, h5, h6⟩ := plain_letters x (by rintro rfl; simp at h3) fun c hc => slowWord_letters k c (hx.subset hc)
  refine ⟨?_, ?_, ?_, ?_, ?_, ?_, ?_⟩
  · rw [Bool.eq_false_iff]
    intro hk
    have hk : m.dict.wordIsKnown (m.env.lower x) (some m.sub) = true := hk
    rw [he, hlow, hs, dict_known_iff] at hk
    obtain ⟨v, r, hsp, hv⟩ := hk
    refine hd _ hv ?_
    obtain ⟨a, rfl⟩ := hend
    obtain ⟨b, e', hb, he', rfl⟩ : ∃ b e', Spells ruSubst a b ∧ Spells ruSubst (c!"ъъъ") e' ∧ v = b ++ e' := by
      unfold Spells at hsp ⊢
      refine ⟨v.take a.length, v.drop a.length, ?_, ?_, (List.take_append_drop ..).symm⟩
      · have := List.forall₂_take a.length hsp
        rwa [List.take_left] at this
      · have := List.forall₂_drop a.length hsp
        rwa [List.drop_left] at this
    have : e' = c!"ъъъ" := by
      have hh : ∀ d, d = 'ъ' ∨ d ∈ ruSubst 'ъ' → d = 'ъ' := by
        intro d hd
        rcases hd with h | h
        · exact h
        · simp [ruSubst] at h
      unfold Spells at he'
      cases he' with
      | cons p1 r1 =>
        cases r1 with
        | cons p2 r2 =>
          cases r2 with
          | cons p3 r3 =>
            cases r3
            rw [hh _ p1, hh _ p2, hh _ p3]
    rw [this]
    exact ⟨b, rfl⟩
  · rw [ruInitial_iff]
    intro h
    have hall : ∀ l ∈ ruInitialLetters, l.length = 1 := by decide +kernel
    have := hall _ h
    omega
  · rw [he]; exact h1
  · rw [he]; exact h2
  · rw [he]; exact h4
  · rw [he]; exact h5
  · rw [he]; exact h6

/-- C98 on CPython: with the Russian analyzer over a dictionary none of whose words ends in ъъъ the word недо…недоъъъ of `4 k + 3` letters is analyzed, and that
takes at least `2 ^ k` calls of `parse`; the same for `tag`. -/
theorem c98_cpython (m : Morph Rat) (hm : IsRu m) (he : m.env = cpython) (hs : m.sub = ruSubst) (hd : ∀ e ∈ m.dict.words, ¬ c!"ъъъ" <:+ e.1)
    (hwf : m.dict.WF) (hk : ∀ g ∈ [c!"ADJF", c!"sing", c!"datv"], g ∈ m.cls.known) (hp : m.DataComplete) (k : Nat) :
    (∃ ps, m.parse (slowWord k) = .ok ps) ∧ 2 ^ k ≤ (m.parseCalls (m.depth (slowWord k)) (slowWord k)).length ∧
    (∃ ts, m.tag (slowWord k) = .ok ts) ∧ 2 ^ k ≤ (m.tagCalls (m.depth (slowWord k)) (slowWord k)).length := by
  have hall : ∀ c ∈ c!"недоъ", isTangut c = false := by decide +kernel
  obtain ⟨⟨ps, h1, _⟩, ts, h2, _⟩ := c80_total m (.inl hm) he hwf hk hp (slowWord k) fun c hc => hall c (slowWord_letters k c hc)
  obtain ⟨h3, h4⟩ := c98_exponential m hm (he ▸ c80_lower_stable) k (m.depth (slowWord k)) (by rw [he]; exact slowWord_lower k)
    (slowWord_obscure m he hs hd k)
  exact ⟨⟨ps, h1⟩, h3 ps h1, ⟨ts, h2⟩, h4 ts h2⟩

/-- For every `k`: the word is analyzed, with at least `2 ^ k` calls. -/
example (k : Nat) : (∃ ps, Demo.morphC.parse (slowWord k) = .ok ps) ∧ 2 ^ k ≤ (Demo.morphC.parseCalls (Demo.morphC.depth (slowWord k)) (slowWord k)).length := by
  obtain ⟨h1, h2, _⟩ := c98_cpython Demo.morphC Demo.morphC_isRu rfl rfl (by decide +kernel) Demo.dict_wf (by decide +kernel)
    (by intro dawg h; simp [Demo.morphC, Demo.morph] at h) k
  exact ⟨h1, h2⟩

/-- Smaller examples: the number of calls about doubles with each недо; a known word without prefixes takes one call. -/
example : (Demo.morph.parseCalls 20 (slowWord 1)).length = 4 ∧ (Demo.morph.parseCalls 20 (slowWord 2)).length = 10 ∧ (Demo.morph.parseCalls 20 (slowWord 3)).length = 22 ∧
    Demo.morph.parseCalls 20 (c!"кошка") = [.parse (c!"кошка")] ∧
    Demo.morph.parseCalls 20 (c!"недокошка") = [.parse (c!"недокошка"), .parse (c!"кошка"), .parse (c!"докошка"), .parse (c!"кошка")] := by
  decide +kernel

end Verif
