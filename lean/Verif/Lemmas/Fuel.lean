/-
Nested calls only see strictly shorter pieces of the word, hence the budget of nested calls is irrelevant as soon as it
exceeds the length of the word.
-/
import Verif.Lemmas.Deriv
import Verif.Lemmas.Groups

set_option linter.unusedSectionVars false

namespace Verif

variable {S : Type} [Score S]

/-- No empty string among the prefixes a unit removes (`KnownPrefixAnalyzer(known_prefixes=…)`). -/
def UnitCfg.properPrefixes : UnitCfg S → Prop
  | .knownPrefix ps _ _ => [] ∉ ps
  | _ => True

/-- Two call-back records agree on the strictly shorter pieces of `wl`. -/
def Rec.AgreeBelow (wl : Str) (r r' : Rec S) : Prop :=
  ∀ x : Str, x <:+: wl → x.length < wl.length → r.parse x = r'.parse x ∧ r.tag x = r'.tag x

theorem infix_left (a b : Str) : a <:+: a ++ b := ⟨[], b, by simp⟩
theorem infix_right (a b : Str) : b <:+: a ++ b := ⟨a, [], by simp⟩

theorem hyphen_pieces (skip : List Str) (wl : Str) (h : hyphenShould skip wl = true) :
    ((splitHyphen wl).1 <:+: wl ∧ (splitHyphen wl).1.length < wl.length) ∧
    ((splitHyphen wl).2 <:+: wl ∧ (splitHyphen wl).2.length < wl.length) := by
  obtain ⟨e, _⟩ := hyphenShould_split skip wl h
  refine ⟨⟨?_, ?_⟩, ?_, ?_⟩
  · exact ⟨[], '-' :: (splitHyphen wl).2, by simpa using e.symm⟩
  · have := congrArg List.length e
    simp only [List.length_append, List.length_cons] at this
    omega
  · exact ⟨(splitHyphen wl).1 ++ ['-'], [], by simpa using e.symm⟩
  · have := congrArg List.length e
    simp only [List.length_append, List.length_cons] at this
    omega

theorem particle_piece (parts : List Str) (w rest part : Str) (h : particleSplit parts w = some (rest, part)) :
    rest <:+: w ∧ rest.length < w.length := by
  obtain ⟨rfl, _, _, hp, _⟩ := particleSplit_some parts w rest part h
  refine ⟨infix_left _ _, ?_⟩
  have := List.length_pos_iff.2 hp
  simp; omega

theorem prefix_piece (prefixes : List Str) (hne : [] ∉ prefixes) (k : Nat) (w pre rest : Str)
    (h : (pre, rest) ∈ possibleSplits prefixes k w) : rest <:+: w ∧ rest.length < w.length := by
  obtain ⟨rfl, hp, _⟩ := possibleSplits_mem prefixes k w pre rest h
  refine ⟨infix_right _ _, ?_⟩
  have : pre ≠ [] := fun e => hne (e ▸ hp)
  have := List.length_pos_iff.2 this
  simp; omega

theorem adverb_piece (wl : Str) (h : ¬ (wl.length < 5 ∨ startsWith wl (c!"по-") = false)) :
    wl.drop 3 <:+: wl ∧ (wl.drop 3).length < wl.length := by
  refine ⟨⟨wl.take 3, [], by simp⟩, ?_⟩
  simp only [List.length_drop]; omega

theorem adverbShould_congr (m : Morph S) (r r' : Rec S) (wl : Str) (h : Rec.AgreeBelow wl r r') :
    adverbShould m r wl = adverbShould m r' wl := by
  unfold adverbShould
  split
  · rfl
  · next hc =>
    obtain ⟨h1, h2⟩ := adverb_piece wl hc
    rw [(h _ h1 h2).2]

theorem hyphenParse_congr (r r' : Rec S) (u : UObj) (skip : List Str) (mult : S) (wl : Str)
    (h : Rec.AgreeBelow wl r r') : hyphenParse r u skip mult wl = hyphenParse r' u skip mult wl := by
  unfold hyphenParse
  split
  · next hs =>
    obtain ⟨⟨h1, h2⟩, h3, h4⟩ := hyphen_pieces skip wl hs
    dsimp only
    rw [(h _ h1 h2).1, (h _ h3 h4).1]
  · rfl

theorem prefixCands_congr (u : UObj) (mult : S) (f f' : Str → Except PyErr (List (Parse S))) (sp : List (Str × Str))
    (h : ∀ s ∈ sp, f s.2 = f' s.2) : prefixCands u mult f sp = prefixCands u mult f' sp := by
  unfold prefixCands
  rw [mapE_congr _ _ sp fun s hs => by rw [h s hs]]

theorem prefixTagCands_congr (f f' : Str → Except PyErr (List Tag)) (sp : List (Str × Str))
    (h : ∀ s ∈ sp, f s.2 = f' s.2) : prefixTagCands f sp = prefixTagCands f' sp := by
  unfold prefixTagCands
  rw [mapE_congr _ _ sp fun s hs => by rw [h s hs]]

theorem unitParse_congr (m : Morph S) (r r' : Rec S) (u : BUnit S) (hu : u.cfg.properPrefixes) (word wl : Str)
    (h : Rec.AgreeBelow wl r r') (seen : Seen) : unitParse m r u word wl seen = unitParse m r' u word wl seen := by
  unfold unitParse
  split
  case h_8 =>
    split
    · rfl
    · next rest part hp =>
      obtain ⟨h1, h2⟩ := particle_piece _ _ _ _ hp
      rw [(h _ h1 h2).1]
  case h_9 => rw [adverbShould_congr m r r' wl h]
  case h_10 => rw [hyphenParse_congr r r' _ _ _ wl h]
  case h_11 ps mult k hk =>
    rw [hk] at hu
    rw [prefixCands_congr _ _ r.parse r'.parse]
    rintro ⟨pre, rest⟩ hs
    obtain ⟨h1, h2⟩ := prefix_piece ps hu k wl pre rest hs
    exact (h _ h1 h2).1
  all_goals rfl

theorem unitTag_congr (m : Morph S) (r r' : Rec S) (u : BUnit S) (hu : u.cfg.properPrefixes) (word wl : Str)
    (h : Rec.AgreeBelow wl r r') (seen : SeenTags) : unitTag m r u word wl seen = unitTag m r' u word wl seen := by
  unfold unitTag
  split
  case h_8 =>
    split
    · rfl
    · next rest part hp =>
      obtain ⟨h1, h2⟩ := particle_piece _ _ _ _ hp
      rw [(h _ h1 h2).2]
  case h_9 => rw [adverbShould_congr m r r' wl h]
  case h_10 => rw [hyphenParse_congr r r' _ _ _ wl h]
  case h_11 ps mult k hk =>
    rw [hk] at hu
    rw [prefixTagCands_congr r.tag r'.tag]
    rintro ⟨pre, rest⟩ hs
    obtain ⟨h1, h2⟩ := prefix_piece ps hu k wl pre rest hs
    exact (h _ h1 h2).2
  all_goals rfl

theorem runParse_congr (m : Morph S) (r r' : Rec S) (word wl : Str) (us : List (BUnit S × Bool))
    (hu : ∀ u ∈ us, u.1.cfg.properPrefixes)
    (h : Rec.AgreeBelow wl r r') (seen : Seen) (res : List (Parse S)) :
    runParse m r word wl us seen res = runParse m r' word wl us seen res := by
  induction us generalizing seen res with
  | nil => rfl
  | cons ut us ih =>
    obtain ⟨u, t⟩ := ut
    rw [runParse, runParse, unitParse_congr m r r' u (hu (u, t) (by simp)) word wl h]
    congr 1
    funext x
    dsimp only
    rw [ih fun u hu' => hu u (by simp [hu'])]

theorem runTag_congr (m : Morph S) (r r' : Rec S) (word wl : Str) (us : List (BUnit S × Bool))
    (hu : ∀ u ∈ us, u.1.cfg.properPrefixes)
    (h : Rec.AgreeBelow wl r r') (seen : SeenTags) (res : List Tag) :
    runTag m r word wl us seen res = runTag m r' word wl us seen res := by
  induction us generalizing seen res with
  | nil => rfl
  | cons ut us ih =>
    obtain ⟨u, t⟩ := ut
    rw [runTag, runTag, unitTag_congr m r r' u (hu (u, t) (by simp)) word wl h]
    congr 1
    funext x
    dsimp only
    rw [ih fun u hu' => hu u (by simp [hu'])]

theorem step_congr (m : Morph S) (hu : ∀ u ∈ m.units, u.1.cfg.properPrefixes) (r r' : Rec S) (w : Str)
    (h : Rec.AgreeBelow (m.env.lower w) r r') : parseStep m r w = parseStep m r' w ∧ tagStep m r w = tagStep m r' w := by
  unfold parseStep tagStep
  dsimp only
  rw [runParse_congr m r r' w _ _ hu h, runTag_congr m r r' w _ _ hu h]
  exact ⟨rfl, rfl⟩

/-- Budgets above the length of the lower-cased word all give the same answer. -/
theorem analyze_budget (m : Morph S) (hlow : m.env.LowerStable) (hu : ∀ u ∈ m.units, u.1.cfg.properPrefixes)
    (n n' : Nat) (w : Str) (hn : (m.env.lower w).length < n) (hn' : (m.env.lower w).length < n') :
    (analyze m n).parse w = (analyze m n').parse w ∧ (analyze m n).tag w = (analyze m n').tag w := by
  induction n generalizing n' w with
  | zero => omega
  | succ n ih =>
    obtain ⟨n', rfl⟩ : ∃ k, n' = k + 1 := ⟨n' - 1, by omega⟩
    show parseStep m (analyze m n) w = parseStep m (analyze m n') w ∧ tagStep m (analyze m n) w = tagStep m (analyze m n') w
    apply step_congr m hu
    intro x hx hl
    have e : m.env.lower x = x := hlow w x hx
    exact ih n' x (by rw [e]; omega) (by rw [e]; omega)

/-- One step of `parse`/`tag`, with the nested calls being `parse`/`tag` themselves. -/
theorem parse_unfold (m : Morph S) (hlow : m.env.LowerStable) (hu : ∀ u ∈ m.units, u.1.cfg.properPrefixes) (w : Str) :
    m.parse w = parseStep m ⟨m.parse, m.tag⟩ w ∧ m.tag w = tagStep m ⟨m.parse, m.tag⟩ w := by
  have := step_congr m hu (analyze m (m.env.lower w).length) ⟨m.parse, m.tag⟩ w ?_
  · exact this
  · intro x hx hl
    have e : m.env.lower x = x := hlow w x hx
    exact analyze_budget m hlow hu _ (m.depth x) x (by rw [e]; omega) (by unfold Morph.depth; omega)

end Verif
