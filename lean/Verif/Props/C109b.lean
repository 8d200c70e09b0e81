/-
C109, continued — known words and nested calls with units of one's own.
-/
import Verif.Props.C109
import Verif.Props.C72
import Verif.Props.C78
import Verif.Props.C79

set_option linter.unusedSectionVars false

namespace Verif

variable {S : Type} [Score S]

/-- The units start with the dictionary and contain no second dictionary unit. -/
def DictionaryFirst (items : List (List (UnitSpec S))) : Prop :=
  ∃ g0 rest, items = (.dictionary :: g0) :: rest ∧ UnitSpec.dictionary ∉ g0 ++ rest.flatten

theorem configured_looksUp {m : Morph S} {items : List (List (UnitSpec S))} (hm : m.Configured items) (hf : DictionaryFirst items) : m.LooksUp := by
  obtain ⟨g0, rest, rfl, hd⟩ := hf
  obtain ⟨cls, hm⟩ := hm
  refine looksUp_of cls g0 rest m hm fun sp hsp hk => ?_
  cases sp <;> simp [UnitSpec.bound, UnitCfg.kind] at hk
  exact hd hsp

/-- **C109, known words.** With the dictionary first, and only there, C79 holds whatever the other units are: the dictionary results of `parse(w)` correspond one to
one to the occurrences of `w` in the (linked) lexemes of the source of the dictionary. -/
theorem c109_exact {I : Type} [DecidableEq I] (num : I → Int) (bw : DawgBuild (Nat × Nat)) (bp : DawgBuild (Nat × Nat × Nat))
    (o : COptions) (src : Parsed I) (c : Compiled) (hc : compileParsed num bw bp o src = .ok c) (items : List (List (UnitSpec S)))
    (m : Morph S) (hm : m.Configured items) (hf : DictionaryFirst items) (hlow : m.env.LowerStable) (hs : m.sub.Proper) (hd : m.dict = c.toDict)
    (w : Str) (ps : List (Parse S)) (h : m.parse w = .ok ps) :
    ∃ ls, joinLexemes num src = .ok ls ∧ ∃ occ : List (Lexeme × Nat), occ.Nodup ∧
      (∀ L i, (L, i) ∈ occ ↔ L ∈ ls ∧ OccursAt m.sub (m.env.lower w) L i) ∧
      List.Forall₂ (fun p x => IsFormOf m p x.1 x.2) (fromDict ps) occ :=
  exact_core num bw bp o src c hc m (configured_looksUp hm hf) hlow hs hd w ps h

/-- **C109, same dictionary results.** Two analyzers over the same dictionary with different units, in both of which the dictionary comes first: the words known are
the same, and so are the dictionary results up to order — words, tags, normal forms and lexemes. -/
theorem c109_same_known {I : Type} [DecidableEq I] (num : I → Int) (bw : DawgBuild (Nat × Nat)) (bp : DawgBuild (Nat × Nat × Nat))
    (o : COptions) (src : Parsed I) (c : Compiled) (hc : compileParsed num bw bp o src = .ok c) (items items' : List (List (UnitSpec S)))
    (m m' : Morph S) (hm : m.Configured items) (hf : DictionaryFirst items) (hm' : m'.Configured items') (hf' : DictionaryFirst items')
    (henv : m'.env = m.env) (hsub : m'.sub = m.sub) (hlow : m.env.LowerStable) (hs : m.sub.Proper) (hd : m.dict = c.toDict) (hd' : m'.dict = c.toDict)
    (w : Str) : m'.wordIsKnown w = m.wordIsKnown w ∧
    ∀ ps ps', m.parse w = .ok ps → m'.parse w = .ok ps' → ∃ qs, (fromDict ps).Perm qs ∧ List.Forall₂ (SaySame m m') qs (fromDict ps') := by
  obtain ⟨ls, h1, _⟩ := compile_split hc
  exact local_core num num bw bw bp bp o o src src c c hc hc m m' (configured_looksUp hm hf) (configured_looksUp hm' hf') henv hsub hlow hs hd hd' ls ls h1 h1 w
    fun L _ => Iff.rfl

/-- **C109, closure.** C72 likewise: every form of the lexeme of a dictionary result is itself known, in every spelling; parsing such a spelling gives a result that
differs from the form by the score at most, and whose lexeme is the same. -/
theorem c109_closed {I : Type} [DecidableEq I] (num : I → Int) (bw : DawgBuild (Nat × Nat)) (bp : DawgBuild (Nat × Nat × Nat))
    (o : COptions) (src : Parsed I) (c : Compiled) (hc : compileParsed num bw bp o src = .ok c) (items : List (List (UnitSpec S)))
    (m : Morph S) (hm : m.Configured items) (hf : DictionaryFirst items) (hlow : m.env.LowerStable) (hd : m.dict = c.toDict)
    (w : Str) (ps : List (Parse S)) (h : m.parse w = .ok ps) (p : Parse S) (hp : p ∈ ps) (hk : p.dictEntry.isSome = true) :
    ∃ fs, m.lexeme p = .ok fs ∧ ∀ f ∈ fs, ∀ w', Spells m.sub (m.env.lower w') f.word →
      m.wordIsKnown w' = true ∧ ∀ ps', m.parse w' = .ok ps' → ∃ q ∈ ps', q.core = f.core ∧ m.lexeme q = .ok fs :=
  closed_core num bw bp o src c hc m (configured_looksUp hm hf) hlow hd w ps h p hp hk

/-- **C109, normal forms.** The normal form of a dictionary result is a known word that is its own normal form. -/
theorem c109_normal_form {I : Type} [DecidableEq I] (num : I → Int) (bw : DawgBuild (Nat × Nat)) (bp : DawgBuild (Nat × Nat × Nat))
    (o : COptions) (src : Parsed I) (c : Compiled) (hc : compileParsed num bw bp o src = .ok c) (items : List (List (UnitSpec S)))
    (m : Morph S) (hm : m.Configured items) (hf : DictionaryFirst items) (hlow : m.env.LowerStable) (hd : m.dict = c.toDict)
    (w : Str) (ps : List (Parse S)) (h : m.parse w = .ok ps) (p : Parse S) (hp : p ∈ ps) (hk : p.dictEntry.isSome = true)
    (w' : Str) (hw' : Spells m.sub (m.env.lower w') p.nf) :
    m.wordIsKnown w' = true ∧ ∀ ps', m.parse w' = .ok ps' → ∃ q ∈ ps', q.word = p.nf ∧ q.nf = p.nf := by
  obtain ⟨fs, hfs, hall⟩ := c109_closed num bw bp o src c hc items m hm hf hlow hd w ps h p hp hk
  have hwf : m.dict.WF := by
    obtain ⟨ls, _, h2⟩ := compile_split hc
    rw [hd]; exact c30_sound bw bp o ls c h2
  have hst : ∃ u v k i, p.stack = .single (.dict u v k i) := by
    unfold Parse.dictEntry at hk
    split at hk
    · next u v k i hst => exact ⟨u, v, k, i, hst⟩
    · simp at hk
  obtain ⟨u, v, k, i, hst⟩ := hst
  obtain ⟨_, q, f, h1, h2, h3, h4, h5, _⟩ := c109_member items m hm hlow hwf w ps h p hp (by rw [hst]; exact ⟨trivial, trivial⟩) (by rw [hst]; trivial) fs hfs
  obtain ⟨a1, a2, a3, a4⟩ := (core_eq_iff _ _).1 h3
  obtain ⟨b1, b2⟩ := hall f (List.mem_of_mem_head? h2) w' (by rw [← a1, h4]; exact hw')
  refine ⟨b1, fun ps' hps' => ?_⟩
  obtain ⟨q', hq, he, _⟩ := b2 ps' hps'
  obtain ⟨c1, c2, c3, c4⟩ := (core_eq_iff _ _).1 he
  exact ⟨q', hq, by rw [c1, ← a1, h4], by rw [c3, ← a3, h5]⟩

/-- **C109, nested calls.** If no configured prefix is empty: over all levels of nesting `parse(w)` (and `tag(w)`) analyzes only shorter pieces of `w.lower()`, at most
n(n+1)/2 different ones, n being the length; and calls are never nested deeper than the word is long. -/
theorem c109_nested (items : List (List (UnitSpec S))) (m : Morph S) (hm : m.Configured items)
    (hpre : ∀ g ∈ items, ∀ sp ∈ g, ∀ prefixes mult k, sp = .knownPrefix prefixes mult k → [] ∉ prefixes)
    (hlow : m.env.LowerStable) (w : Str) (calls : Str → Str → Prop) (hc : calls = m.CallsParse ∨ calls = m.CallsTag) :
    (∀ x, Reaches calls w x → x <:+: m.env.lower w ∧ x.length < (m.env.lower w).length) ∧
    (∀ L : List Str, L.Nodup → (∀ x ∈ L, Reaches calls w x) → L.length ≤ (m.env.lower w).length * ((m.env.lower w).length + 1) / 2) ∧
    ∀ chain, List.IsChain calls (w :: chain) → chain.length ≤ (m.env.lower w).length := by
  have hu := configured_properPrefixes hm hpre
  obtain ⟨h1, h2⟩ := words_core m hu hlow w calls hc
  exact ⟨h1, h2, fun chain => depth_core m hu hlow calls hc chain w⟩

theorem prefix_never (m : Morph S) (prefixes : List Str) (mult : S) (k : Nat) (b : Bool) (us : List (BUnit S × Bool))
    (hus : m.units = (⟨0, .knownPrefix prefixes mult k⟩, b) :: us) (hlow : m.env.LowerStable) (hnil : [] ∈ prefixes) (n : Nat) :
    ∀ w, k ≤ (m.env.lower w).length → (analyze m n).parse w = .error .recursionError ∧ (analyze m n).tag w = .error .recursionError := by
  induction n with
  | zero => intro w _; exact ⟨rfl, rfl⟩
  | succ n ih =>
    intro w hw
    have hmem : ([], m.env.lower w) ∈ possibleSplits prefixes k (m.env.lower w) := (c42_splits_mem _ _ _ _ _).2 ⟨hnil, rfl, hw⟩
    have hall : ∀ s ∈ possibleSplits prefixes k (m.env.lower w),
        (analyze m n).parse s.2 = .error .recursionError ∧ (analyze m n).tag s.2 = .error .recursionError := by
      rintro ⟨x, y⟩ hs
      obtain ⟨_, he, hk⟩ := (c42_splits_mem _ _ _ _ _).1 hs
      refine ih y ?_
      rw [hlow w y ⟨x, [], by simp [he]⟩]
      exact hk
    cases hsp : possibleSplits prefixes k (m.env.lower w) with
    | nil => rw [hsp] at hmem; simp at hmem
    | cons s ss =>
      obtain ⟨e1, e2⟩ := hall s (by rw [hsp]; simp)
      constructor
      · simp only [analyze, parseStep, hus, runParse, unitParse, hsp, prefixCands, mapE, e1]
        rfl
      · simp only [analyze, tagStep, hus, runTag, unitTag, hsp, prefixTagCands, mapE, e2]
        rfl

/-- **C109, defect.** If the first unit removes known prefixes and the empty string is among them, then (without the C extension) no word of the minimal length of the rest is
ever analyzed: whatever the recursion limit is, `parse` and `tag` exceed it. -/
theorem c109_empty_prefix (prefixes : List Str) (mult : S) (k : Nat) (g0 : List (UnitSpec S)) (items : List (List (UnitSpec S))) (m : Morph S)
    (hm : m.Configured ((.knownPrefix prefixes mult k :: g0) :: items)) (hlow : m.env.LowerStable) (hnil : [] ∈ prefixes)
    (w : Str) (hw : k ≤ (m.env.lower w).length) (limit : Nat) :
    (analyze m limit).parse w = .error .recursionError ∧ (analyze m limit).tag w = .error .recursionError := by
  obtain ⟨b, us, hus⟩ := configured_first hm
  simp only [UnitSpec.bound] at hus
  exact prefix_never m _ mult k b us hus hlow (by simpa using hnil) limit w hw

/-! ### Non-vacuity -/

/-- The dictionary together with prediction by the ending in one group. -/
def Demo.units109b : List (List (UnitSpec Rat)) := [[.dictionary, .knownSuffix (1/2) 4], [.unkn]]

/-- Over a compiled dictionary these units meet the conditions; кошке has a result from the dictionary. -/
example : ∃ (c : Compiled) (m : Morph Rat), Demo.compiled72 = .ok c ∧ m.Configured Demo.units109b ∧ DictionaryFirst Demo.units109b ∧ m.dict = c.toDict ∧ m.sub.Proper ∧
    m.env.LowerStable ∧ ∃ ps p, m.parse (c!"Кошке") = .ok ps ∧ p ∈ ps ∧ p.dictEntry.isSome = true ∧ p.nf = c!"кошка" := by
  have h : (match Demo.compiled72 with
    | .ok c => match mkMorph demoEnv c.toDict Demo.cls ruSubst Demo.units109b none with
      | .ok m => match m.parse (c!"Кошке") with
        | .ok ps => ps.any fun p => p.dictEntry.isSome && decide (p.nf = c!"кошка")
        | _ => false
      | _ => false
    | _ => false) = true := by decide +kernel
  split at h
  · next c hc =>
    split at h
    · next m hm =>
      split at h
      · next ps hps =>
        obtain ⟨p, hp, hh⟩ := List.any_eq_true.1 h
        simp only [Bool.and_eq_true, decide_eq_true_eq] at hh
        obtain ⟨e1, e2, e3, _⟩ := mkMorph_units hm
        refine ⟨c, m, hc, configured_of hm, ⟨_, _, rfl, by simp⟩, e2, by rw [e3]; exact c05_default_targets.2.2.1, by rw [e1]; exact demoEnv_lowerStable,
          ps, p, hps, hp, hh⟩
      · simp at h
    · simp at h
  · simp at h

/-- An analyzer that removes the empty prefix first. -/
example : ∃ m : Morph Rat, m.Configured [[.knownPrefix [c!"не", []] (1/2) 3], [.dictionary]] ∧ m.env.LowerStable ∧ 3 ≤ (m.env.lower (c!"Кошка")).length := by
  have h : (mkMorph demoEnv Demo.dict Demo.cls ruSubst [[.knownPrefix [c!"не", []] (1/2 : Rat) 3], [.dictionary]] none).toOption.isSome = true := by
    decide +kernel
  cases e : mkMorph demoEnv Demo.dict Demo.cls ruSubst [[.knownPrefix [c!"не", []] (1/2 : Rat) 3], [.dictionary]] none with
  | ok m =>
    have h1 := (mkMorph_units e).1
    exact ⟨m, configured_of e, by rw [h1]; exact demoEnv_lowerStable, by rw [h1]; decide +kernel⟩
  | error x => rw [e] at h; simp [Except.toOption] at h

end Verif
