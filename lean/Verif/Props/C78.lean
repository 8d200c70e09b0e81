/-
C78 — nested calls of parse() and tag(): how deep, on which words, how many.
-/
import Verif.Props.C71
import Verif.Props.C04

set_option linter.unusedSectionVars false

namespace Verif

variable {S : Type} [Score S]

/-! ### Specification -/

/-- While it analyzes `w`, `parse` calls `morph.parse(x)`: whatever exception that call is made to raise, `parse(w)` raises it.  (All
other nested calls are left as they are.) -/
def Morph.CallsParse (m : Morph S) (w x : Str) : Prop :=
  ∀ e : PyErr, parseStep m ⟨fun y => if y = x then .error e else m.parse y, m.tag⟩ w = .error e

/-- While it tags `w`, `tag` calls `morph.tag(x)`. -/
def Morph.CallsTag (m : Morph S) (w x : Str) : Prop :=
  ∀ e : PyErr, tagStep m ⟨m.parse, fun y => if y = x then .error e else m.tag y⟩ w = .error e

/-- A call on `w` makes, itself included and at all levels of nesting, at least `n` calls: each of some different words `x` that it calls directly
accounts for at least as many calls as a call on `x` makes. -/
inductive AtLeast (calls : Str → Str → Prop) : Str → Nat → Prop
  | self (w : Str) : AtLeast calls w 1
  | nested (w : Str) (xs : List (Str × Nat)) (distinct : (xs.map Prod.fst).Nodup) (direct : ∀ x ∈ xs, calls w x.1)
      (count : ∀ x ∈ xs, AtLeast calls x.1 x.2) : AtLeast calls w (1 + (xs.map Prod.snd).sum)

/-- `x` is analyzed at some level of nesting while `w` is. -/
inductive Reaches (calls : Str → Str → Prop) (w : Str) : Str → Prop
  | direct (x : Str) (h : calls w x) : Reaches calls w x
  | step (x y : Str) (h : Reaches calls w x) (h' : calls x y) : Reaches calls w y

/-! ### On which words -/

theorem error_ne {α : Type} (x : Except PyErr α) (h : ∀ e, x = .error e) : False := by
  have h1 := h .valueError
  have h2 := h .keyError
  rw [h1] at h2
  cases h2

theorem pieces_core (m : Morph S) (hu : ∀ u ∈ m.units, u.1.cfg.properPrefixes) (hlow : m.env.LowerStable) (w x : Str) :
    (m.CallsParse w x → x <:+: m.env.lower w ∧ x.length < (m.env.lower w).length) ∧
    (m.CallsTag w x → x <:+: m.env.lower w ∧ x.length < (m.env.lower w).length) := by
  constructor
  · intro h
    by_contra hx
    refine error_ne (m.parse w) fun e => ?_
    rw [(parse_unfold m hlow hu w).1, ← h e]
    refine (step_congr m hu ⟨m.parse, m.tag⟩ ⟨fun y => if y = x then .error e else m.parse y, m.tag⟩ w fun y hy hl => ⟨?_, rfl⟩).1
    have : y ≠ x := by rintro rfl; exact hx ⟨hy, hl⟩
    simp [this]
  · intro h
    by_contra hx
    refine error_ne (m.tag w) fun e => ?_
    rw [(parse_unfold m hlow hu w).2, ← h e]
    refine (step_congr m hu ⟨m.parse, m.tag⟩ ⟨m.parse, fun y => if y = x then .error e else m.tag y⟩ w fun y hy hl => ⟨rfl, ?_⟩).2
    have : y ≠ x := by rintro rfl; exact hx ⟨hy, hl⟩
    simp [this]

/-- **C78.** `parse(w)` calls itself only on words that are shorter than `w.lower()` and contiguous pieces of it; likewise `tag`. -/
theorem c78_pieces (m : Morph S) (hm : IsRu m ∨ IsUk m) (hlow : m.env.LowerStable) (w x : Str) :
    (m.CallsParse w x → x <:+: m.env.lower w ∧ x.length < (m.env.lower w).length) ∧
    (m.CallsTag w x → x <:+: m.env.lower w ∧ x.length < (m.env.lower w).length) :=
  pieces_core m (default_properPrefixes m hm) hlow w x

theorem reaches_piece (m : Morph S) (hlow : m.env.LowerStable) (calls : Str → Str → Prop)
    (h : ∀ w x, calls w x → x <:+: m.env.lower w ∧ x.length < (m.env.lower w).length) (w x : Str) (hr : Reaches calls w x) :
    x <:+: m.env.lower w ∧ x.length < (m.env.lower w).length := by
  induction hr with
  | direct x hx => exact h w x hx
  | step x y _ hy ih =>
    obtain ⟨h1, h2⟩ := h x y hy
    rw [hlow w x ih.1] at h1 h2
    exact ⟨h1.trans ih.1, by omega⟩

/-- The non-empty pieces of a word, place by place. -/
def pieces : Str → List Str
  | [] => []
  | c :: cs => cs.inits.map (c :: ·) ++ pieces cs

theorem mem_pieces (w x : Str) (h : x <:+: w) (hx : x ≠ []) : x ∈ pieces w := by
  induction w with
  | nil => exact absurd (List.infix_nil.1 h) hx
  | cons c cs ih =>
    rw [pieces, List.mem_append]
    rcases List.infix_cons_iff.1 h with h | h
    · left
      cases x with
      | nil => exact absurd rfl hx
      | cons d ds =>
        obtain ⟨rfl, h'⟩ := List.cons_prefix_cons.1 h
        exact List.mem_map.2 ⟨ds, (List.mem_inits _ _).2 h', rfl⟩
    · exact .inr (ih h)

theorem pieces_length (w : Str) : 2 * (pieces w).length = w.length * (w.length + 1) := by
  induction w with
  | nil => rfl
  | cons c cs ih =>
    simp only [pieces, List.length_append, List.length_map, List.length_inits, List.length_cons, Nat.mul_add, ih]
    simp only [Nat.add_mul]
    omega

/-- A word of length `n` has at most `n (n + 1) / 2` different pieces shorter than it. -/
theorem pieces_card (w : Str) (L : List Str) (hL : L.Nodup) (h : ∀ x ∈ L, x <:+: w ∧ x.length < w.length) :
    2 * L.length ≤ w.length * (w.length + 1) := by
  have hnd : (L.map fun x => if x = [] then w else x).Nodup := by
    refine List.Nodup.map_on ?_ hL
    intro x hx y hy he
    have h1 := (h x hx).2
    have h2 := (h y hy).2
    split at he
    · next hx0 =>
      split at he
      · next hy0 => rw [hx0, hy0]
      · subst he; omega
    · split at he
      · subst he; omega
      · exact he
  have hsub : (L.map fun x => if x = [] then w else x) ⊆ pieces w := by
    intro y hy
    obtain ⟨x, hx, rfl⟩ := List.mem_map.1 hy
    obtain ⟨h1, h2⟩ := h x hx
    split
    · refine mem_pieces w w (List.infix_refl _) ?_
      rintro rfl
      simp at h2
    · next hx0 => exact mem_pieces w x h1 hx0
  have hle := (hnd.subperm hsub).length_le
  rw [List.length_map] at hle
  have := pieces_length w
  omega

theorem words_core (m : Morph S) (hu : ∀ u ∈ m.units, u.1.cfg.properPrefixes) (hlow : m.env.LowerStable) (w : Str) (calls : Str → Str → Prop)
    (hc : calls = m.CallsParse ∨ calls = m.CallsTag) :
    (∀ x, Reaches calls w x → x <:+: m.env.lower w ∧ x.length < (m.env.lower w).length) ∧
    ∀ L : List Str, L.Nodup → (∀ x ∈ L, Reaches calls w x) → L.length ≤ (m.env.lower w).length * ((m.env.lower w).length + 1) / 2 := by
  have h : ∀ w x, calls w x → x <:+: m.env.lower w ∧ x.length < (m.env.lower w).length := by
    intro w x
    rcases hc with rfl | rfl
    · exact (pieces_core m hu hlow w x).1
    · exact (pieces_core m hu hlow w x).2
  refine ⟨fun x hx => reaches_piece m hlow calls h w x hx, fun L hL hx => ?_⟩
  have := pieces_card _ L hL fun x hx' => reaches_piece m hlow calls h w x (hx x hx')
  omega

/-- **C78.** Over all levels of nesting, `parse(w)` analyzes at most n(n+1)/2 different words besides `w` itself, n being the length of
`w.lower()`; each is a shorter piece of it.  The same for `tag`. -/
theorem c78_words (m : Morph S) (hm : IsRu m ∨ IsUk m) (hlow : m.env.LowerStable) (w : Str) (calls : Str → Str → Prop)
    (hc : calls = m.CallsParse ∨ calls = m.CallsTag) :
    (∀ x, Reaches calls w x → x <:+: m.env.lower w ∧ x.length < (m.env.lower w).length) ∧
    ∀ L : List Str, L.Nodup → (∀ x ∈ L, Reaches calls w x) → L.length ≤ (m.env.lower w).length * ((m.env.lower w).length + 1) / 2 :=
  words_core m (default_properPrefixes m hm) hlow w calls hc

theorem depth_core (m : Morph S) (hu : ∀ u ∈ m.units, u.1.cfg.properPrefixes) (hlow : m.env.LowerStable) (calls : Str → Str → Prop)
    (hc : calls = m.CallsParse ∨ calls = m.CallsTag) (chain : List Str) : ∀ w, List.IsChain calls (w :: chain) →
    chain.length ≤ (m.env.lower w).length := by
  have h : ∀ w x, calls w x → x <:+: m.env.lower w ∧ x.length < (m.env.lower w).length := by
    intro w x
    rcases hc with rfl | rfl
    · exact (pieces_core m hu hlow w x).1
    · exact (pieces_core m hu hlow w x).2
  induction chain with
  | nil => intro w _; simp
  | cons x chain ih =>
    intro w hw
    obtain ⟨h1, h2⟩ := List.isChain_cons_cons.1 hw
    obtain ⟨h3, h4⟩ := h w x h1
    have := ih x h2
    rw [hlow w x h3] at this
    simp only [List.length_cons]
    omega

/-- **C78.** Nested calls are never nested deeper than the word is long. -/
theorem c78_depth (m : Morph S) (hm : IsRu m ∨ IsUk m) (hlow : m.env.LowerStable) (calls : Str → Str → Prop)
    (hc : calls = m.CallsParse ∨ calls = m.CallsTag) (chain : List Str) : ∀ w, List.IsChain calls (w :: chain) →
    chain.length ≤ (m.env.lower w).length :=
  depth_core m (default_properPrefixes m hm) hlow calls hc chain

/-! ### How many -/

/-- A word that no rule before the known prefixes applies to, and that is analyzed without an exception. -/
structure Gibberish (m : Morph S) (w : Str) : Prop where
  lower : m.env.lower w = w
  unknown : m.wordIsKnown w = false
  noHyphen : '-' ∉ w
  long : 2 ≤ w.length
  notInt : m.env.isInt w = false
  notFloat : ¬ SaysFloat m.env w
  notPunct : isPunctuation m.env w = false
  notRoman : isRomanNumber m.env w = false
  notLatin : isLatin m.env w = .ok false
  parsed : ∃ ps, m.parse w = .ok ps
  tagged : ∃ ts, m.tag w = .ok ts

theorem firstGroup_skip {α : Type} (run : List (BUnit S) → Except PyErr (List α)) (gs : List (List (BUnit S))) (rest : List (List (BUnit S)))
    (h : ∀ g ∈ gs, run g = .ok []) : firstGroup run (gs ++ rest) = firstGroup run rest := by
  induction gs with
  | nil => rfl
  | cons g gs ih =>
    rw [List.cons_append, firstGroup, h g (by simp)]
    exact ih fun g' hg' => h g' (by simp [hg'])

/-- The groups of the Russian analyzer before the known prefixes. -/
def ruBefore : List (List (BUnit S)) :=
  [[⟨0, .dictionary⟩, ⟨1, (UnitSpec.firstName ruInitialLetters firstNamePattern (dec 1 10)).bound⟩,
      ⟨2, (UnitSpec.patronymic ruInitialLetters patronymicPattern (dec 1 10)).bound⟩],
     [⟨3, (UnitSpec.number (dec 9 10)).bound⟩], [⟨4, (UnitSpec.punct (dec 9 10)).bound⟩],
     [⟨5, (UnitSpec.roman (dec 9 10)).bound⟩, ⟨6, (UnitSpec.latin (dec 9 10)).bound⟩],
     [⟨7, .particle ruData.particles (dec 9 10)⟩], [⟨8, (UnitSpec.adverb (dec 7 10)).bound⟩],
     [⟨9, .hyphenated ruData.prefixes (dec 75 100)⟩]]

theorem before_parse (m : Morph S) (rec : Rec S) (w : Str) (h : Gibberish m w) (g : List (BUnit S)) (hg : g ∈ ruBefore (S := S)) :
    groupParse m rec w (m.env.lower w) g [] = .ok [] := by
  have hl : w ∉ ruInitialLetters := by
    intro hw
    have := (ruInitial_iff w).2 hw
    obtain ⟨c, rfl, _⟩ := this
    exact absurd h.long (by simp)
  have hd : lookup m.dict.words m.sub w = [] := by
    by_contra hne
    have := (known_iff m w).2 (by rw [h.lower]; exact hne)
    rw [h.unknown] at this
    exact absurd this (by simp)
  have hp : startsWith w (c!"по-") = false := by
    cases hs : startsWith w (c!"по-") with
    | false => rfl
    | true =>
      have : c!"по-" <+: w := by simpa [startsWith] using hs
      exact absurd (this.subset (by simp)) h.noHyphen
  have hf := h.notFloat
  unfold SaysFloat at hf
  rw [Bool.not_eq_true] at hf
  rw [h.lower]
  unfold ruBefore at hg
  simp only [List.mem_cons, List.not_mem_nil, or_false] at hg
  rcases hg with rfl | rfl | rfl | rfl | rfl | rfl | rfl
  · simp [groupParse, unitParse, UnitSpec.bound, dictParse, hd, mapE, initialsParse, hl]
  · simp [groupParse, unitParse, UnitSpec.bound, shapeTag, numberShape, h.notInt, hf, shapeParse]
  · simp [groupParse, unitParse, UnitSpec.bound, shapeTag, h.notPunct, shapeParse]
  · simp [groupParse, unitParse, UnitSpec.bound, shapeTag, h.notRoman, h.notLatin, shapeParse]
  · simp [groupParse, unitParse, particleSplit, h.noHyphen]
  · simp [groupParse, unitParse, UnitSpec.bound, adverbShould, hp]
  · simp [groupParse, unitParse, hyphenParse, hyphenShould, h.noHyphen]

theorem before_tag (m : Morph S) (rec : Rec S) (w : Str) (h : Gibberish m w) (g : List (BUnit S)) (hg : g ∈ ruBefore (S := S)) :
    groupTag m rec w (m.env.lower w) g [] = .ok [] := by
  have hl : w ∉ ruInitialLetters := by
    intro hw
    have := (ruInitial_iff w).2 hw
    obtain ⟨c, rfl, _⟩ := this
    exact absurd h.long (by simp)
  have hd : (m.dict.words.similarItemValues m.sub w).flatten = [] := by
    have hk : m.dict.words.similarKeys m.sub w = [] := by
      have := h.unknown
      simpa [Morph.wordIsKnown, Dict.wordIsKnown, h.lower] using this
    simp [Dawg.similarItemValues, hk]
  have hp : startsWith w (c!"по-") = false := by
    cases hs : startsWith w (c!"по-") with
    | false => rfl
    | true =>
      have : c!"по-" <+: w := by simpa [startsWith] using hs
      exact absurd (this.subset (by simp)) h.noHyphen
  have hf := h.notFloat
  unfold SaysFloat at hf
  rw [Bool.not_eq_true] at hf
  rw [h.lower]
  unfold ruBefore at hg
  simp only [List.mem_cons, List.not_mem_nil, or_false] at hg
  rcases hg with rfl | rfl | rfl | rfl | rfl | rfl | rfl
  · simp [groupTag, unitTag, UnitSpec.bound, dictTag, hd, mapE, initialsTag, hl]
  · simp [groupTag, unitTag, UnitSpec.bound, shapeTag, numberShape, h.notInt, hf]
  · simp [groupTag, unitTag, UnitSpec.bound, shapeTag, h.notPunct]
  · simp [groupTag, unitTag, UnitSpec.bound, shapeTag, h.notRoman, h.notLatin]
  · simp [groupTag, unitTag, particleSplit, h.noHyphen]
  · simp [groupTag, unitTag, UnitSpec.bound, adverbShould, hp]
  · simp [groupTag, unitTag, hyphenParse, hyphenShould, h.noHyphen, addTags]

theorem mapE_raises {α β : Type} (f : α → Except PyErr β) (A : List α) (x : α) (B : List α) (e : PyErr) (hA : ∀ a ∈ A, ∃ b, f a = .ok b)
    (hx : f x = .error e) : mapE f (A ++ x :: B) = .error e := by
  induction A with
  | nil => simp [mapE, hx]
  | cons a A ih =>
    obtain ⟨b, hb⟩ := hA a (by simp)
    simp [mapE, hb, ih fun a' ha' => hA a' (by simp [ha'])]

/-- Such a word makes `parse` and `tag` call themselves on every rest that a known prefix leaves. -/
theorem calls_rest (m : Morph S) (hm : IsRu m) (w : Str) (h : Gibberish m w) (A B : List (Str × Str)) (pre x : Str)
    (hs : possibleSplits ruKnownPrefixes 3 w = A ++ (pre, x) :: B)
    (hA : ∀ s ∈ A, s.2 ≠ x ∧ (∃ ps, m.parse s.2 = .ok ps) ∧ ∃ ts, m.tag s.2 = .ok ts) : m.CallsParse w x ∧ m.CallsTag w x := by
  obtain ⟨cls, hm⟩ := hm
  obtain ⟨_, _, _, _, hg⟩ := mkMorph_units hm
  have hgr : boundGroups (ruUnits (S := S)) 0 = ruBefore ++ [⟨10, .knownPrefix ruKnownPrefixes (dec 75 100) 3⟩] ::
      [[⟨11, .unknownPrefix (dec 5 10)⟩, ⟨12, .knownSuffix (dec 5 10) 4⟩], [⟨13, .unkn ⟨c!"UNKN"⟩⟩]] := rfl
  rw [hgr] at hg
  constructor
  · intro e
    unfold parseStep
    dsimp only
    rw [runParse_eq_firstGroup m _ w _ _ _ hg, firstGroup_skip _ _ _ fun g hg' => before_parse m _ w h g hg', firstGroup]
    have : groupParse m ⟨fun y => if y = x then .error e else m.parse y, m.tag⟩ w (m.env.lower w)
        [⟨10, .knownPrefix ruKnownPrefixes (dec 75 100) 3⟩] [] = .error e := by
      simp only [groupParse, unitParse, h.lower, prefixCands, hs]
      rw [mapE_raises _ A (pre, x) B e]
      · rfl
      · intro s hs'
        obtain ⟨h1, ⟨ps, h2⟩, _⟩ := hA s hs'
        exact ⟨_, by simp [h1, h2]; rfl⟩
      · simp
    rw [this]
    rfl
  · intro e
    unfold tagStep
    dsimp only
    rw [runTag_eq_firstGroup m _ w _ _ _ hg, firstGroup_skip _ _ _ fun g hg' => before_tag m _ w h g hg', firstGroup]
    have : groupTag m ⟨m.parse, fun y => if y = x then .error e else m.tag y⟩ w (m.env.lower w)
        [⟨10, .knownPrefix ruKnownPrefixes (dec 75 100) 3⟩] [] = .error e := by
      simp only [groupTag, unitTag, h.lower, prefixTagCands, hs]
      rw [mapE_raises _ A (pre, x) B e]
      · rfl
      · intro s hs'
        obtain ⟨h1, _, ts, h2⟩ := hA s hs'
        exact ⟨_, by simp [h1, h2]; rfl⟩
      · simp
    rw [this]
    rfl

theorem splits_nebez (v : Str) (h : 3 ≤ v.length) :
    possibleSplits ruKnownPrefixes 3 (c!"небез" ++ v) = [(c!"небез", v), (c!"не", c!"без" ++ v)] := by
  have : matchPrefixes ruKnownPrefixes (c!"небез" ++ v) = [c!"не", c!"небез"] := rfl
  unfold possibleSplits
  rw [this]
  simp [h]

theorem splits_bez (v : Str) (h : 3 ≤ v.length) : possibleSplits ruKnownPrefixes 3 (c!"без" ++ v) = [(c!"без", v)] := by
  have : matchPrefixes ruKnownPrefixes (c!"без" ++ v) = [c!"без"] := rfl
  unfold possibleSplits
  rw [this]
  simp [h]

/-- `'небез' * k + t` -/
def nebez (t : Str) : Nat → Str
  | 0 => t
  | k + 1 => c!"небез" ++ nebez t k

theorem nebez_length (t : Str) (k : Nat) : (nebez t k).length = 5 * k + t.length := by
  induction k with
  | zero => simp [nebez]
  | succ k ih => simp [nebez, ih]; omega

/-- **C78, defect.** The number of calls is exponential: on the word `'небез' * k + t`, whose length is `5 * k + len(t)`, the Russian analyzer
calls `parse` at least `3 * 2^k - 2` times, and `tag` as often, because небез and не + без are removed separately.  It is enough that
the words met on the way are not in the dictionary and not numbers, etc. -/
theorem c78_exponential (m : Morph S) (hm : IsRu m) (t : Str) (ht : 3 ≤ t.length)
    (hw : ∀ k, Gibberish m (nebez t k) ∧ Gibberish m (c!"без" ++ nebez t k)) (calls : Str → Str → Prop)
    (hc : calls = m.CallsParse ∨ calls = m.CallsTag) (k : Nat) :
    (nebez t k).length = 5 * k + t.length ∧ AtLeast calls (nebez t k) (3 * 2 ^ k - 2) := by
  refine ⟨nebez_length t k, ?_⟩
  induction k with
  | zero => exact .self _
  | succ k ih =>
    have hl : 3 ≤ (nebez t k).length := by rw [nebez_length]; omega
    have hne : nebez t k ≠ c!"без" ++ nebez t k := by
      intro e
      have := congrArg List.length e
      simp at this
      omega
    have g1 : Gibberish m (c!"небез" ++ nebez t k) := (hw (k + 1)).1
    have c1 : calls (c!"небез" ++ nebez t k) (nebez t k) := by
      have := calls_rest m hm _ g1 [] [(c!"не", c!"без" ++ nebez t k)] (c!"небез") (nebez t k) (splits_nebez _ hl) (by simp)
      rcases hc with rfl | rfl
      · exact this.1
      · exact this.2
    have c2 : calls (c!"небез" ++ nebez t k) (c!"без" ++ nebez t k) := by
      have := calls_rest m hm _ g1 [(c!"небез", nebez t k)] [] (c!"не") (c!"без" ++ nebez t k) (splits_nebez _ hl) (by
        intro s hs
        simp only [List.mem_singleton] at hs
        subst hs
        exact ⟨hne, (hw k).1.parsed, (hw k).1.tagged⟩)
      rcases hc with rfl | rfl
      · exact this.1
      · exact this.2
    have c3 : calls (c!"без" ++ nebez t k) (nebez t k) := by
      have := calls_rest m hm _ (hw k).2 [] [] (c!"без") (nebez t k) (splits_bez _ hl) (by simp)
      rcases hc with rfl | rfl
      · exact this.1
      · exact this.2
    have a3 : AtLeast calls (c!"без" ++ nebez t k) (1 + (3 * 2 ^ k - 2)) := by
      have := AtLeast.nested (calls := calls) (c!"без" ++ nebez t k) [(nebez t k, 3 * 2 ^ k - 2)] (by simp) (by simpa using c3) (by simpa using ih)
      simpa using this
    have a1 := AtLeast.nested (calls := calls) (c!"небез" ++ nebez t k)
      [(nebez t k, 3 * 2 ^ k - 2), (c!"без" ++ nebez t k, 1 + (3 * 2 ^ k - 2))] (by simpa using hne)
      (by
        intro x hx
        simp only [List.mem_cons, List.not_mem_nil, or_false] at hx
        rcases hx with rfl | rfl
        · exact c1
        · exact c2)
      (by
        intro x hx
        simp only [List.mem_cons, List.not_mem_nil, or_false] at hx
        rcases hx with rfl | rfl
        · exact ih
        · exact a3)
    have e : 1 + (([(nebez t k, 3 * 2 ^ k - 2), (c!"без" ++ nebez t k, 1 + (3 * 2 ^ k - 2))] : List (Str × Nat)).map Prod.snd).sum =
        3 * 2 ^ (k + 1) - 2 := by
      have : 1 ≤ 2 ^ k := Nat.one_le_two_pow
      simp only [List.map_cons, List.map_nil, List.sum_cons, List.sum_nil, Nat.pow_succ]
      omega
    rw [e] at a1
    exact a1

/-! ### None -/

theorem unitParse_no_nested (m : Morph S) (r r' : Rec S) (u : BUnit S) (word wl : Str) (hy : '-' ∉ wl)
    (hk : ∀ ps x k, u.cfg = .knownPrefix ps x k → ∀ pre ∈ ps, ∀ rest, wl = pre ++ rest → rest.length < k) (seen : Seen) :
    unitParse m r u word wl seen = unitParse m r' u word wl seen := by
  have hp : startsWith wl (c!"по-") = false := by
    cases hs : startsWith wl (c!"по-") with
    | false => rfl
    | true =>
      have : c!"по-" <+: wl := by simpa [startsWith] using hs
      exact absurd (this.subset (by simp)) hy
  unfold unitParse
  split
  case h_8 => simp [particleSplit, hy]
  case h_9 => simp [adverbShould, hp]
  case h_10 => simp [hyphenParse, hyphenShould, hy]
  case h_11 ps mult k hc =>
    have : possibleSplits ps k wl = [] := by
      rw [List.eq_nil_iff_forall_not_mem]
      rintro ⟨pre, rest⟩ hs
      obtain ⟨h1, h2, h3⟩ := (c42_splits_mem ps k wl pre rest).1 hs
      exact absurd (hk ps mult k hc pre h1 rest h2) (by omega)
    simp [this, prefixCands, mapE]
  all_goals rfl

theorem unitTag_no_nested (m : Morph S) (r r' : Rec S) (u : BUnit S) (word wl : Str) (hy : '-' ∉ wl)
    (hk : ∀ ps x k, u.cfg = .knownPrefix ps x k → ∀ pre ∈ ps, ∀ rest, wl = pre ++ rest → rest.length < k) (seen : SeenTags) :
    unitTag m r u word wl seen = unitTag m r' u word wl seen := by
  have hp : startsWith wl (c!"по-") = false := by
    cases hs : startsWith wl (c!"по-") with
    | false => rfl
    | true =>
      have : c!"по-" <+: wl := by simpa [startsWith] using hs
      exact absurd (this.subset (by simp)) hy
  unfold unitTag
  split
  case h_8 => simp [particleSplit, hy]
  case h_9 => simp [adverbShould, hp]
  case h_10 => simp [hyphenParse, hyphenShould, hy]
  case h_11 ps mult k hc =>
    have : possibleSplits ps k wl = [] := by
      rw [List.eq_nil_iff_forall_not_mem]
      rintro ⟨pre, rest⟩ hs
      obtain ⟨h1, h2, h3⟩ := (c42_splits_mem ps k wl pre rest).1 hs
      exact absurd (hk ps mult k hc pre h1 rest h2) (by omega)
    simp [this, prefixTagCands, mapE]
  all_goals rfl

/-- **C78.** A word without a hyphen that does not consist of a known prefix and three more letters is analyzed without nested calls:
whatever nested calls would do, the answer is the same. -/
theorem c78_no_nested_calls (m : Morph S) (D : RuleData) (hm : (IsRu m ∧ D = ruData) ∨ (IsUk m ∧ D = ukData)) (hlow : m.env.LowerStable) (w : Str)
    (hy : '-' ∉ m.env.lower w) (hk : ∀ pre ∈ D.prefixes, ∀ rest, m.env.lower w = pre ++ rest → rest.length < 3) (r : Rec S) :
    parseStep m r w = m.parse w ∧ tagStep m r w = m.tag w := by
  have hdef : IsRu m ∨ IsUk m := hm.imp And.left And.left
  have hu : ∀ ut ∈ m.units, ∀ ps x k, ut.1.cfg = .knownPrefix ps x k → ps = D.prefixes ∧ k = 3 := by
    rintro ⟨u, t⟩ hu
    rcases hm with ⟨⟨cls, hm⟩, rfl⟩ | ⟨⟨cls, hm⟩, rfl⟩
    all_goals
      obtain ⟨_, _, _, _, hgr⟩ := mkMorph_units hm
      obtain ⟨g, hg, hug⟩ := (mem_of_isGroups hgr u).1 ⟨t, hu⟩
      obtain ⟨g', hg', sp, hsp, he⟩ := mem_boundGroups _ _ g hg u hug
      dsimp only
      rw [he]
      clear he
      revert hsp
      revert sp hg' g'
    · simp [ruUnits, UnitSpec.bound, ruData]
    · simp [ukUnits, UnitSpec.bound, ukData]
  have hkk : ∀ ut ∈ m.units, ∀ ps x k, ut.1.cfg = .knownPrefix ps x k → ∀ pre ∈ ps, ∀ rest, m.env.lower w = pre ++ rest → rest.length < k := by
    intro ut hut ps x k hc pre hp rest he
    obtain ⟨rfl, rfl⟩ := hu ut hut ps x k hc
    exact hk pre hp rest he
  have hp : ∀ (us : List (BUnit S × Bool)), (∀ ut ∈ us, ut ∈ m.units) → ∀ seen res,
      runParse m r w (m.env.lower w) us seen res = runParse m ⟨m.parse, m.tag⟩ w (m.env.lower w) us seen res := by
    intro us
    induction us with
    | nil => intro _ seen res; rfl
    | cons ut us ih =>
      intro hus seen res
      obtain ⟨u, t⟩ := ut
      rw [runParse, runParse, unitParse_no_nested m r ⟨m.parse, m.tag⟩ u w _ hy (hkk (u, t) (hus _ (by simp)))]
      congr 1
      funext x
      dsimp only
      rw [ih fun u hu' => hus u (by simp [hu'])]
  have ht : ∀ (us : List (BUnit S × Bool)), (∀ ut ∈ us, ut ∈ m.units) → ∀ seen res,
      runTag m r w (m.env.lower w) us seen res = runTag m ⟨m.parse, m.tag⟩ w (m.env.lower w) us seen res := by
    intro us
    induction us with
    | nil => intro _ seen res; rfl
    | cons ut us ih =>
      intro hus seen res
      obtain ⟨u, t⟩ := ut
      rw [runTag, runTag, unitTag_no_nested m r ⟨m.parse, m.tag⟩ u w _ hy (hkk (u, t) (hus _ (by simp)))]
      congr 1
      funext x
      dsimp only
      rw [ih fun u hu' => hus u (by simp [hu'])]
  rw [(parse_unfold m hlow (default_properPrefixes m hdef) w).1, (parse_unfold m hlow (default_properPrefixes m hdef) w).2]
  unfold parseStep tagStep
  simp only [hp m.units (fun _ h => h), ht m.units fun _ h => h]
  exact ⟨trivial, trivial⟩

/-! Non-vacuity: for the demo analyzer and t = ъъъ every word on the way is unknown gibberish; кошка has no nested calls. -/

theorem Demo.gibberish (c : Char) (rest : Str) (hc : c = 'н' ∨ c = 'б' ∨ c = 'ъ') (hr : ∀ d ∈ rest, d ∈ c!"небзъ") (hs : 'ъ' ∈ rest) :
    Gibberish Demo.morph (c :: rest) := by
  have hall : ∀ d ∈ c :: rest, d ∈ c!"небзъ" := by
    intro d hd
    rcases List.mem_cons.1 hd with rfl | hd
    · rcases hc with rfl | rfl | rfl <;> decide
    · exact hr d hd
  have hlow : demoEnv.lower (c :: rest) = c :: rest := by
    show (c :: rest).map lowerChar = c :: rest
    conv_rhs => rw [← List.map_id (c :: rest)]
    refine List.map_congr_left fun d hd => ?_
    have h := hall d hd
    revert h
    simp only [List.mem_cons, List.not_mem_nil, or_false]
    rintro (rfl | rfl | rfl | rfl | rfl) <;> decide
  have hnamed : demoEnv.Named (c :: rest) := by
    intro d hd _
    have h := hall d hd
    revert h
    simp only [List.mem_cons, List.not_mem_nil, or_false]
    rintro (rfl | rfl | rfl | rfl | rfl) <;> decide
  obtain ⟨⟨ps, h1, _⟩, ts, h2, _⟩ := c01_total Demo.morph (.inl Demo.morph_isRu) Demo.morph_healthy (c :: rest) hnamed (by
    show demoEnv.Named (demoEnv.lower (c :: rest)); rw [hlow]; exact hnamed)
  exact {
    lower := hlow
    unknown := by
      rw [Bool.eq_false_iff]
      intro hk
      have hk' : Demo.dict.wordIsKnown (c :: rest) (some ruSubst) = true := by
        have h : Demo.dict.wordIsKnown (demoEnv.lower (c :: rest)) (some ruSubst) = true := hk
        rwa [hlow] at h
      obtain ⟨v, r, hv, hr'⟩ := (dict_known_iff _ _ _).1 hk'
      have hno : ∀ x ∈ Demo.dict.words, 'ъ' ∉ x.1 := by decide +kernel
      refine hno _ hr' ?_
      have hgen : ∀ a b : Str, Spells ruSubst a b → 'ъ' ∈ a → 'ъ' ∈ b := by
        intro a b h
        unfold Spells at h
        induction h with
        | nil => exact id
        | cons h1 _ ih =>
          intro hm
          rcases List.mem_cons.1 hm with rfl | hm
          · rcases h1 with rfl | h1
            · simp
            · exact absurd h1 (by simp [ruSubst])
          · exact List.mem_cons_of_mem _ (ih hm)
      exact hgen _ _ hv (List.mem_cons_of_mem _ hs)
    noHyphen := fun h => absurd (hall _ h) (by decide)
    long := by
      have := List.length_pos_of_mem hs
      simp only [List.length_cons]
      omega
    notInt := by rcases hc with rfl | rfl | rfl <;> rfl
    notFloat := by rcases hc with rfl | rfl | rfl <;> exact Bool.noConfusion
    notPunct := by rcases hc with rfl | rfl | rfl <;> rfl
    notRoman := by rcases hc with rfl | rfl | rfl <;> rfl
    notLatin := by rcases hc with rfl | rfl | rfl <;> rfl
    parsed := ⟨ps, h1⟩
    tagged := ⟨ts, h2⟩ }

example (k : Nat) : Gibberish Demo.morph (nebez (c!"ъъъ") k) ∧ Gibberish Demo.morph (c!"без" ++ nebez (c!"ъъъ") k) := by
  have hl : ∀ k, (∀ d ∈ nebez (c!"ъъъ") k, d ∈ c!"небзъ") ∧ 'ъ' ∈ nebez (c!"ъъъ") k := by
    intro k
    induction k with
    | zero => decide
    | succ k ih =>
      refine ⟨fun d hd => ?_, List.mem_append_right _ ih.2⟩
      rcases List.mem_append.1 hd with h | h
      · revert h
        simp only [List.mem_cons, List.not_mem_nil, or_false]
        rintro (rfl | rfl | rfl | rfl | rfl) <;> simp
      · exact ih.1 d h
  constructor
  · cases k with
    | zero => exact Demo.gibberish 'ъ' (c!"ъъ") (by simp) (by decide) (by decide)
    | succ k =>
      refine Demo.gibberish 'н' (c!"ебез" ++ nebez (c!"ъъъ") k) (by simp) ?_ (List.mem_append_right _ (hl k).2)
      intro d hd
      exact (hl (k + 1)).1 d (List.mem_cons_of_mem _ hd)
  · refine Demo.gibberish 'б' (c!"ез" ++ nebez (c!"ъъъ") k) (by simp) ?_ (List.mem_append_right _ (hl k).2)
    intro d hd
    rcases List.mem_append.1 hd with h | h
    · revert h
      simp only [List.mem_cons, List.not_mem_nil, or_false]
      rintro (rfl | rfl) <;> simp
    · exact (hl k).1 d h

example : '-' ∉ Demo.morph.env.lower (c!"Кошка") ∧ (∀ pre ∈ ruData.prefixes, startsWith (Demo.morph.env.lower (c!"Кошка")) pre = false) := by
  decide +kernel

end Verif
