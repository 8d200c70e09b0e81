/-
C01, the limits: Python's recursion limit can be hit by words made of known prefixes; and complete P(t|w) data exists.
-/
import Verif.Props.C01

set_option linter.unusedSectionVars false

namespace Verif

variable {S : Type} [Score S]

/-- не repeated `k` times. -/
def neWord : Nat → Str
  | 0 => []
  | k + 1 => c!"не" ++ neWord k

theorem neWord_length (k : Nat) : (neWord k).length = 2 * k := by
  induction k with
  | zero => rfl
  | succ k ih => simp [neWord, ih]; omega

theorem neWord_chars (k : Nat) : ∀ c ∈ neWord k, c = 'н' ∨ c = 'е' := by
  induction k with
  | zero => simp [neWord]
  | succ k ih =>
    intro c hc
    simp only [neWord, List.cons_append, List.nil_append, List.mem_cons] at hc
    rcases hc with rfl | rfl | hc
    · exact .inl rfl
    · exact .inr rfl
    · exact ih c hc

/-- The interpreter facts about the letters н and е that matter here. -/
structure Env.NePlain (e : Env) : Prop where
  lower : ∀ k, e.lower (neWord k) = neWord k
  notInt : ∀ k, e.isInt (neWord (k + 1)) = false
  notFloat : ∀ k, e.isFloat (neWord (k + 1)) = false
  alpha : e.isAlpha 'н' = true
  name : ∃ n, e.charName 'н' = some n ∧ isSub (c!"LATIN") n = false
  notSpace : e.isSpace 'н' = false
  notPunct : e.isPunct 'н' = false
  fold : e.reFold 'н' ∉ c!"MDCLXVI\n"

theorem lookup_long {V : Type} (d : Dawg V) (sub : Subst) (w : Str) (h : ∀ e ∈ d, e.1.length < w.length) :
    lookup d sub w = [] := by
  rw [List.eq_nil_iff_forall_not_mem]
  rintro ⟨v, r⟩ hm
  obtain ⟨h1, h2⟩ := (mem_lookup d sub w v r).1 hm
  have := h _ h2
  have hl := h1.length_eq
  simp only at this
  omega

theorem reAlt_head (alts : List Str) (k : Str → Bool) (c : Char) (s : Str) (h : ∀ a ∈ alts, a.isPrefixOf (c :: s) = true → a = [])
    (hk : k (c :: s) = false) : reAlt alts k (c :: s) = false := by
  unfold reAlt
  rw [List.any_eq_false]
  intro a ha hc
  rw [Bool.and_eq_true] at hc
  have := h a ha hc.1
  subst this
  simp [hk] at hc

theorem roman_ne (c : Char) (s : Str) (h : c ∉ c!"MDCLXVI\n") : romanMatch (c :: s) = false := by
  have aux : ∀ alts ∈ [romanThousands, romanHundreds, romanTens, romanOnes], ∀ a ∈ alts,
      a.isPrefixOf (c :: s) = true → a = [] := by
    have hall : ∀ alts ∈ [romanThousands, romanHundreds, romanTens, romanOnes], ∀ a ∈ alts, a = [] ∨ ∃ x ∈ a.head?, x ∈ c!"MDCLXVI\n" := by
      decide +kernel
    intro alts h1 a h2 hp
    rcases hall alts h1 a h2 with h3 | ⟨x, hx, hx'⟩
    · exact h3
    · cases a with
      | nil => rfl
      | cons y ys =>
        simp at hx; subst hx
        simp only [List.isPrefixOf, Bool.and_eq_true, beq_iff_eq] at hp
        rw [hp.1] at hx'
        exact absurd hx' h
  unfold romanMatch
  refine reAlt_head _ _ c s (aux _ (by simp)) (reAlt_head _ _ c s (aux _ (by simp)) (reAlt_head _ _ c s (aux _ (by simp))
    (reAlt_head _ _ c s (aux _ (by simp)) ?_)))
  unfold reEnd
  simp only [List.mem_cons, not_or] at h
  cases s with
  | nil => simp [h]
  | cons => simp

theorem mapE_error {α β : Type} (f : α → Except PyErr β) (l : List α) (e : PyErr) (hne : l ≠ [])
    (h : ∀ a ∈ l, f a = .error e) : mapE f l = .error e := by
  cases l with
  | nil => exact absurd rfl hne
  | cons a l => simp [mapE, h a (by simp)]

/-- **C01, the limit.** Whatever budget of nested calls the interpreter grants, the Russian analyzer exceeds it on
some word (не repeated often enough): `parse` raises `RecursionError`. -/
theorem c01_recursion_limit (m : Morph S) (hm : IsRu m) (he : m.env.NePlain) (n : Nat) :
    ∃ w, (analyze m n).parse w = .error .recursionError := by
  obtain ⟨L, hL⟩ : ∃ L, ∀ e ∈ m.dict.words, e.1.length < L := by
    generalize m.dict.words = l
    induction l with
    | nil => exact ⟨0, by simp⟩
    | cons a l ih =>
      obtain ⟨L, hL⟩ := ih
      refine ⟨L + a.1.length + 1, ?_⟩
      intro e he
      rcases List.mem_cons.1 he with rfl | he
      · omega
      · have := hL e he; omega
  obtain ⟨cls, hm⟩ := hm
  obtain ⟨_, _, _, _, hgr⟩ := mkMorph_units hm
  suffices ∀ k, n + L + 3 ≤ k → (analyze m n).parse (neWord k) = .error .recursionError from ⟨_, this _ le_rfl⟩
  induction n with
  | zero => intro k _; rfl
  | succ n ih =>
    intro k hk
    obtain ⟨j, rfl⟩ : ∃ j, k = j + 1 := ⟨k - 1, by omega⟩
    have hlen := neWord_length (j + 1)
    have hcs : neWord (j + 1) = 'н' :: ('е' :: neWord j) := rfl
    have hhy : '-' ∉ neWord (j + 1) := fun h => by rcases neWord_chars _ _ h with h | h <;> simp at h
    have hlet : neWord (j + 1) ∉ ruInitialLetters := by
      intro h
      have hall : ∀ l ∈ ruInitialLetters, l.length = 1 := by decide +kernel
      have := hall _ h; omega
    have hdict : lookup m.dict.words m.sub (neWord (j + 1)) = [] := lookup_long _ _ _ fun e h => by
      have := hL e h; omega
    have hnum : ∀ a b, numberShape m.env a b (neWord (j + 1)) = none := by
      intro a b
      unfold numberShape
      rw [he.notInt j]
      have : (neWord (j + 1)).map (fun c => if c = ',' then '.' else c) = neWord (j + 1) := by
        conv_rhs => rw [← List.map_id (neWord (j + 1))]
        apply List.map_congr_left
        intro c hc
        rcases neWord_chars _ _ hc with rfl | rfl <;> rfl
      rw [this, he.notFloat j]; simp
    have hpun : isPunctuation m.env (neWord (j + 1)) = false := by
      unfold isPunctuation
      rw [hcs]; simp [he.notSpace, he.notPunct]
    have hrom : isRomanNumber m.env (neWord (j + 1)) = false := by
      unfold isRomanNumber
      rw [hcs, if_neg (by simp), List.map_cons]
      exact roman_ne _ _ he.fold
    have hlat : isLatin m.env (neWord (j + 1)) = .ok false := by
      obtain ⟨nm, h1, h2⟩ := he.name
      unfold isLatin
      rw [hcs, if_pos (by simp [he.alpha]), allLatin, if_pos he.alpha]
      simp [isLatinChar, h1, h2]
    have hpart : particleSplit ruParticles (neWord (j + 1)) = none := by
      unfold particleSplit; rw [if_neg hhy]
    have hadv : startsWith (neWord (j + 1)) (c!"по-") = false := by
      rw [hcs]; simp [startsWith, List.isPrefixOf]
    have hhyp : hyphenShould ruKnownPrefixes (neWord (j + 1)) = false := by
      unfold hyphenShould; rw [if_neg hhy]
    have hsplits : ∀ s ∈ possibleSplits ruKnownPrefixes 3 (neWord (j + 1)), s.2 = neWord j := by
      rintro ⟨pre, rest⟩ hs
      obtain ⟨hw, hp, _⟩ := possibleSplits_mem _ _ _ _ _ hs
      have hall : ∀ p ∈ ruKnownPrefixes, (∀ c ∈ p, c = 'н' ∨ c = 'е') → p = c!"не" := by decide +kernel
      have : pre = c!"не" := hall pre hp fun c hc => neWord_chars (j + 1) c (by rw [hw]; simp [hc])
      subst this
      simpa [neWord] using hw.symm
    have hne : possibleSplits ruKnownPrefixes 3 (neWord (j + 1)) ≠ [] := by
      have hmem : (c!"не", neWord j) ∈ possibleSplits ruKnownPrefixes 3 (neWord (j + 1)) := by
        unfold possibleSplits
        rw [List.mem_filter, List.mem_map]
        refine ⟨⟨c!"не", ?_, by simp [neWord]⟩, ?_⟩
        · rw [List.mem_insertionSort]
          have hp : c!"не" ∈ ruKnownPrefixes := by decide +kernel
          have hs : startsWith (neWord (j + 1)) (c!"не") = true := by rw [startsWith_iff]; exact ⟨neWord j, rfl⟩
          unfold matchPrefixes isPrefixed
          rw [if_pos (List.any_eq_true.2 ⟨_, hp, hs⟩), List.mem_filter]
          exact ⟨hp, hs⟩
        · have := neWord_length j
          simp only [decide_eq_true_eq]; omega
      intro h; rw [h] at hmem; simp at hmem
    show parseStep m (analyze m n) (neWord (j + 1)) = _
    unfold parseStep
    dsimp only
    rw [he.lower, runParse_eq_firstGroup _ _ _ _ _ _ hgr]
    have hkp : ∀ (u : UObj) (mult : S), prefixCands u mult (analyze m n).parse
        (possibleSplits ruKnownPrefixes 3 (neWord (j + 1))) = .error .recursionError := by
      intro u mult
      unfold prefixCands
      rw [mapE_error _ _ .recursionError hne]
      · rfl
      · intro s hs
        rw [hsplits s hs, ih j (by omega)]; rfl
    simp [ruUnits, boundGroups, UnitSpec.bound, firstGroup, groupParse, unitParse, dictParse, hdict, mapE, initialsParse,
      hlet, shapeTag, hnum, hpun, hrom, hlat, shapeParse, hpart, adverbShould, hadv, hyphenParse, hhyp, hkp]

theorem demo_nePlain : demoEnv.NePlain where
  lower := by
    intro k
    show (neWord k).map lowerChar = neWord k
    conv_rhs => rw [← List.map_id (neWord k)]
    apply List.map_congr_left
    intro c hc
    rcases neWord_chars _ _ hc with rfl | rfl <;> rfl
  notInt := by intro k; simp [demoEnv, neWord]
  notFloat := by intro k; simp [demoEnv, neWord]
  alpha := by decide
  name := ⟨_, rfl, by decide⟩
  notSpace := by decide
  notPunct := by decide
  fold := by decide

example : ∃ w, (analyze Demo.morph 1000).parse w = .error .recursionError :=
  c01_recursion_limit Demo.morph Demo.morph_isRu demo_nePlain 1000

/-! ### Complete P(t|w) data exists -/

theorem morphP_units : IsGroups (boundGroups (ruUnits (S := Rat)) 0) Demo.morphP.units := by
  obtain ⟨cls, hm⟩ := Demo.morphP_isRu
  exact (mkMorph_units hm).2.2.2.2

theorem demo_lower_length (w : Str) : (demoEnv.lower w).length = w.length := List.length_map ..

theorem Demo.morphP_collected (w : Str) (hw : demoEnv.lower w = c!"кошка") :
    ∃ p, Demo.morphP.collected w = .ok [p] := by
  unfold Morph.collected
  have e : Demo.morphP.env.lower w = c!"кошка" := hw
  rw [e, runParse_eq_firstGroup _ _ _ _ _ _ morphP_units]
  have hlet : w ∉ ruInitialLetters := by
    intro h
    have hall : ∀ l ∈ ruInitialLetters, l.length = 1 := by decide +kernel
    have h1 := hall _ h
    have h2 := demo_lower_length w
    rw [hw, h1] at h2
    simp at h2
  obtain ⟨p, hp⟩ : ∃ p, dictParse Demo.morphP ⟨0, .dict⟩ (c!"кошка") = .ok [p] := by
    have : (dictParse Demo.morphP ⟨0, .dict⟩ (c!"кошка")).toOption.map List.length = some 1 := by decide +kernel
    cases h : dictParse Demo.morphP ⟨0, .dict⟩ (c!"кошка") with
    | error e => rw [h] at this; simp [Except.toOption] at this
    | ok l =>
      rw [h] at this
      simp only [Except.toOption, Option.map_some, Option.some.injEq] at this
      obtain ⟨p, rfl⟩ := List.length_eq_one_iff.1 this
      exact ⟨p, rfl⟩
  have hp' : dictParse Demo.morphP (BUnit.obj (⟨0, .dictionary⟩ : BUnit Rat)) (c!"кошка") = .ok [p] := hp
  refine ⟨p, ?_⟩
  have : boundGroups (ruUnits (S := Rat)) 0 = (boundGroups (ruUnits (S := Rat)) 0).head (by simp [ruUnits, boundGroups]) ::
      (boundGroups (ruUnits (S := Rat)) 0).tail := by simp
  rw [this, firstGroup]
  have hg : groupParse Demo.morphP ⟨Demo.morphP.parse, Demo.morphP.tag⟩ w (c!"кошка")
      ((boundGroups (ruUnits (S := Rat)) 0).head (by simp [ruUnits, boundGroups])) [] = .ok [p] := by
    simp only [ruUnits, boundGroups, List.head_cons, UnitSpec.bound, List.mapIdx_cons, List.mapIdx_nil, groupParse,
      unitParse, initialsParse, if_neg hlet]
    rw [hp']; rfl
  rw [hg]; rfl

theorem append_sep_inj (c : Char) (a b x y : Str) (h : a ++ c :: x = b ++ c :: y) (hb : c ∉ b) (hy : c ∉ y) : a = b := by
  induction b generalizing a with
  | nil =>
    cases a with
    | nil => rfl
    | cons z a =>
      simp at h
      exact absurd (by rw [← h.2]; simp) hy
  | cons z b ih =>
    simp only [List.mem_cons, not_or] at hb
    cases a with
    | nil => simp at h; exact absurd h.1 hb.1
    | cons z' a =>
      simp only [List.cons_append, List.cons.injEq] at h
      obtain ⟨rfl, h⟩ := h
      rw [ih a h hb.2]

/-- The demo analyzer with P(t|w) data for кошка meets the hypotheses of `c01_total`. -/
theorem Demo.morphP_healthy : Healthy Demo.morphP where
  low := demoEnv_lowerStable
  wf := Demo.dict_wf
  known := by decide +kernel
  data := by
    intro dawg hd w res hres p hp q hq hpos
    have hd : [(c!"кошка:NOUN,anim,femn sing,nomn", 700000)] = dawg := by simpa [Demo.morphP] using hd
    subst hd
    have hkey : probKey (Demo.morphP.env.lower w) p.tag = c!"кошка" ++ ':' :: c!"NOUN,anim,femn sing,nomn" := by
      by_contra hc
      have h0 : dictGet (probKey (Demo.morphP.env.lower w) p.tag)
          [((c!"кошка:NOUN,anim,femn sing,nomn" : Str), 700000)] = (none : Option Nat) := by
        simp only [dictGet]
        rw [if_neg]
        intro h; exact hc h.symm
      have : prob [((c!"кошка:NOUN,anim,femn sing,nomn" : Str), 700000)] (Demo.morphP.env.lower w) p.tag = (0 : Rat) := by
        unfold prob; rw [h0]; simp [Score.div, Score.ofNat]
      rw [this] at hpos; exact lt_irrefl _ hpos
    have hw : demoEnv.lower w = c!"кошка" := append_sep_inj ':' _ _ _ _ hkey (by decide) (by decide)
    obtain ⟨p', hp'⟩ := Demo.morphP_collected w hw
    rw [hp'] at hres
    simp at hres; subst hres
    simp at hp hq; rw [hq, ← hp]; exact hpos

end Verif
