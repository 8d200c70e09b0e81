/-
C79 — for known words the answer is exactly what the source dictionary says about them.
-/
import Verif.Props.C72

set_option linter.unusedSectionVars false

namespace Verif

variable {S : Type} [Score S]

/-! ### Specification -/

/-- `w` occurs at position `i` of the lexeme `L`: the word there is a spelling of it. -/
def OccursAt (sub : Subst) (w : Str) (L : Lexeme) (i : Nat) : Prop := ∃ v t, L[i]? = some (v, t) ∧ Spells sub w v

/-- `w` occurs in the lexeme `L`. -/
def OccursIn (sub : Subst) (w : Str) (L : Lexeme) : Prop := ∃ f ∈ L, Spells sub w f.1

/-- The result `p` is the form at position `i` of the source lexeme `L`: it has its word and tag, the first word of `L` is the normal form, and
`p.lexeme` lists the words and tags of `L` in order. -/
structure IsFormOf (m : Morph S) (p : Parse S) (L : Lexeme) (i : Nat) : Prop where
  form : L[i]? = some (p.word, p.tag.str)
  normal : L.head?.map Prod.fst = some p.nf
  lexeme : ∃ fs, m.lexeme p = .ok fs ∧ fs.map (fun f => (f.word, f.tag.str)) = L

/-- Two results, possibly of different analyzers, that say the same about the word. -/
structure SaySame (m m' : Morph S) (p q : Parse S) : Prop where
  word : p.word = q.word
  tag : p.tag = q.tag
  normal : p.nf = q.nf
  lexeme : ∃ fs gs, m.lexeme p = .ok fs ∧ m'.lexeme q = .ok gs ∧ fs.map (fun f => (f.word, f.tag)) = gs.map (fun f => (f.word, f.tag))

/-- The dictionary results. -/
def fromDict (ps : List (Parse S)) : List (Parse S) := ps.filter fun p => p.dictEntry.isSome

/-! ### Proof -/

theorem forall₂_choose {α β : Type} {R : α → β → Prop} : ∀ (l : List α), (∀ a ∈ l, ∃ b, R a b) → ∃ ys, List.Forall₂ R l ys
  | [], _ => ⟨[], .nil⟩
  | a :: l, h => by
    obtain ⟨b, hb⟩ := h a (by simp)
    obtain ⟨ys, hys⟩ := forall₂_choose l fun x hx => h x (by simp [hx])
    exact ⟨b :: ys, .cons hb hys⟩

theorem filterMap_fromDict (ps : List (Parse S)) : (fromDict ps).map Parse.dictEntry = (ps.filterMap Parse.dictEntry).map some := by
  induction ps with
  | nil => rfl
  | cons p ps ih =>
    unfold fromDict at *
    cases h : p.dictEntry <;> simp [h, ih]

theorem entry_stack (q : Parse S) (v : Str) (k i : Nat) (hq : q.dictEntry = some (v, k, i)) : ∃ u, q.stack = .single (.dict u v k i) := by
  unfold Parse.dictEntry at hq
  split at hq
  · next u v' k' i' hst =>
    simp only [Option.some.injEq, Prod.mk.injEq] at hq
    obtain ⟨rfl, rfl, rfl⟩ := hq
    exact ⟨u, hst⟩
  · simp at hq

theorem exact_core {I : Type} [DecidableEq I] (num : I → Int) (bw : DawgBuild (Nat × Nat)) (bp : DawgBuild (Nat × Nat × Nat))
    (o : COptions) (src : Parsed I) (c : Compiled) (hc : compileParsed num bw bp o src = .ok c)
    (m : Morph S) (hm : m.LooksUp) (hlow : m.env.LowerStable) (hs : m.sub.Proper) (hd : m.dict = c.toDict)
    (w : Str) (ps : List (Parse S)) (h : m.parse w = .ok ps) :
    ∃ ls, joinLexemes num src = .ok ls ∧ ∃ occ : List (Lexeme × Nat), occ.Nodup ∧
      (∀ L i, (L, i) ∈ occ ↔ L ∈ ls ∧ OccursAt m.sub (m.env.lower w) L i) ∧
      List.Forall₂ (fun p x => IsFormOf m p x.1 x.2) (fromDict ps) occ := by
  obtain ⟨ls, h1, h2⟩ := compile_split hc
  have hwf := c30_sound bw bp o ls c h2
  obtain ⟨s, _, _, T, hw, hnd⟩ := tables_of bw bp o ls c h2
  refine ⟨ls, h1, ?_⟩
  have hfind := hm.lookup w ps h
  -- the entry of an occurrence
  let kOf : Lexeme → Nat := fun L => match toParadigm L o.paradigmPrefixes with
    | .ok sp => (dictGet sp.2 s.paraIds).getD 0
    | .error _ => 0
  have hkOf : ∀ L k, IsPara o.paradigmPrefixes s L k → kOf L = k := by
    rintro L k ⟨stem, P, hP, hPk⟩
    simp only [kOf, hP, hPk, Option.getD_some]
  let g : Lexeme × Nat → Str × Nat × Nat := fun x => (((x.1[x.2]?).map Prod.fst).getD [], kOf x.1, x.2)
  have key : ∀ p ∈ fromDict ps, ∃ x : Lexeme × Nat, IsFormOf m p x.1 x.2 ∧ x.1 ∈ ls ∧ OccursAt m.sub (m.env.lower w) x.1 x.2 ∧
      p.dictEntry = some (g x) := by
    intro p hp
    obtain ⟨hp, hk⟩ := List.mem_filter.1 hp
    obtain ⟨⟨v, k, i⟩, hent⟩ := Option.isSome_iff_exists.1 hk
    obtain ⟨hsp, hmem⟩ := (hfind v k i).1 ⟨p, hp, hent⟩
    rw [hd] at hmem
    obtain ⟨L, hL, stem, P, hP, hPk, r, hr, he⟩ := (T.inv.words _).1 ((hw _).1 hmem)
    dsimp only at he hr hPk
    have hpara : IsPara o.paradigmPrefixes s L k := ⟨stem, P, hP, hPk⟩
    have H := holds_of T hw hL hpara
    have hi : L[i]? = some (v, r.2.1) := by rw [lexeme_get hP, hr, he]; rfl
    obtain ⟨u, hst⟩ := entry_stack p v k i hent
    obtain rfl := hm.unit w ps h p hp u v k i hst
    obtain ⟨e1, e2, e3⟩ := (parse_deriv m hlow _ ps h p hp).entry hst
    rw [hd, H.tag _ _ _ hi, Except.ok.injEq] at e3
    obtain ⟨w0, t0, hw0, hn⟩ := H.normal _ _ _ hi
    rw [hd, hn, Except.ok.injEq] at e2
    refine ⟨(L, i), ⟨?_, ?_, lexeme_of m T hd hwf hpara hi ⟨0, .dict⟩ rfl p e1 hst⟩, hL, ⟨v, r.2.1, hi, hsp⟩, ?_⟩
    · dsimp only; rw [hi, e1, ← e3]
    · dsimp only; rw [List.head?_eq_getElem?, hw0, ← e2]; rfl
    · rw [hent]
      simp only [g, hi, Option.map_some, Option.getD_some, hkOf L k hpara]
  obtain ⟨occ, hocc⟩ := forall₂_choose (fromDict ps) key
  refine ⟨occ, ?_, ?_, hocc.imp fun _ _ h => h.1⟩
  · have hmap : (fromDict ps).map Parse.dictEntry = occ.map fun x => some (g x) := by
      have : ∀ (a : List (Parse S)) (b : List (Lexeme × Nat)), List.Forall₂ (fun p x => IsFormOf m p x.1 x.2 ∧ x.1 ∈ ls ∧
          OccursAt m.sub (m.env.lower w) x.1 x.2 ∧ p.dictEntry = some (g x)) a b → a.map Parse.dictEntry = b.map fun x => some (g x) := by
        intro a b hab
        induction hab with
        | nil => rfl
        | cons h1 _ ih => simp [ih, h1.2.2.2]
      exact this _ _ hocc
    rw [filterMap_fromDict] at hmap
    have hn := hm.once (by rw [hd]; exact hnd) hs w ps h
    have : (occ.map fun x => some (g x)).Nodup := by
      rw [← hmap]
      exact hn.map (fun a b h => Option.some.inj h)
    exact this.of_map _
  · intro L i
    constructor
    · intro hx
      obtain ⟨p, _, hr⟩ := forall₂_mem_right hocc hx
      exact ⟨hr.2.1, hr.2.2.1⟩
    · rintro ⟨hL, v, t, hi, hsp⟩
      obtain ⟨stem, P, k, h3, h4⟩ := T.inv.has L hL
      have hpara : IsPara o.paradigmPrefixes s L k := ⟨stem, P, h3, h4⟩
      have H := holds_of T hw hL hpara
      obtain ⟨p, hp, hent⟩ := (hfind v k i).2 ⟨hsp, by rw [hd]; exact H.stored i v t hi⟩
      obtain ⟨u, hst⟩ := entry_stack p v k i hent
      obtain rfl := hm.unit w ps h p hp u v k i hst
      obtain ⟨e1, _, _⟩ := (parse_deriv m hlow _ ps h p hp).entry hst
      obtain ⟨fs, hfs, hmapL⟩ := lexeme_of m T hd hwf hpara hi ⟨0, .dict⟩ rfl p e1 hst
      obtain ⟨⟨L', i'⟩, hx, hr⟩ := forall₂_mem_left hocc (a := p) (by simp [fromDict, hp, hent])
      obtain ⟨fs', hfs', hmapL'⟩ := hr.1.lexeme
      rw [hfs, Except.ok.injEq] at hfs'
      subst hfs'
      have hi' : i' = i := by
        have := hr.2.2.2
        rw [hent] at this
        simp only [g, Option.some.injEq, Prod.mk.injEq] at this
        exact this.2.2.symm
      dsimp only at hmapL'
      rw [hmapL] at hmapL'
      rw [hmapL', ← hi']
      exact hx

/-- **C79.** Over a compiled dictionary the dictionary results of `parse(w)` correspond one to one to the occurrences of `w` in the (linked) lexemes of the
source: each occurrence, in each different lexeme, is returned exactly once, and nothing else. -/
theorem c79_exact {I : Type} [DecidableEq I] (num : I → Int) (bw : DawgBuild (Nat × Nat)) (bp : DawgBuild (Nat × Nat × Nat))
    (o : COptions) (src : Parsed I) (c : Compiled) (hc : compileParsed num bw bp o src = .ok c)
    (m : Morph S) (hm : IsRu m ∨ IsUk m) (hlow : m.env.LowerStable) (hs : m.sub.Proper) (hd : m.dict = c.toDict)
    (w : Str) (ps : List (Parse S)) (h : m.parse w = .ok ps) :
    ∃ ls, joinLexemes num src = .ok ls ∧ ∃ occ : List (Lexeme × Nat), occ.Nodup ∧
      (∀ L i, (L, i) ∈ occ ↔ L ∈ ls ∧ OccursAt m.sub (m.env.lower w) L i) ∧
      List.Forall₂ (fun p x => IsFormOf m p x.1 x.2) (fromDict ps) occ :=
  exact_core num bw bp o src c hc m (default_looksUp m hm) hlow hs hd w ps h

/-- The dictionary knows `w` exactly if it occurs in a source lexeme. -/
theorem c79_known {I : Type} [DecidableEq I] (num : I → Int) (bw : DawgBuild (Nat × Nat)) (bp : DawgBuild (Nat × Nat × Nat))
    (o : COptions) (src : Parsed I) (c : Compiled) (hc : compileParsed num bw bp o src = .ok c) (m : Morph S) (hd : m.dict = c.toDict) (w : Str) :
    ∃ ls, joinLexemes num src = .ok ls ∧ (m.wordIsKnown w = true ↔ ∃ L ∈ ls, OccursIn m.sub (m.env.lower w) L) := by
  obtain ⟨ls, h1, h2⟩ := compile_split hc
  obtain ⟨s, _, _, T, hw, hnd⟩ := tables_of bw bp o ls c h2
  refine ⟨ls, h1, ?_⟩
  rw [known_iff]
  constructor
  · intro h
    obtain ⟨⟨v, k, i⟩, hx⟩ := List.exists_mem_of_ne_nil _ h
    obtain ⟨hsp, hmem⟩ := (mem_lookup _ _ _ _ _).1 hx
    rw [hd] at hmem
    obtain ⟨L, hL, stem, P, hP, hPk, r, hr, he⟩ := (T.inv.words _).1 ((hw _).1 hmem)
    dsimp only at he hr hPk
    have hi : L[i]? = some (v, r.2.1) := by rw [lexeme_get hP, hr, he]; rfl
    exact ⟨L, hL, _, List.mem_of_getElem? hi, hsp⟩
  · rintro ⟨L, hL, ⟨v, t⟩, hf, hsp⟩
    obtain ⟨i, hi⟩ := List.mem_iff_getElem?.1 hf
    obtain ⟨stem, P, k, h3, h4⟩ := T.inv.has L hL
    have H := holds_of T hw hL ⟨stem, P, h3, h4⟩
    exact List.ne_nil_of_mem ((mem_lookup _ _ _ _ (k, i)).2 ⟨hsp, by rw [hd]; exact H.stored i v t hi⟩)

theorem occursIn_of_at {sub : Subst} {w : Str} {L : Lexeme} {i : Nat} (h : OccursAt sub w L i) : OccursIn sub w L := by
  obtain ⟨v, t, h1, h2⟩ := h
  exact ⟨(v, t), List.mem_of_getElem? h1, h2⟩

theorem map_pair_str (a b : List (Parse S)) (h : a.map (fun f => (f.word, f.tag.str)) = b.map (fun f => (f.word, f.tag.str))) :
    a.map (fun f => (f.word, f.tag)) = b.map (fun f => (f.word, f.tag)) := by
  have e : ∀ l : List (Parse S), l.map (fun f => (f.word, f.tag)) = (l.map fun f => (f.word, f.tag.str)).map fun x => (x.1, Tag.mk x.2) := by
    intro l; simp
  rw [e a, e b, h]

theorem forall₂_perm_right {α β : Type} {R : α → β → Prop} {l : List α} {b b' : List β} (h : List.Forall₂ R l b) (hp : b.Perm b') :
    ∃ l', l.Perm l' ∧ List.Forall₂ R l' b' := by
  induction hp generalizing l with
  | nil => exact ⟨l, .refl _, h⟩
  | cons x _ ih =>
    cases h with
    | cons h1 h2 =>
      obtain ⟨l', g1, g2⟩ := ih h2
      exact ⟨_, g1.cons _, .cons h1 g2⟩
  | swap x y _ =>
    cases h with
    | cons h1 h2 =>
      cases h2 with
      | cons h2 h3 => exact ⟨_, .swap _ _ _, .cons h2 (.cons h1 h3)⟩
  | trans _ _ ih1 ih2 =>
    obtain ⟨l1, g1, g2⟩ := ih1 h
    obtain ⟨l2, g3, g4⟩ := ih2 g2
    exact ⟨l2, g1.trans g3, g4⟩

theorem local_core {I J : Type} [DecidableEq I] [DecidableEq J] (num : I → Int) (num' : J → Int) (bw bw' : DawgBuild (Nat × Nat))
    (bp bp' : DawgBuild (Nat × Nat × Nat)) (o o' : COptions) (src : Parsed I) (src' : Parsed J) (c c' : Compiled)
    (hc : compileParsed num bw bp o src = .ok c) (hc' : compileParsed num' bw' bp' o' src' = .ok c')
    (m m' : Morph S) (hm : m.LooksUp) (hm' : m'.LooksUp) (henv : m'.env = m.env) (hsub : m'.sub = m.sub)
    (hlow : m.env.LowerStable) (hs : m.sub.Proper) (hd : m.dict = c.toDict) (hd' : m'.dict = c'.toDict)
    (ls ls' : List Lexeme) (hj : joinLexemes num src = .ok ls) (hj' : joinLexemes num' src' = .ok ls')
    (w : Str) (hsame : ∀ L, OccursIn m.sub (m.env.lower w) L → (L ∈ ls ↔ L ∈ ls')) :
    m'.wordIsKnown w = m.wordIsKnown w ∧
    ∀ ps ps', m.parse w = .ok ps → m'.parse w = .ok ps' → ∃ qs, (fromDict ps).Perm qs ∧ List.Forall₂ (SaySame m m') qs (fromDict ps') := by
  constructor
  · obtain ⟨l1, e1, k1⟩ := c79_known num bw bp o src c hc m hd w
    obtain ⟨l2, e2, k2⟩ := c79_known num' bw' bp' o' src' c' hc' m' hd' w
    rw [hj, Except.ok.injEq] at e1
    rw [hj', Except.ok.injEq] at e2
    subst e1; subst e2
    rw [Bool.eq_iff_iff, k1, k2, henv, hsub]
    constructor
    · rintro ⟨L, hL, ho⟩; exact ⟨L, (hsame L ho).2 hL, ho⟩
    · rintro ⟨L, hL, ho⟩; exact ⟨L, (hsame L ho).1 hL, ho⟩
  · intro ps ps' h h'
    obtain ⟨l1, e1, occ, n1, m1, f1⟩ := exact_core num bw bp o src c hc m hm hlow hs hd w ps h
    obtain ⟨l2, e2, occ', n2, m2, f2⟩ := exact_core num' bw' bp' o' src' c' hc' m' hm' (henv ▸ hlow) (hsub ▸ hs) hd' w ps' h'
    rw [hj, Except.ok.injEq] at e1
    rw [hj', Except.ok.injEq] at e2
    subst e1; subst e2
    have hperm : occ.Perm occ' := by
      rw [List.perm_ext_iff_of_nodup n1 n2]
      rintro ⟨L, i⟩
      rw [m1, m2, henv, hsub]
      constructor
      · rintro ⟨hL, ho⟩; exact ⟨(hsame L (occursIn_of_at ho)).1 hL, ho⟩
      · rintro ⟨hL, ho⟩; exact ⟨(hsame L (occursIn_of_at ho)).2 hL, ho⟩
    obtain ⟨qs, hq, hf⟩ := forall₂_perm_right f1 hperm
    refine ⟨qs, hq, ?_⟩
    clear m1 m2 n1 n2 f1 hq hperm h h'
    generalize fromDict ps' = qs' at f2 ⊢
    induction hf generalizing qs' with
    | nil => cases f2; exact .nil
    | cons a1 _ ih =>
      cases f2 with
      | cons b1 b2 =>
        refine .cons ?_ (ih _ b2)
        have hx := a1.form.symm.trans b1.form
        simp only [Option.some.injEq, Prod.mk.injEq] at hx
        have hn := a1.normal.symm.trans b1.normal
        simp only [Option.some.injEq] at hn
        obtain ⟨fs, g1, g2⟩ := a1.lexeme
        obtain ⟨gs, g3, g4⟩ := b1.lexeme
        refine ⟨hx.1, congrArg Tag.mk hx.2, hn, fs, gs, g1, g3, map_pair_str _ _ (g2.trans g4.symm)⟩

/-- **C79, locality.** Two compiled dictionaries (any sources, any options) whose sources have the same lexemes with the word `w` give the same
dictionary results for it, up to order: same words, tags, normal forms and lexemes. -/
theorem c79_local {I J : Type} [DecidableEq I] [DecidableEq J] (num : I → Int) (num' : J → Int) (bw bw' : DawgBuild (Nat × Nat))
    (bp bp' : DawgBuild (Nat × Nat × Nat)) (o o' : COptions) (src : Parsed I) (src' : Parsed J) (c c' : Compiled)
    (hc : compileParsed num bw bp o src = .ok c) (hc' : compileParsed num' bw' bp' o' src' = .ok c')
    (m m' : Morph S) (hm : IsRu m ∨ IsUk m) (hm' : IsRu m' ∨ IsUk m') (henv : m'.env = m.env) (hsub : m'.sub = m.sub)
    (hlow : m.env.LowerStable) (hs : m.sub.Proper) (hd : m.dict = c.toDict) (hd' : m'.dict = c'.toDict)
    (ls ls' : List Lexeme) (hj : joinLexemes num src = .ok ls) (hj' : joinLexemes num' src' = .ok ls')
    (w : Str) (hsame : ∀ L, OccursIn m.sub (m.env.lower w) L → (L ∈ ls ↔ L ∈ ls')) :
    m'.wordIsKnown w = m.wordIsKnown w ∧
    ∀ ps ps', m.parse w = .ok ps → m'.parse w = .ok ps' → ∃ qs, (fromDict ps).Perm qs ∧ List.Forall₂ (SaySame m m') qs (fromDict ps') :=
  local_core num num' bw bw' bp bp' o o' src src' c c' hc hc' m m' (default_looksUp m hm) (default_looksUp m' hm') henv hsub hlow hs hd hd' ls ls' hj hj' w hsame

/-! ### Adding lexemes to the source -/

theorem dictGet_append {I β : Type} [DecidableEq I] (k : I) (v : β) (a b : List (I × β)) (h : dictGet k a = some v) : dictGet k (a ++ b) = some v := by
  induction a with
  | nil => simp [dictGet] at h
  | cons x a ih =>
    simp only [dictGet, List.cons_append] at h ⊢
    split at h
    · next hx => simp only [hx, if_true]; exact h
    · next hx => simp only [hx, if_false]; exact ih h

theorem dictSet_append {I β : Type} [DecidableEq I] (k : I) (v u : β) (a b : List (I × β)) (h : dictGet k a = some v) :
    dictSet k u (a ++ b) = dictSet k u a ++ b := by
  induction a with
  | nil => simp [dictGet] at h
  | cons x a ih =>
    simp only [dictGet, dictSet, List.cons_append] at h ⊢
    split at h
    · next hx => simp [hx]
    · next hx => simp only [hx, if_false, List.cons_append]; rw [ih h]

theorem moveLexeme_append {I : Type} [DecidableEq I] (a b : List (I × Lexeme)) (mv : List (I × I)) (x y : I) (a' : List (I × Lexeme)) (mv' : List (I × I))
    (h : moveLexeme (a, mv) x y = .ok (a', mv')) : moveLexeme (a ++ b, mv) x y = .ok (a' ++ b, mv') := by
  unfold moveLexeme at h ⊢
  dsimp only at h ⊢
  cases hx : dictGet x a with
  | none => simp [hx] at h
  | some lm =>
    rw [dictGet_append x lm a b hx]
    rw [hx] at h
    dsimp only at h ⊢
    cases hr : resolve mv y with
    | none => simp [hr] at h
    | some root =>
      rw [hr] at h
      dsimp only at h ⊢
      cases ht : dictGet root a with
      | none => simp [ht] at h
      | some target =>
        rw [dictGet_append root target a b ht]
        rw [ht] at h
        simp only [Except.ok.injEq, Prod.mk.injEq] at h ⊢
        obtain ⟨rfl, rfl⟩ := h
        refine ⟨?_, rfl⟩
        rw [dictSet_append root target _ a b ht]
        by_cases hxr : x = root
        · subst hxr
          exact dictSet_append x (target ++ lm) _ _ b (by rw [dictGet_dictSet]; simp)
        · exact dictSet_append x lm _ _ b (by rw [dictGet_dictSet]; simp [hxr, hx])

theorem joinLoop_append {I : Type} [DecidableEq I] (links : List (I × I × Str)) (a b : List (I × Lexeme)) (mv : List (I × I))
    (a' : List (I × Lexeme)) (mv' : List (I × I)) (h : joinLoop links (a, mv) = .ok (a', mv')) : joinLoop links (a ++ b, mv) = .ok (a' ++ b, mv') := by
  induction links generalizing a mv with
  | nil => simp only [joinLoop, Except.ok.injEq, Prod.mk.injEq] at h ⊢; exact ⟨by rw [h.1], h.2⟩
  | cons l links ih =>
    obtain ⟨x, y, t⟩ := l
    unfold joinLoop at h ⊢
    split at h
    · next ht => simp only [ht, if_true]; exact ih a mv h
    · next ht =>
      simp only [ht, if_false]
      cases hm : moveLexeme (a, mv) y x with
      | error e => simp [hm] at h
      | ok st =>
        rw [hm] at h
        rw [moveLexeme_append a b mv y x st.1 st.2 hm]
        exact ih st.1 st.2 h

/-- Lexemes appended to a source that can be joined, without new links, are joined with nothing. -/
theorem join_added {I : Type} [DecidableEq I] (num : I → Int) (src : Parsed I) (extra : List (I × Lexeme)) (ls : List Lexeme)
    (h : joinLexemes num src = .ok ls) : ∃ ls', joinLexemes num { src with lexemes := src.lexemes ++ extra } = .ok ls' ∧
      ∀ L, L ∈ ls' ↔ L ∈ ls ∨ ((∃ i, (i, L) ∈ extra) ∧ L ≠ []) := by
  unfold joinLexemes at h ⊢
  cases hj : joinLoop src.links (src.lexemes, []) with
  | error e => simp [hj] at h
  | ok st =>
    rw [hj] at h
    simp only [Except.ok.injEq] at h
    dsimp only
    rw [joinLoop_append src.links src.lexemes extra [] st.1 st.2 hj]
    refine ⟨_, rfl, fun L => ?_⟩
    rw [← h]
    have hp : ∀ (l : List (I × Lexeme)), L ∈ ((l.insertionSort fun a b => num a.1 ≤ num b.1).map Prod.snd).filter (· ≠ []) ↔
        (∃ i, (i, L) ∈ l) ∧ L ≠ [] := by
      intro l
      simp only [List.mem_filter, List.mem_map, List.mem_insertionSort, decide_eq_true_eq, Prod.exists]
      constructor
      · rintro ⟨⟨a, b, h1, rfl⟩, h2⟩; exact ⟨⟨a, h1⟩, h2⟩
      · rintro ⟨⟨a, h1⟩, h2⟩; exact ⟨⟨a, L, h1, rfl⟩, h2⟩
    rw [hp, hp]
    simp only [List.mem_append]
    constructor
    · rintro ⟨⟨i, h1 | h1⟩, h2⟩
      · exact .inl ⟨⟨i, h1⟩, h2⟩
      · exact .inr ⟨⟨i, h1⟩, h2⟩
    · rintro (⟨⟨i, h1⟩, h2⟩ | ⟨⟨i, h1⟩, h2⟩)
      · exact ⟨⟨i, .inl h1⟩, h2⟩
      · exact ⟨⟨i, .inr h1⟩, h2⟩

theorem added_core {I : Type} [DecidableEq I] (num : I → Int) (bw : DawgBuild (Nat × Nat)) (bp : DawgBuild (Nat × Nat × Nat)) (o : COptions)
    (src : Parsed I) (extra : List (I × Lexeme)) (c c' : Compiled) (hc : compileParsed num bw bp o src = .ok c)
    (hc' : compileParsed num bw bp o { src with lexemes := src.lexemes ++ extra } = .ok c')
    (m m' : Morph S) (hm : m.LooksUp) (hm' : m'.LooksUp) (henv : m'.env = m.env) (hsub : m'.sub = m.sub)
    (hlow : m.env.LowerStable) (hs : m.sub.Proper) (hd : m.dict = c.toDict) (hd' : m'.dict = c'.toDict)
    (w : Str) (hno : ∀ x ∈ extra, ¬ OccursIn m.sub (m.env.lower w) x.2) :
    m'.wordIsKnown w = m.wordIsKnown w ∧
    ∀ ps ps', m.parse w = .ok ps → m'.parse w = .ok ps' → ∃ qs, (fromDict ps).Perm qs ∧ List.Forall₂ (SaySame m m') qs (fromDict ps') := by
  obtain ⟨ls, h1, _⟩ := compile_split hc
  obtain ⟨ls', h2, h3⟩ := join_added num src extra ls h1
  refine local_core num num bw bw bp bp o o src _ c c' hc hc' m m' hm hm' henv hsub hlow hs hd hd' ls ls' h1 h2 w fun L ho => ?_
  rw [h3]
  refine ⟨.inl, ?_⟩
  rintro (h | ⟨⟨i, h⟩, _⟩)
  · exact h
  · exact absurd ho (hno _ h)

/-- **C79, growing the dictionary.** Adding lexemes to the source changes nothing in the dictionary results for words that do not occur in them: the
words stay known or unknown, and the results are the same up to order. -/
theorem c79_added {I : Type} [DecidableEq I] (num : I → Int) (bw : DawgBuild (Nat × Nat)) (bp : DawgBuild (Nat × Nat × Nat)) (o : COptions)
    (src : Parsed I) (extra : List (I × Lexeme)) (c c' : Compiled) (hc : compileParsed num bw bp o src = .ok c)
    (hc' : compileParsed num bw bp o { src with lexemes := src.lexemes ++ extra } = .ok c')
    (m m' : Morph S) (hm : IsRu m ∨ IsUk m) (hm' : IsRu m' ∨ IsUk m') (henv : m'.env = m.env) (hsub : m'.sub = m.sub)
    (hlow : m.env.LowerStable) (hs : m.sub.Proper) (hd : m.dict = c.toDict) (hd' : m'.dict = c'.toDict)
    (w : Str) (hno : ∀ x ∈ extra, ¬ OccursIn m.sub (m.env.lower w) x.2) :
    m'.wordIsKnown w = m.wordIsKnown w ∧
    ∀ ps ps', m.parse w = .ok ps → m'.parse w = .ok ps' → ∃ qs, (fromDict ps).Perm qs ∧ List.Forall₂ (SaySame m m') qs (fromDict ps') :=
  added_core num bw bp o src extra c c' hc hc' m m' (default_looksUp m hm) (default_looksUp m' hm') henv hsub hlow hs hd hd' w hno

/-! ### Non-vacuity, and the limit -/

/-- The first two lexemes of `Demo.source72`, and the other three. -/
def Demo.source79 : Parsed Nat := { Demo.source72 with lexemes := Demo.source72.lexemes.take 2 }

def Demo.extra79 : List (Nat × Lexeme) := Demo.source72.lexemes.drop 2

def Demo.compiled79 : Except Fail Compiled := compileParsed (fun n : Nat => (n : Int)) dedupBuild dedupBuild Demo.copts72 Demo.source79

/-- The normal forms of the results. -/
def Demo.nfs (m : Morph Rat) (w : Str) : List Str := match m.parse w with
  | .ok ps => ps.map Parse.nf
  | .error _ => []

/-- Both sources compile, кошке does not occur in the added lexemes and is known in both dictionaries.  For an unknown word the additions matter:
ложке is predicted to be a form of ложка before, of ложки after. -/
theorem c79_predictions_change : ∃ c c', Demo.compiled79 = .ok c ∧ Demo.compiled72 = .ok c' ∧
    Demo.source72 = { Demo.source79 with lexemes := Demo.source79.lexemes ++ Demo.extra79 } ∧
    IsRu { Demo.morph with dict := c.toDict } ∧ IsRu { Demo.morph with dict := c'.toDict } ∧ Demo.morph.sub.Proper ∧ Demo.morph.env.LowerStable ∧
    (∀ x ∈ Demo.extra79, ¬ OccursIn Demo.morph.sub (Demo.morph.env.lower (c!"Кошке")) x.2) ∧
    (∀ x ∈ Demo.extra79, ¬ OccursIn Demo.morph.sub (Demo.morph.env.lower (c!"ложке")) x.2) ∧
    Demo.nfs { Demo.morph with dict := c.toDict } (c!"Кошке") = [c!"кошка"] ∧ Demo.nfs { Demo.morph with dict := c'.toDict } (c!"Кошке") = [c!"кошка"] ∧
    Demo.nfs { Demo.morph with dict := c.toDict } (c!"ложке") = [c!"ложка"] ∧ Demo.nfs { Demo.morph with dict := c'.toDict } (c!"ложке") = [c!"ложки"] := by
  have hno : ∀ w ∈ [c!"кошке", c!"ложке"], ∀ x ∈ Demo.extra79, ¬ OccursIn ruSubst w x.2 := by
    have h : ∀ w ∈ [c!"кошке", c!"ложке"], ∀ x ∈ Demo.extra79, ∀ f ∈ x.2, f.1 ∉ variants ruSubst w := by decide +kernel
    rintro w hw x hx ⟨f, hf, hs⟩
    exact h w hw x hx f hf ((mem_variants_iff _ _ _).2 hs)
  have h : (match Demo.compiled79, Demo.compiled72 with
    | .ok c, .ok c' =>
        decide (Demo.nfs { Demo.morph with dict := c.toDict } (c!"Кошке") = [c!"кошка"]) && decide (Demo.nfs { Demo.morph with dict := c'.toDict } (c!"Кошке") = [c!"кошка"]) &&
        decide (Demo.nfs { Demo.morph with dict := c.toDict } (c!"ложке") = [c!"ложка"]) && decide (Demo.nfs { Demo.morph with dict := c'.toDict } (c!"ложке") = [c!"ложки"])
    | _, _ => false) = true := by decide +kernel
  split at h
  · next c c' hc hc' =>
    simp only [Bool.and_eq_true, decide_eq_true_eq] at h
    have e1 : Demo.morph.env.lower (c!"Кошке") = c!"кошке" := by decide +kernel
    have e2 : Demo.morph.env.lower (c!"ложке") = c!"ложке" := by decide +kernel
    refine ⟨c, c', hc, hc', rfl, Demo.isRu_of _ _, Demo.isRu_of _ _, c05_default_targets.2.2.1, demoEnv_lowerStable, ?_, ?_, h.1.1.1, h.1.1.2, h.1.2, h.2⟩
    · rw [e1]; exact hno _ (by simp)
    · rw [e2]; exact hno _ (by simp)
  · simp at h

end Verif
