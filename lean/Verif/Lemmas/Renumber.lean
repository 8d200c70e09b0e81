/-
Two dictionaries that agree on what concerns a word, up to a renumbering of the paradigms: the answers agree.
-/
import Verif.Lemmas.LexTotal
import Verif.Lemmas.Fuel
import Verif.Spec.Related

set_option linter.unusedSectionVars false

namespace Verif

variable {S : Type} [Score S]

/-! ### Renumbering -/

def Key3.renum (φ : Nat → Nat) : Key3 → Key3
  | .none => .none
  | .para n => .para (φ n)
  | .right s => .right (s.renum φ)

def SeenKey.renum (φ : Nat → Nat) : SeenKey → SeenKey
  | .reduced w t k => .reduced w t (k.renum φ)
  | .full w => .full w

def SfxCand.renum (φ : Nat → Nat) (c : SfxCand) : SfxCand := { c with para := φ c.para }

variable {φ : Nat → Nat}

mutual
theorem Stack.renum_inj (hφ : Function.Injective φ) : ∀ s t : Stack, s.renum φ = t.renum φ → s = t
  | .nil, .nil, _ => rfl
  | .nil, .push _ _, h => by simp [Stack.renum] at h
  | .push _ _, .nil, h => by simp [Stack.renum] at h
  | .push r x, .push r' x', h => by
    simp only [Stack.renum, Stack.push.injEq] at h
    rw [Stack.renum_inj hφ r r' h.1, Method.renum_inj hφ x x' h.2]
theorem Method.renum_inj (hφ : Function.Injective φ) : ∀ s t : Method, s.renum φ = t.renum φ → s = t
  | .dict _ _ _ _, .dict _ _ _ _, h => by
    simp only [Method.renum, Method.dict.injEq] at h
    obtain ⟨rfl, rfl, h, rfl⟩ := h
    rw [hφ h]
  | .simple _ _, .simple _ _, h => h
  | .fixed _ _ r, .fixed _ _ r', h => by
    simp only [Method.renum, Method.fixed.injEq] at h
    obtain ⟨rfl, rfl, h⟩ := h
    rw [Stack.renum_inj hφ r r' h]
  | .both _ l r, .both _ l' r', h => by
    simp only [Method.renum, Method.both.injEq] at h
    obtain ⟨rfl, h1, h2⟩ := h
    rw [Stack.renum_inj hφ l l' h1, Stack.renum_inj hφ r r' h2]
  | .dict _ _ _ _, .simple _ _, h => by simp [Method.renum] at h
  | .dict _ _ _ _, .fixed _ _ _, h => by simp [Method.renum] at h
  | .dict _ _ _ _, .both _ _ _, h => by simp [Method.renum] at h
  | .simple _ _, .dict _ _ _ _, h => by simp [Method.renum] at h
  | .simple _ _, .fixed _ _ _, h => by simp [Method.renum] at h
  | .simple _ _, .both _ _ _, h => by simp [Method.renum] at h
  | .fixed _ _ _, .dict _ _ _ _, h => by simp [Method.renum] at h
  | .fixed _ _ _, .simple _ _, h => by simp [Method.renum] at h
  | .fixed _ _ _, .both _ _ _, h => by simp [Method.renum] at h
  | .both _ _ _, .dict _ _ _ _, h => by simp [Method.renum] at h
  | .both _ _ _, .simple _ _, h => by simp [Method.renum] at h
  | .both _ _ _, .fixed _ _ _, h => by simp [Method.renum] at h
end

theorem SeenKey.renum_inj (hφ : Function.Injective φ) : Function.Injective (SeenKey.renum φ) := by
  intro a b h
  cases a with
  | full w => cases b with
    | full w' => exact h
    | reduced _ _ _ => cases h
  | reduced w t k => cases b with
    | full w' => cases h
    | reduced w' t' k' =>
      simp only [SeenKey.renum, SeenKey.reduced.injEq] at h
      obtain ⟨rfl, rfl, h⟩ := h
      congr 1
      cases k <;> cases k' <;> simp only [Key3.renum, Key3.para.injEq, Key3.right.injEq, reduceCtorEq] at h
      · rfl
      · rw [hφ h]
      · rw [Stack.renum_inj hφ _ _ h]

theorem mem_renum (hφ : Function.Injective φ) (k : SeenKey) (seen : Seen) : k.renum φ ∈ seen.map (SeenKey.renum φ) ↔ k ∈ seen := by
  constructor
  · intro h
    obtain ⟨k', h1, h2⟩ := List.mem_map.1 h
    rw [← SeenKey.renum_inj hφ h2]; exact h1
  · exact fun h => List.mem_map_of_mem h

theorem first_renum : ∀ s : Stack, (s.renum φ).first = s.first.map (Method.renum φ)
  | .nil => rfl
  | .push .nil _ => rfl
  | .push (.push r m') m => by
    show Stack.first (.push (.push (r.renum φ) (m'.renum φ)) (m.renum φ)) = (Stack.first (.push r m')).map _
    rw [← first_renum (.push r m')]
    rfl

theorem setFirst_renum (m0 : Method) : ∀ s : Stack, (s.setFirst m0).renum φ = (s.renum φ).setFirst (m0.renum φ)
  | .nil => rfl
  | .push .nil _ => rfl
  | .push (.push r m') m => by
    show Stack.push ((Stack.setFirst m0 (.push r m')).renum φ) (m.renum φ) = _
    rw [setFirst_renum m0 (.push r m')]
    rfl

theorem key_renum (p : Parse S) : (p.renum φ).key = p.key.renum φ := by
  unfold Parse.key Parse.renum
  dsimp only
  rw [first_renum]
  cases p.stack.first with
  | none => rfl
  | some m => cases m <;> rfl

theorem addParses_renum (hφ : Function.Injective φ) (ps : List (Parse S)) (seen : Seen) :
    addParses (ps.map (Parse.renum φ)) (seen.map (SeenKey.renum φ)) =
      ((addParses ps seen).1.map (Parse.renum φ), (addParses ps seen).2.map (SeenKey.renum φ)) := by
  induction ps generalizing seen with
  | nil => rfl
  | cons p ps ih =>
    simp only [List.map_cons, addParses, key_renum, mem_renum hφ]
    split
    · exact ih seen
    · have := ih (p.key :: seen)
      simp only [List.map_cons] at this
      rw [this]
      rfl

theorem cand_key_renum (c : SfxCand) : (c.renum φ).key = c.key.renum φ := rfl

theorem dedupCands_renum (hφ : Function.Injective φ) (cs : List SfxCand) (seen : Seen) :
    dedupCands (cs.map (SfxCand.renum φ)) (seen.map (SeenKey.renum φ)) =
      ((dedupCands cs seen).1.map (SfxCand.renum φ), (dedupCands cs seen).2.map (SeenKey.renum φ)) := by
  induction cs generalizing seen with
  | nil => rfl
  | cons p ps ih =>
    simp only [List.map_cons, dedupCands, cand_key_renum, mem_renum hφ]
    split
    · exact ih seen
    · have := ih (p.key :: seen)
      simp only [List.map_cons] at this
      rw [this]
      rfl

theorem dedupTagCands_renum (cs : List SfxCand) (seen : SeenTags) : dedupTagCands (cs.map (SfxCand.renum φ)) seen = dedupTagCands cs seen := by
  induction cs generalizing seen with
  | nil => rfl
  | cons p ps ih => simp only [List.map_cons, dedupTagCands, ih, SfxCand.renum]

theorem cntSum_renum (cs : List SfxCand) : cntSum (cs.map (SfxCand.renum φ)) = cntSum cs := by
  unfold cntSum
  rw [List.map_map]
  rfl

theorem sortByScore_renum (ps : List (Parse S)) : sortByScore (ps.map (Parse.renum φ)) = (sortByScore ps).map (Parse.renum φ) := by
  unfold sortByScore
  exact (List.map_insertionSort _ _ (Parse.renum φ) ps fun a _ b _ => Iff.rfl).symm

theorem applyToParses_renum (dawg : List (Str × Nat)) (wl : Str) (ps : List (Parse S)) :
    applyToParses dawg wl (ps.map (Parse.renum φ)) = (applyToParses dawg wl ps).map (List.map (Parse.renum φ)) := by
  unfold applyToParses
  have h1 : (ps.map (Parse.renum φ)).map (fun p => prob (S := S) dawg wl p.tag) = ps.map fun p => prob dawg wl p.tag := by
    rw [List.map_map]; rfl
  have h2 : (ps.map (Parse.renum φ)).map Parse.score = ps.map Parse.score := by rw [List.map_map]; rfl
  dsimp only
  rw [h1, h2]
  by_cases hp : ps = []
  · subst hp; rfl
  · rw [if_neg hp, if_neg (by simpa using hp)]
    split
    · split
      · rfl
      · simp only [Except.map, List.map_map]; rfl
    · simp only [Except.map, Except.ok.injEq]
      rw [← sortByScore_renum, List.map_map, List.map_map]
      rfl

/-! ### Effects -/

theorem mapE_redict {α β γ δ : Type} (f : α → Except PyErr β) (f' : γ → Except PyErr δ) (g : α → γ) (h : β → δ) (l : List α)
    (hf : ∀ a ∈ l, f' (g a) = (f a).map h) : mapE f' (l.map g) = (mapE f l).map (List.map h) := by
  induction l with
  | nil => rfl
  | cons a l ih =>
    simp only [List.map_cons, mapE]
    rw [hf a (by simp), ih fun b hb => hf b (by simp [hb])]
    cases f a with
    | error e => rfl
    | ok b => cases mapE f l <;> rfl

/-- What nested calls of two analyzers have to do with each other. -/
def RecRedict (φ : Nat → Nat) (W : Str) (r r' : Rec S) : Prop :=
  ∀ x, x <:+: W → r'.parse x = (r.parse x).map (List.map (Parse.renum φ)) ∧ r'.tag x = r.tag x

theorem parseBoth_renum (u : UObj) (mult : S) (l r : List (Parse S)) :
    parseBoth u mult (l.map (Parse.renum φ)) (r.map (Parse.renum φ)) = (parseBoth u mult l r).map (Parse.renum φ) := by
  unfold parseBoth
  rw [List.flatMap_map, List.map_flatMap]
  refine List.flatMap_congr fun a _ => ?_
  have : (a.renum φ).tag = a.tag := rfl
  rw [this]
  split
  · rfl
  · rw [List.filter_map, List.map_map, List.map_map]
    rfl

theorem parseFixed_renum (u : UObj) (mult : S) (left : Str) (r : List (Parse S)) :
    parseFixed u mult left (r.map (Parse.renum φ)) = (parseFixed u mult left r).map (Parse.renum φ) := by
  unfold parseFixed
  rw [List.filter_map, List.map_map, List.map_map]
  rfl

theorem prefixDeco_renum (u : UObj) (mult : S) (pre : Str) (r : List (Parse S)) :
    prefixDeco u mult pre (r.map (Parse.renum φ)) = (prefixDeco u mult pre r).map (Parse.renum φ) := by
  unfold prefixDeco
  rw [List.filter_map, List.map_map, List.map_map]
  rfl

theorem prefixCands_redict (u : UObj) (mult : S) (f f' : Str → Except PyErr (List (Parse S))) (sp : List (Str × Str))
    (h : ∀ s ∈ sp, f' s.2 = (f s.2).map (List.map (Parse.renum φ))) :
    prefixCands u mult f' sp = (prefixCands u mult f sp).map (List.map (Parse.renum φ)) := by
  unfold prefixCands
  have := mapE_redict (fun s : Str × Str => do
    let r ← f s.2
    pure (prefixDeco u mult s.1 r)) (fun s : Str × Str => do
    let r ← f' s.2
    pure (prefixDeco u mult s.1 r)) id (List.map (Parse.renum φ)) sp (fun s hs => by
      show (f' s.2 >>= _) = _
      rw [h s hs]
      cases f s.2 with
      | error e => rfl
      | ok ps =>
        show Except.ok _ = Except.ok _
        rw [prefixDeco_renum]
        rfl)
  rw [List.map_id] at this
  rw [this]
  cases mapE _ sp with
  | error e => rfl
  | ok pss =>
    show Except.ok _ = Except.ok _
    rw [List.map_flatten]

/-! ### Dictionaries -/

theorem mapE_elem {α β : Type} {f : α → Except PyErr β} {l : List α} {r : List β} (h : mapE f l = .ok r) (i : Nat) (a : α) (ha : l[i]? = some a) :
    ∃ b, f a = .ok b ∧ r[i]? = some b := by
  induction l generalizing r i with
  | nil => simp at ha
  | cons x l ih =>
    simp only [mapE, bind_ok_iff, pure_eq_ok, Except.ok.injEq] at h
    obtain ⟨b, hb, bs, hbs, rfl⟩ := h
    cases i with
    | zero => simp only [List.getElem?_cons_zero, Option.some.injEq] at ha; subst ha; exact ⟨b, hb, rfl⟩
    | succ i => simp only [List.getElem?_cons_succ] at ha ⊢; exact ih hbs i ha

/-- Corresponding paradigms have the same rows. -/
theorem para_same {d d' : Dict} {sub : Subst} {W : Str} (hd : d.WF) (ha : d.AgreeOn d' sub φ W) {k : Nat} {p : List Nat} (hp : d.paradigms[k]? = some p) :
    ∃ p', d'.paradigms[φ k]? = some p' ∧ p'.length / 3 = p.length / 3 ∧ ∀ i < p.length / 3,
      d'.formPrefix p' i = d.formPrefix p i ∧ d'.formSuffix p' i = d.formSuffix p i ∧ d'.tagInfo (φ k) i = d.tagInfo k i := by
  have hi := ha.paradigms k p hp
  have hok : ∃ rows, d.paradigmInfo k = .ok rows ∧ mapE (d.paradigmRow k p) (List.range (p.length / 3)) = .ok rows := by
    have h1 : pyGet d.paradigms k = .ok p := (pyGet_ok_iff _ _ _).2 hp
    obtain ⟨rows, hr⟩ := mapE_total (d.paradigmRow k p) (List.range (p.length / 3)) fun i hi => by
      obtain ⟨pre, tag, suf, hf⟩ := hd.rows k p hp i (List.mem_range.1 hi)
      unfold Dict.paradigmRow
      rw [hf.hpre, hf.hsuf, hf.htag]
      exact ⟨_, rfl⟩
    refine ⟨rows, ?_, hr⟩
    unfold Dict.paradigmInfo
    rw [h1, ok_bind, hr]
  obtain ⟨rows, hr, hr2⟩ := hok
  rw [hr] at hi
  unfold Dict.paradigmInfo at hi
  simp only [bind_ok_iff] at hi
  obtain ⟨p', hp', hr'⟩ := hi
  have hlen : p'.length / 3 = p.length / 3 := by
    have e1 := mapE_length hr'
    have e2 := mapE_length hr2
    simp only [List.length_range] at e1 e2
    omega
  refine ⟨p', (pyGet_ok_iff _ _ _).1 hp', hlen, fun i hi => ?_⟩
  obtain ⟨b, hb, e1⟩ := mapE_elem hr2 i i (by simp [hi])
  obtain ⟨b', hb', e2⟩ := mapE_elem hr' i i (by rw [hlen]; simp [hi])
  rw [e1] at e2
  cases e2
  simp only [Dict.paradigmRow, bind_ok_iff, pure_eq_ok, Except.ok.injEq] at hb hb'
  obtain ⟨a1, h1, a2, h2, a3, h3, rfl⟩ := hb
  obtain ⟨b1, g1, b2, g2, b3, g3, e⟩ := hb'
  simp only [Prod.mk.injEq] at e
  obtain ⟨rfl, rfl, rfl⟩ := e
  exact ⟨g1.trans h1.symm, g2.trans h2.symm, g3.trans h3.symm⟩

theorem normalForm_same {d d' : Dict} {sub : Subst} {W : Str} (hd : d.WF) (ha : d.AgreeOn d' sub φ W) {k i : Nat} {p : List Nat}
    (hp : d.paradigms[k]? = some p) (hi : i < p.length / 3) (w : Str) :
    d'.normalForm (φ k) i w = d.normalForm k i w ∧ d'.tagInfo (φ k) i = d.tagInfo k i := by
  obtain ⟨p', hp', _, h⟩ := para_same hd ha hp
  refine ⟨?_, (h i hi).2.2⟩
  unfold Dict.normalForm
  split
  · rfl
  · rw [(pyGet_ok_iff _ _ _).2 hp, (pyGet_ok_iff _ _ _).2 hp', ok_bind, ok_bind]
    unfold Dict.stem
    rw [(h i hi).1, (h i hi).2.1, (h 0 (by omega)).1, (h 0 (by omega)).2.1]

theorem lookup_flat {V : Type} (t : Dawg V) (sub : Subst) (w : Str) :
    lookup t sub w = (variants sub w).flatMap fun v => (t.vals v).map fun r => (v, r) := by
  unfold lookup Dawg.similarItems Dawg.similarKeys
  rw [List.flatMap_map]
  generalize variants sub w = vs
  induction vs with
  | nil => rfl
  | cons v vs ih =>
    rw [List.filter_cons, List.flatMap_cons]
    split
    · rw [List.flatMap_cons, ih]
    · next h =>
      have : t.vals v = [] := by
        rw [List.eq_nil_iff_forall_not_mem]
        intro r hr
        exact h ((t.has_iff v).2 ⟨r, (t.mem_vals v r).1 hr⟩)
      rw [ih, this]
      rfl

theorem lookup_same {V : Type} (t t' : Dawg V) (sub : Subst) (g : V → V) (w : Str)
    (h : ∀ v, Spells sub w v → t'.vals v = (t.vals v).map g) : lookup t' sub w = (lookup t sub w).map fun e => (e.1, g e.2) := by
  rw [lookup_flat, lookup_flat, List.map_flatMap]
  refine List.flatMap_congr fun v hv => ?_
  rw [h v ((mem_variants_iff sub w v).1 hv), List.map_map, List.map_map]
  rfl

theorem itemValues_lookup {V : Type} (t : Dawg V) (sub : Subst) (w : Str) : (t.similarItemValues sub w).flatten = (lookup t sub w).map Prod.snd := by
  unfold Dawg.similarItemValues lookup Dawg.similarItems
  rw [List.map_flatMap, List.flatMap_map, ← List.flatMap_def]
  refine List.flatMap_congr fun v _ => ?_
  rw [List.map_map]
  exact (List.map_id _).symm

/-- `m'` is `m` with another dictionary. -/
def Morph.withDict (m : Morph S) (d' : Dict) : Morph S := { m with dict := d' }

theorem dictParse_redict (m : Morph S) {d' : Dict} {W : Str} (hd : m.dict.WF) (ha : m.dict.AgreeOn d' m.sub φ W) (u : UObj) (x : Str) (hx : x <:+: W) :
    dictParse (m.withDict d') u x = (dictParse m u x).map (List.map (Parse.renum φ)) := by
  unfold dictParse
  show mapE _ (lookup d'.words m.sub x) = _
  rw [lookup_same m.dict.words d'.words m.sub (fun r => (φ r.1, r.2)) x fun v hv => ha.words x v hx hv]
  refine mapE_redict _ _ _ _ _ ?_
  rintro ⟨v, k, i⟩ hv
  obtain ⟨p, pre, tag, suf, stem, hf, _⟩ := hd.words _ ((mem_lookup _ _ _ _ _).1 hv).2
  obtain ⟨h1, h2⟩ := normalForm_same hd ha hf.hpara hf.hidx v
  unfold dictParse1
  show (d'.normalForm (φ k) i v >>= _) = _
  dsimp only
  rw [h1]
  cases m.dict.normalForm k i v with
  | error e => rfl
  | ok nf =>
    show (d'.tagInfo (φ k) i >>= _) = Except.map _ (m.dict.tagInfo k i >>= _)
    rw [h2]
    cases m.dict.tagInfo k i <;> rfl

theorem dictTag_redict (m : Morph S) {d' : Dict} {W : Str} (hd : m.dict.WF) (ha : m.dict.AgreeOn d' m.sub φ W) (x : Str) (hx : x <:+: W) :
    dictTag (m.withDict d') x = dictTag m x := by
  unfold dictTag
  show mapE _ (d'.words.similarItemValues m.sub x).flatten = _
  rw [itemValues_lookup, itemValues_lookup, lookup_same m.dict.words d'.words m.sub (fun r => (φ r.1, r.2)) x fun v hv => ha.words x v hx hv, List.map_map]
  have : ((Prod.snd ∘ fun e : Str × Nat × Nat => (e.1, (φ e.2.1, e.2.2)))) = (fun r : Nat × Nat => (φ r.1, r.2)) ∘ Prod.snd := rfl
  rw [this, ← List.map_map]
  have := mapE_redict (fun r : Nat × Nat => m.dict.tagInfo r.1 r.2) (fun r : Nat × Nat => d'.tagInfo r.1 r.2) (fun r => (φ r.1, r.2)) id
    ((lookup m.dict.words m.sub x).map Prod.snd) (by
      rintro r hr
      obtain ⟨⟨v, k, i⟩, hv, rfl⟩ := List.mem_map.1 hr
      obtain ⟨p, pre, tag, suf, stem, hf, _⟩ := hd.words _ ((mem_lookup _ _ _ _ _).1 hv).2
      dsimp only
      rw [(normalForm_same hd ha hf.hpara hf.hidx v).2]
      cases m.dict.tagInfo k i <;> rfl)
  refine this.trans ?_
  cases mapE _ _ with
  | error e => rfl
  | ok l => simp [Except.map]

/-! ### Prediction by endings -/

theorem takeRight_infix (w : Str) (i : Nat) : takeRight w i <:+: w := by
  unfold takeRight
  split
  · exact List.infix_refl _
  · exact (List.drop_suffix _ _).isInfix

theorem sfxCands_redict {d d' : Dict} {sub : Subst} {W : Str} (hd : d.WF) (ha : d.AgreeOn d' sub φ W) {j : Nat} {t t' : Dawg (Nat × Nat × Nat)}
    (ht : d.pred[j]? = some t) (h : ∀ x v : Str, x <:+: W → Spells sub x v → t'.vals v = (t.vals v).map fun r => (r.1, φ r.2.1, r.2.2))
    (wl : Str) (hw : wl <:+: W) (i : Nat) : sfxCands d' sub t' wl i = (sfxCands d sub t wl i).map (List.map (SfxCand.renum φ)) := by
  unfold sfxCands
  rw [lookup_same t t' sub (fun r => (r.1, φ r.2.1, r.2.2)) _ fun v hv => h _ v ((takeRight_infix wl i).trans hw) hv]
  rw [mapE_redict (fun (e : Str × Nat × Nat × Nat) => do
    let tag ← d.tagInfo e.2.2.1 e.2.2.2
    pure (SfxCand.mk e.2.1 (dropRight wl i ++ e.1) e.1 tag e.2.2.1 e.2.2.2)) _ _ (SfxCand.renum φ) _ (by
      rintro ⟨v, c, k, i'⟩ hv
      obtain ⟨_, p, pre, tag, suf, hf, _⟩ := hd.pred j t ht _ ((mem_lookup _ _ _ _ _).1 hv).2
      dsimp only at hf ⊢
      rw [(normalForm_same hd ha hf.hpara hf.hidx v).2]
      cases d.tagInfo k i' <;> rfl)]
  cases mapE _ (lookup t sub (takeRight wl i)) with
  | error e => rfl
  | ok cs =>
    show Except.ok _ = Except.ok _
    rw [List.filter_map]
    rfl

theorem sfxLoop_redict (hφ : Function.Injective φ) (c c' : Nat → Except PyErr (List SfxCand)) (h : ∀ i, c' i = (c i).map (List.map (SfxCand.renum φ)))
    (is : List Nat) (total : Nat) (seen : Seen) :
    sfxLoop c' is total (seen.map (SeenKey.renum φ)) =
      (sfxLoop c is total seen).map fun r => (r.1.map (SfxCand.renum φ), r.2.1, r.2.2.map (SeenKey.renum φ)) := by
  induction is generalizing total seen with
  | nil => rfl
  | cons i is ih =>
    simp only [sfxLoop, h i]
    cases c i with
    | error e => rfl
    | ok cs =>
      show (if _ then _ else _) = Except.map _ (if _ then _ else _)
      simp only [dedupCands_renum hφ, cntSum_renum]
      split
      · rfl
      · rw [ih]
        cases sfxLoop c is _ _ with
        | error e => rfl
        | ok r =>
          show Except.ok _ = Except.ok _
          simp

theorem sfxTagLoop_redict (c c' : Nat → Except PyErr (List SfxCand)) (h : ∀ i, c' i = (c i).map (List.map (SfxCand.renum φ)))
    (is : List Nat) (seen : SeenTags) : sfxTagLoop c' is seen = sfxTagLoop c is seen := by
  induction is generalizing seen with
  | nil => rfl
  | cons i is ih =>
    simp only [sfxTagLoop, h i]
    cases c i with
    | error e => rfl
    | ok cs =>
      show (if _ then _ else _) = (if _ then _ else _)
      simp only [dedupTagCands_renum, ih, ne_eq, List.map_eq_nil_iff]

theorem sfxPrefixes_same {d d' : Dict} {sub : Subst} {W : Str} (ha : d.AgreeOn d' sub φ W) (wl : Str) : sfxPrefixes d' wl = sfxPrefixes d wl := by
  unfold sfxPrefixes paradigmPrefixes
  rw [ha.prefixes]

theorem sfxPrefixLoop_redict (hφ : Function.Injective φ) {d d' : Dict} {sub : Subst} {W : Str} (hd : d.WF) (ha : d.AgreeOn d' sub φ W) (wl : Str) (hw : wl <:+: W)
    (ips : List (Nat × Str)) (hips : ∀ ip ∈ ips, ∃ t, d.pred[ip.1]? = some t) (seen : Seen) :
    sfxPrefixLoop d' sub wl ips (seen.map (SeenKey.renum φ)) =
      (sfxPrefixLoop d sub wl ips seen).map fun r => (r.1.map (fun ct => (ct.1.renum φ, ct.2)), r.2.map (SeenKey.renum φ)) := by
  induction ips generalizing seen with
  | nil => rfl
  | cons ip ips ih =>
    obtain ⟨t, ht⟩ := hips ip (by simp)
    obtain ⟨t', ht', hv⟩ := ha.pred _ t ht
    simp only [sfxPrefixLoop]
    rw [(pyGet_ok_iff _ _ _).2 ht, (pyGet_ok_iff _ _ _).2 ht', ok_bind, ok_bind, ha.maxSuffixLength,
      sfxLoop_redict hφ (sfxCands d sub t wl) (sfxCands d' sub t' wl) fun i => sfxCands_redict hd ha ht hv wl hw i]
    cases sfxLoop (sfxCands d sub t wl) _ 1 seen with
    | error e => rfl
    | ok r =>
      show (sfxPrefixLoop d' sub wl ips (r.2.2.map (SeenKey.renum φ)) >>= _) = Except.map _ (sfxPrefixLoop d sub wl ips r.2.2 >>= _)
      rw [ih (fun ip h => hips ip (by simp [h]))]
      cases sfxPrefixLoop d sub wl ips r.2.2 with
      | error e => rfl
      | ok rest =>
        show Except.ok _ = Except.ok _
        simp [List.map_map, Function.comp_def]

theorem sfxTagPrefixLoop_redict {d d' : Dict} {sub : Subst} {W : Str} (hd : d.WF) (ha : d.AgreeOn d' sub φ W) (wl : Str) (hw : wl <:+: W)
    (ips : List (Nat × Str)) (hips : ∀ ip ∈ ips, ∃ t, d.pred[ip.1]? = some t) (seen : SeenTags) :
    sfxTagPrefixLoop d' sub wl ips seen = sfxTagPrefixLoop d sub wl ips seen := by
  induction ips generalizing seen with
  | nil => rfl
  | cons ip ips ih =>
    obtain ⟨t, ht⟩ := hips ip (by simp)
    obtain ⟨t', ht', hv⟩ := ha.pred _ t ht
    simp only [sfxTagPrefixLoop]
    rw [(pyGet_ok_iff _ _ _).2 ht, (pyGet_ok_iff _ _ _).2 ht', ok_bind, ok_bind, ha.maxSuffixLength,
      sfxTagLoop_redict (sfxCands d sub t wl) (sfxCands d' sub t' wl) fun i => sfxCands_redict hd ha ht hv wl hw i]
    simp only [ih (fun ip h => hips ip (by simp [h]))]

/-- The candidates of the prefix loop come from the tables. -/
theorem sfxBuild_redict (m : Morph S) {d' : Dict} {W : Str} (hd : m.dict.WF) (ha : m.dict.AgreeOn d' m.sub φ W) (u : BUnit S) (mult : S) (ct : SfxCand × Nat)
    (hc : ∃ p, m.dict.paradigms[ct.1.para]? = some p ∧ ct.1.idx < p.length / 3) :
    sfxBuild (m.withDict d') u mult (ct.1.renum φ, ct.2) = (sfxBuild m u mult ct).map (Parse.renum φ) := by
  obtain ⟨p, hp, hi⟩ := hc
  unfold sfxBuild
  show (d'.normalForm (φ ct.1.para) ct.1.idx ct.1.word >>= _) = _
  rw [(normalForm_same hd ha hp hi _).1]
  cases h : m.dict.normalForm ct.1.para ct.1.idx ct.1.word with
  | error e => dsimp only; rw [h]; rfl
  | ok nf => dsimp only; rw [h]; rfl

theorem suffixParse_redict (hφ : Function.Injective φ) (m : Morph S) {d' : Dict} {W : Str} (hd : m.dict.WF) (ha : m.dict.AgreeOn d' m.sub φ W) (u : BUnit S)
    (mult : S) (minLen : Nat) (word wl : Str) (hw : wl <:+: W) (seen : Seen) :
    suffixParse (m.withDict d') u mult minLen word wl (seen.map (SeenKey.renum φ)) =
      (suffixParse m u mult minLen word wl seen).map fun r => (r.1.map (Parse.renum φ), r.2.map (SeenKey.renum φ)) := by
  unfold suffixParse
  split
  · rfl
  · show (sfxPrefixLoop d' m.sub wl (sfxPrefixes d' wl) _ >>= _) = _
    have hips : ∀ ip ∈ sfxPrefixes m.dict wl, ∃ t, m.dict.pred[ip.1]? = some t := fun ip hip => sfxPrefix_pred hd hip
    rw [sfxPrefixes_same ha, sfxPrefixLoop_redict hφ hd ha wl hw _ hips]
    cases hr : sfxPrefixLoop m.dict m.sub wl (sfxPrefixes m.dict wl) seen with
    | error e => rfl
    | ok r =>
      show (mapE _ (r.1.map _) >>= _) = Except.map _ (mapE _ r.1 >>= _)
      rw [mapE_redict (sfxBuild m u mult) _ _ (Parse.renum φ) r.1 (fun ct hct => sfxBuild_redict m hd ha u mult ct (by
        obtain ⟨ip, hip, t, ht, i, hi, cs, hcs, hcc⟩ := sfxPrefixLoop_mem _ _ _ _ _ _ hr _ hct
        obtain ⟨_, _, _, _, h5⟩ := sfxCands_mem _ _ _ _ _ _ hcs _ hcc
        obtain ⟨_, p, pre, tag, suf, hf, _⟩ := hd.pred _ t ht _ h5
        exact ⟨p, hf.hpara, hf.hidx⟩))]
      cases mapE (sfxBuild m u mult) r.1 with
      | error e => rfl
      | ok ps =>
        show Except.ok _ = Except.ok _
        rw [sortByScore_renum]

theorem suffixTag_redict (m : Morph S) {d' : Dict} {W : Str} (hd : m.dict.WF) (ha : m.dict.AgreeOn d' m.sub φ W)
    (minLen : Nat) (word wl : Str) (hw : wl <:+: W) (seen : SeenTags) :
    suffixTag (m.withDict d') minLen word wl seen = suffixTag m minLen word wl seen := by
  unfold suffixTag
  show (if _ then _ else (sfxTagPrefixLoop d' m.sub wl (sfxPrefixes d' wl) _ >>= _)) = _
  have hips : ∀ ip ∈ sfxPrefixes m.dict wl, ∃ t, m.dict.pred[ip.1]? = some t := fun ip hip => sfxPrefix_pred hd hip
  rw [sfxPrefixes_same ha, sfxTagPrefixLoop_redict hd ha wl hw _ hips]

/-! ### The units and the analyzer -/

theorem particleDeco_renum (u : UObj) (part : Str) (mult : S) (ps : List (Parse S)) :
    (ps.map (Parse.renum φ)).map (particleDeco u part mult) = (ps.map (particleDeco u part mult)).map (Parse.renum φ) := by
  rw [List.map_map, List.map_map]
  rfl

theorem adverbShould_redict (m : Morph S) {d' : Dict} {W : Str} (r r' : Rec S) (hr : RecRedict φ W r r') (wl : Str) (hw : wl <:+: W) :
    adverbShould (m.withDict d') r' wl = adverbShould m r wl := by
  unfold adverbShould
  split
  · rfl
  · next hc =>
    rw [(hr _ ((adverb_piece wl hc).1.trans hw)).2]
    rfl

theorem hyphenParse_redict {W : Str} (r r' : Rec S) (hr : RecRedict φ W r r') (u : UObj) (skip : List Str) (mult : S) (wl : Str) (hw : wl <:+: W) :
    hyphenParse r' u skip mult wl = (hyphenParse r u skip mult wl).map (List.map (Parse.renum φ)) := by
  unfold hyphenParse
  split
  · next hs =>
    obtain ⟨⟨h1, _⟩, h3, _⟩ := hyphen_pieces skip wl hs
    dsimp only
    rw [(hr _ (h1.trans hw)).1, (hr _ (h3.trans hw)).1]
    cases r.parse (splitHyphen wl).1 with
    | error e => rfl
    | ok a =>
      cases r.parse (splitHyphen wl).2 with
      | error e => rfl
      | ok b =>
        show Except.ok _ = Except.ok _
        rw [parseBoth_renum, parseFixed_renum, List.map_append]
  · rfl

theorem possible_infix {W : Str} (prefixes : List Str) (k : Nat) (wl : Str) (hw : wl <:+: W) (s : Str × Str) (hs : s ∈ possibleSplits prefixes k wl) :
    s.2 <:+: W := by
  obtain ⟨rfl, _, _⟩ := possibleSplits_mem prefixes k wl s.1 s.2 hs
  exact (infix_right _ _).trans hw

theorem word_infix {W : Str} (wl : Str) (hw : wl <:+: W) (s : Str × Str) (hs : s ∈ wordSplits wl) : s.2 <:+: W := by
  unfold wordSplits at hs
  obtain ⟨i, _, rfl⟩ := List.mem_map.1 hs
  exact (List.drop_suffix _ _).isInfix.trans hw

theorem unitParse_redict (hφ : Function.Injective φ) (m : Morph S) {d' : Dict} {W : Str} (hd : m.dict.WF) (ha : m.dict.AgreeOn d' m.sub φ W)
    (r r' : Rec S) (hr : RecRedict φ W r r') (u : BUnit S) (word wl : Str) (hw : wl <:+: W) (seen : Seen) :
    unitParse (m.withDict d') r' u word wl (seen.map (SeenKey.renum φ)) =
      (unitParse m r u word wl seen).map fun x => (x.1.map (Parse.renum φ), x.2.map (SeenKey.renum φ)) := by
  have shape : ∀ (c : UnitCfg S) (sc : S), (do
      let t ← shapeTag m.env c word
      pure (shapeParse u.obj sc word wl t, seen.map (SeenKey.renum φ)) : Except PyErr (List (Parse S) × Seen)) =
      ((do
        let t ← shapeTag m.env c word
        pure (shapeParse u.obj sc word wl t, seen)) : Except PyErr (List (Parse S) × Seen)).map
          fun x => (x.1.map (Parse.renum φ), x.2.map (SeenKey.renum φ)) := by
    intro c sc
    cases shapeTag m.env c word with
    | error e => rfl
    | ok t => cases t <;> rfl
  have ini : ∀ (l : List Str) (ts : List Tag) (sc : S), (initialsParse u.obj l ts sc word wl).map (Parse.renum φ) = initialsParse u.obj l ts sc word wl := by
    intro l ts sc
    unfold initialsParse
    split
    · rw [List.map_map]; rfl
    · rfl
  unfold unitParse
  cases hc : u.cfg with
  | dictionary =>
    dsimp only
    rw [dictParse_redict m hd ha u.obj wl hw]
    cases dictParse m u.obj wl <;> rfl
  | firstName l a b sc => show Except.ok _ = Except.ok _; dsimp only; rw [ini]
  | patronymic l a sc => show Except.ok _ = Except.ok _; dsimp only; rw [ini]
  | number a b sc => exact shape _ _
  | punct a sc => exact shape _ _
  | latin a sc => exact shape _ _
  | roman a sc => exact shape _ _
  | particle ps mult =>
    dsimp only
    split
    · rfl
    · next rest part hp =>
      rw [(hr _ ((particle_piece _ _ _ _ hp).1.trans hw)).1]
      cases r.parse rest with
      | error e => rfl
      | ok l =>
        show Except.ok _ = Except.ok _
        rw [particleDeco_renum, addParses_renum hφ]
  | adverb t mult =>
    dsimp only
    rw [adverbShould_redict m r r' hr wl hw]
    cases adverbShould m r wl with
    | error e => rfl
    | ok b => cases b <;> rfl
  | hyphenated skip mult =>
    dsimp only
    rw [hyphenParse_redict r r' hr u.obj skip mult wl hw]
    cases hyphenParse r u.obj skip mult wl <;> rfl
  | knownPrefix ps mult k =>
    dsimp only
    rw [prefixCands_redict u.obj mult r.parse r'.parse _ fun s hs => (hr _ (possible_infix ps k wl hw s hs)).1]
    cases prefixCands u.obj mult r.parse (possibleSplits ps k wl) with
    | error e => rfl
    | ok l =>
      show Except.ok _ = Except.ok _
      rw [addParses_renum hφ]
  | unknownPrefix mult =>
    dsimp only
    rw [prefixCands_redict u.obj mult (dictParse m u.inner) (dictParse (m.withDict d') u.inner) _ fun s hs => dictParse_redict m hd ha u.inner _ (word_infix wl hw s hs)]
    cases prefixCands u.obj mult (dictParse m u.inner) (wordSplits wl) with
    | error e => rfl
    | ok l =>
      show Except.ok _ = Except.ok _
      rw [addParses_renum hφ]
  | knownSuffix mult k =>
    exact suffixParse_redict hφ m hd ha u mult k word wl hw seen
  | unkn t =>
    cases seen <;> rfl

theorem unitTag_redict (m : Morph S) {d' : Dict} {W : Str} (hd : m.dict.WF) (ha : m.dict.AgreeOn d' m.sub φ W)
    (r r' : Rec S) (hr : RecRedict φ W r r') (u : BUnit S) (word wl : Str) (hw : wl <:+: W) (seen : SeenTags) :
    unitTag (m.withDict d') r' u word wl seen = unitTag m r u word wl seen := by
  unfold unitTag
  cases hc : u.cfg with
  | dictionary =>
    dsimp only
    rw [dictTag_redict m hd ha wl hw]
  | particle ps mult =>
    dsimp only
    split
    · rfl
    · next rest part hp =>
      rw [(hr _ ((particle_piece _ _ _ _ hp).1.trans hw)).2]
  | adverb t mult =>
    dsimp only
    rw [adverbShould_redict m r r' hr wl hw]
  | hyphenated skip mult =>
    dsimp only
    rw [hyphenParse_redict r r' hr u.obj skip mult wl hw]
    cases hyphenParse r u.obj skip mult wl with
    | error e => rfl
    | ok l =>
      show Except.ok _ = Except.ok _
      rw [List.map_map]
      rfl
  | knownPrefix ps mult k =>
    dsimp only
    rw [prefixTagCands_congr r'.tag r.tag _ fun s hs => (hr _ (possible_infix ps k wl hw s hs)).2]
  | unknownPrefix mult =>
    dsimp only
    rw [prefixTagCands_congr (dictTag (m.withDict d')) (dictTag m) _ fun s hs => dictTag_redict m hd ha _ (word_infix wl hw s hs)]
  | knownSuffix mult k =>
    exact suffixTag_redict m hd ha k word wl hw seen
  | _ => rfl

theorem runParse_redict (hφ : Function.Injective φ) (m : Morph S) {d' : Dict} {W : Str} (hd : m.dict.WF) (ha : m.dict.AgreeOn d' m.sub φ W)
    (r r' : Rec S) (hr : RecRedict φ W r r') (word wl : Str) (hw : wl <:+: W) (us : List (BUnit S × Bool)) (seen : Seen) (res : List (Parse S)) :
    runParse (m.withDict d') r' word wl us (seen.map (SeenKey.renum φ)) (res.map (Parse.renum φ)) =
      (runParse m r word wl us seen res).map (List.map (Parse.renum φ)) := by
  induction us generalizing seen res with
  | nil => rfl
  | cons ut us ih =>
    obtain ⟨u, t⟩ := ut
    rw [runParse, runParse, unitParse_redict hφ m hd ha r r' hr u word wl hw]
    cases unitParse m r u word wl seen with
    | error e => rfl
    | ok x =>
      show (if t = true ∧ res.map (Parse.renum φ) ++ x.1.map (Parse.renum φ) ≠ [] then _ else runParse (m.withDict d') r' word wl us (x.2.map _) _) =
        Except.map _ (if t = true ∧ res ++ x.1 ≠ [] then _ else runParse m r word wl us x.2 (res ++ x.1))
      rw [← List.map_append, ih]
      by_cases hc : t = true ∧ res ++ x.1 ≠ []
      · rw [if_pos hc, if_pos ⟨hc.1, by simpa using hc.2⟩]; rfl
      · rw [if_neg hc, if_neg (fun h => hc ⟨h.1, by simpa using h.2⟩)]

theorem runTag_redict (m : Morph S) {d' : Dict} {W : Str} (hd : m.dict.WF) (ha : m.dict.AgreeOn d' m.sub φ W)
    (r r' : Rec S) (hr : RecRedict φ W r r') (word wl : Str) (hw : wl <:+: W) (us : List (BUnit S × Bool)) (seen : SeenTags) (res : List Tag) :
    runTag (m.withDict d') r' word wl us seen res = runTag m r word wl us seen res := by
  induction us generalizing seen res with
  | nil => rfl
  | cons ut us ih =>
    obtain ⟨u, t⟩ := ut
    rw [runTag, runTag, unitTag_redict m hd ha r r' hr u word wl hw]
    congr 1
    funext x
    dsimp only
    rw [ih]

theorem step_redict (hφ : Function.Injective φ) (m : Morph S) {d' : Dict} {W : Str} (hd : m.dict.WF) (ha : m.dict.AgreeOn d' m.sub φ W)
    (r r' : Rec S) (hr : RecRedict φ W r r') (w : Str) (hw : m.env.lower w <:+: W) :
    parseStep (m.withDict d') r' w = (parseStep m r w).map (List.map (Parse.renum φ)) ∧ tagStep (m.withDict d') r' w = tagStep m r w := by
  constructor
  · show (runParse (m.withDict d') r' w (m.env.lower w) m.units [] [] >>= _) = Except.map _ (runParse m r w (m.env.lower w) m.units [] [] >>= _)
    have := runParse_redict hφ m hd ha r r' hr w _ hw m.units [] []
    simp only [List.map_nil] at this
    rw [this]
    cases runParse m r w (m.env.lower w) m.units [] [] with
    | error e => rfl
    | ok res =>
      show (match m.est with | some dawg => applyToParses dawg (m.env.lower w) (res.map _) | none => _) =
        Except.map _ (match m.est with | some dawg => applyToParses dawg (m.env.lower w) res | none => _)
      cases m.est with
      | none => rfl
      | some dawg => exact applyToParses_renum dawg _ res
  · show (runTag (m.withDict d') r' w (m.env.lower w) m.units [] [] >>= _) = (runTag m r w (m.env.lower w) m.units [] [] >>= _)
    rw [runTag_redict m hd ha r r' hr w _ hw]
    rfl

theorem analyze_redict (hφ : Function.Injective φ) (m : Morph S) (hlow : m.env.LowerStable) {d' : Dict} (w0 : Str) (hd : m.dict.WF)
    (ha : m.dict.AgreeOn d' m.sub φ (m.env.lower w0)) (n : Nat) :
    RecRedict φ (m.env.lower w0) (analyze m n) (analyze (m.withDict d') n) := by
  induction n with
  | zero => exact fun x _ => ⟨rfl, rfl⟩
  | succ n ih =>
    intro x hx
    exact step_redict hφ m hd ha _ _ ih x (by rw [hlow w0 x hx]; exact hx)

theorem parse_redict (hφ : Function.Injective φ) (m : Morph S) (hlow : m.env.LowerStable) {d' : Dict} (w : Str) (hd : m.dict.WF)
    (ha : m.dict.AgreeOn d' m.sub φ (m.env.lower w)) :
    (m.withDict d').parse w = (m.parse w).map (List.map (Parse.renum φ)) ∧ (m.withDict d').tag w = m.tag w :=
  step_redict hφ m hd ha _ _ (analyze_redict hφ m hlow w hd ha _) w (List.infix_refl _)

end Verif
