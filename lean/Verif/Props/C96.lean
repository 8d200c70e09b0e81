/-
C96: only the relevant part of a dictionary matters.  Two analyzers that differ only in their dictionaries give the same answers for a word when the dictionaries
agree on the parts of that word: whatever else one of them contains, however its paradigms, tags and suffixes are numbered.
-/
import Verif.Lemmas.RenumLex
import Verif.Props.C95
import Verif.Props.C79
import Verif.Props.C78

set_option linter.unusedSectionVars false

namespace Verif

variable {S : Type} [Score S]

/-! ### Specification (with `Dict.AgreeOn` and `Parse.renum`) -/

/-- Two analyzers that differ in nothing but their dictionaries. -/
structure Morph.DiffersInDict (m m' : Morph S) : Prop where
  env : m'.env = m.env
  cls : m'.cls = m.cls
  sub : m'.sub = m.sub
  units : m'.units = m.units
  est : m'.est = m.est

theorem Morph.DiffersInDict.eq {m m' : Morph S} (h : m.DiffersInDict m') : m' = m.withDict m'.dict := by
  obtain ⟨e, d, c, s, u, p⟩ := m'
  obtain ⟨rfl, rfl, rfl, rfl, rfl⟩ := h
  rfl

/-- What the methods of a result give, in both analyzers. -/
structure SameMethods (m m' : Morph S) (sim : Sim) (φ : Nat → Nat) (p : Parse S) : Prop where
  lexeme : m'.lexeme (p.renum φ) = (m.lexeme p).map (List.map (Parse.renum φ))
  normalized : m'.normalized (p.renum φ) = (m.normalized p).map (Parse.renum φ)
  inflect : ∀ req : List Str, m'.inflect sim (p.renum φ) req = (m.inflect sim p req).map (Option.map (Parse.renum φ))
  makeAgree : ∀ (pick : Grams → Option Str) (num : Int), m'.makeAgree sim pick (p.renum φ) num = (m.makeAgree sim pick p num).map (Option.map (Parse.renum φ))

/-! ### Theorems -/

theorem normalFormsLoop_renum (φ : Nat → Nat) (ps : List (Parse S)) (seen : List Str) :
    normalFormsLoop (ps.map (Parse.renum φ)) seen = normalFormsLoop ps seen := by
  induction ps generalizing seen with
  | nil => rfl
  | cons p ps ih =>
    simp only [List.map_cons, normalFormsLoop, ih]
    rfl

/-- **C96, answers.** When the two dictionaries agree on what concerns the word, `parse` gives the same results in the same order (or raises the same exception), with the
same words, tags, normal forms and scores, the paradigms being named by their numbers in the other dictionary; and `tag`, `normal_forms` and `word_is_known` give
exactly the same. -/
theorem c96_answers (m m' : Morph S) (hm : m.DiffersInDict m') (hlow : m.env.LowerStable) (hd : m.dict.WF) (φ : Nat → Nat) (hφ : Function.Injective φ) (w : Str)
    (ha : m.dict.AgreeOn m'.dict m.sub φ (m.env.lower w)) :
    m'.parse w = (m.parse w).map (List.map (Parse.renum φ)) ∧ m'.tag w = m.tag w ∧ m'.normalForms w = m.normalForms w ∧
    (∀ strict, m'.wordIsKnown w strict = m.wordIsKnown w strict) := by
  rw [hm.eq]
  obtain ⟨h1, h2⟩ := parse_redict hφ m hlow w hd ha
  refine ⟨h1, h2, ?_, ?_⟩
  · unfold Morph.normalForms
    rw [h1]
    cases m.parse w with
    | error e => rfl
    | ok ps =>
      show Except.ok _ = Except.ok _
      rw [normalFormsLoop_renum]
  · intro strict
    have hv : ∀ v, Spells m.sub (m.env.lower w) v → m'.dict.words.has v = m.dict.words.has v := by
      intro v hs
      have := ha.words _ v (List.infix_refl _) hs
      have e : ∀ (t : Dawg (Nat × Nat)), t.has v = !(t.vals v).isEmpty := by
        intro t
        rw [Bool.eq_iff_iff]
        unfold Dawg.has Dawg.vals
        simp
      rw [e, e, this]
      cases m.dict.words.vals v <;> rfl
    unfold Morph.wordIsKnown Dict.wordIsKnown
    cases strict with
    | true => exact hv _ (Spells.refl _ _)
    | false =>
      show (!(m'.dict.words.similarKeys m.sub (m.env.lower w)).isEmpty) = !(m.dict.words.similarKeys m.sub (m.env.lower w)).isEmpty
      unfold Dawg.similarKeys
      rw [List.filter_congr fun v hvv => hv v ((mem_variants_iff _ _ _).1 hvv)]

/-- **C96, methods.** And everything that can be obtained from a result by `lexeme`, `normalized`, `inflect` and `make_agree_with_number`, in any combination, is
obtained in the other analyzer in the same way, and its methods give the same again. -/
theorem c96_methods (m m' : Morph S) (hm : m.DiffersInDict m') (hlow : m.env.LowerStable) (hd : m.dict.WF) (φ : Nat → Nat) (w : Str)
    (ha : m.dict.AgreeOn m'.dict m.sub φ (m.env.lower w)) (ps : List (Parse S)) (h : m.parse w = .ok ps) (p0 : Parse S) (hp : p0 ∈ ps) (sim : Sim) (p : Parse S)
    (hob : Obtained m sim p0 p) : Obtained m' sim (p0.renum φ) (p.renum φ) ∧ SameMethods m m' sim φ p := by
  rw [hm.eq]
  have same : ∀ q : Parse S, q.stack.placed m.dict → SameMethods m (m.withDict m'.dict) sim φ q := fun q hq =>
    ⟨lexeme_redict m hd ha q.stack q hq, normalized_redict m hd ha q.stack q hq, inflect_redict m hd ha sim q hq, fun pick num => makeAgree_redict m hd ha sim pick q hq num⟩
  suffices hs : p.stack.placed m.dict ∧ Obtained (m.withDict m'.dict) sim (p0.renum φ) (p.renum φ) from ⟨hs.2, same p hs.1⟩
  induction hob with
  | start => exact ⟨deriv_placed hd (parse_deriv m hlow w ps h p0 hp), .start⟩
  | @form q f fs _ hl hf ih =>
    refine ⟨lexeme_placed m _ _ fs hl ih.1 f hf, .form ih.2 (fs := fs.map (Parse.renum φ)) ?_ (List.mem_map.2 ⟨f, hf, rfl⟩)⟩
    rw [(same q ih.1).lexeme, hl]
    rfl
  | @normalized q r _ hn ih =>
    refine ⟨normalized_placed m hd _ _ r hn ih.1, .normalized ih.2 ?_⟩
    rw [(same q ih.1).normalized, hn]
    rfl
  | @inflected q f req _ hi ih =>
    have hi' := (same q ih.1).inflect req
    rw [hi] at hi'
    have hi0 := hi
    unfold Morph.inflect at hi0
    obtain ⟨fs, hl, _⟩ := (bind_ok_iff _ _ _).1 hi0
    exact ⟨lexeme_placed m _ _ fs hl ih.1 f (inflect_mem m sim q req f hi fs hl), .inflected ih.2 hi'⟩
  | @agreed q f pick num _ hi ih =>
    have hi' := (same q ih.1).makeAgree pick num
    rw [hi] at hi'
    have hl : ∃ fs, m.lexeme q = .ok fs := by
      unfold Morph.makeAgree at hi
      split at hi
      · unfold Morph.inflect at hi
        obtain ⟨fs, hl, _⟩ := (bind_ok_iff _ _ _).1 hi
        exact ⟨fs, hl⟩
      · obtain ⟨fs, hl, _⟩ := (bind_ok_iff _ _ _).1 hi
        exact ⟨fs, hl⟩
    obtain ⟨fs, hl⟩ := hl
    exact ⟨lexeme_placed m _ _ fs hl ih.1 f (makeAgree_mem m sim pick q num f hi fs hl), .agreed ih.2 hi'⟩

/-! ### A dictionary that grows -/

/-- `d'` is `d` with tags, suffixes, paradigms, words and predictions added (`words` and `pred`: nothing is said yet about what was added). -/
structure Dict.Grows (d d' : Dict) : Prop where
  prefixes : d'.prefixes = d.prefixes
  maxSuffixLength : d'.maxSuffixLength = d.maxSuffixLength
  gramtab : d.gramtab <+: d'.gramtab
  suffixes : d.suffixes <+: d'.suffixes
  paradigms : d.paradigms <+: d'.paradigms
  words : d.words.Sublist d'.words
  pred : List.Forall₂ (fun t t' => t.Sublist t') d.pred d'.pred

/-- Nothing that was added to a table concerns `W`: no key of an added entry is a spelling of a part of `W`. -/
def Unrelated {V : Type} (sub : Subst) (W : Str) (t t' : Dawg V) : Prop :=
  ∀ x v : Str, x <:+: W → Spells sub x v → t'.countP (fun e => decide (e.1 = v)) = t.countP fun e => decide (e.1 = v)

theorem vals_of_unrelated {V : Type} {sub : Subst} {W : Str} {t t' : Dawg V} (hs : t.Sublist t') (hu : Unrelated sub W t t') (x v : Str) (hx : x <:+: W)
    (hv : Spells sub x v) : t'.vals v = t.vals v := by
  unfold Dawg.vals
  have h1 : (t.filter fun e => decide (e.1 = v)).Sublist (t'.filter fun e => decide (e.1 = v)) := hs.filter _
  have h2 := hu x v hx hv
  rw [List.countP_eq_length_filter, List.countP_eq_length_filter] at h2
  rw [h1.eq_of_length h2.symm]

theorem pyGet_grow {α : Type} {l l' : List α} (h : l <+: l') {i : Nat} {a : α} (ha : pyGet l i = .ok a) : pyGet l' i = .ok a := by
  rw [pyGet_ok_iff] at ha ⊢
  obtain ⟨r, rfl⟩ := h
  exact List.getElem?_append_left (List.getElem?_eq_some_iff.1 ha).1 ▸ ha

theorem Dict.Grows.agree {d d' : Dict} {sub : Subst} {W : Str} (hd : d.WF) (hg : d.Grows d') (hw : Unrelated sub W d.words d'.words)
    (hp : List.Forall₂ (Unrelated sub W) d.pred d'.pred) : d.AgreeOn d' sub id W where
  prefixes := hg.prefixes
  maxSuffixLength := hg.maxSuffixLength
  paradigms := by
    intro k p hk
    have h1 : pyGet d.paradigms k = .ok p := (pyGet_ok_iff _ _ _).2 hk
    have h2 : pyGet d'.paradigms k = .ok p := pyGet_grow hg.paradigms h1
    unfold Dict.paradigmInfo
    rw [id_eq, h1, h2, ok_bind, ok_bind]
    refine mapE_congr _ _ _ fun i hi => ?_
    obtain ⟨pre, tag, suf, hf⟩ := hd.rows k p hk i (List.mem_range.1 hi)
    have e1 : d'.formPrefix p i = d.formPrefix p i := by unfold Dict.formPrefix; rw [hg.prefixes]
    have e2 : d'.formSuffix p i = .ok suf := by
      have := hf.hsuf
      unfold Dict.formSuffix at this ⊢
      obtain ⟨sid, h3, h4⟩ := (bind_ok_iff _ _ _).1 this
      rw [h3, ok_bind]
      exact pyGet_grow hg.suffixes h4
    have e3 : d'.tagInfo k i = .ok tag := by
      have := hf.htag
      unfold Dict.tagInfo at this ⊢
      rw [h1, ok_bind] at this
      rw [h2, ok_bind]
      obtain ⟨tid, h3, h4⟩ := (bind_ok_iff _ _ _).1 this
      rw [h3, ok_bind]
      exact pyGet_grow hg.gramtab h4
    unfold Dict.paradigmRow
    rw [e1, e2, e3, hf.hsuf, hf.htag]
  words := by
    intro x v hx hv
    rw [vals_of_unrelated hg.words hw x v hx hv]
    exact (List.map_id _).symm
  pred := by
    intro j t ht
    have hlen := hg.pred.length_eq
    have hj : j < d.pred.length := (List.getElem?_eq_some_iff.1 ht).1
    have ht' : d.pred[j] = t := (List.getElem?_eq_some_iff.1 ht).2
    refine ⟨d'.pred[j]'(by omega), List.getElem?_eq_getElem _, fun x v hx hv => ?_⟩
    have h1 := (List.forall₂_iff_get.1 hg.pred).2 j hj (by omega)
    have h2 := (List.forall₂_iff_get.1 hp).2 j hj (by omega)
    simp only [List.get_eq_getElem, ht'] at h1 h2
    rw [vals_of_unrelated h1 h2 x v hx hv]
    exact (List.map_id _).symm

mutual
theorem Stack.renum_id : ∀ s : Stack, s.renum id = s
  | .nil => rfl
  | .push r x => by rw [Stack.renum, Stack.renum_id r, Method.renum_id x]
theorem Method.renum_id : ∀ x : Method, x.renum id = x
  | .dict _ _ _ _ => rfl
  | .simple _ _ => rfl
  | .fixed _ _ r => by rw [Method.renum, Stack.renum_id r]
  | .both _ l r => by rw [Method.renum, Stack.renum_id l, Stack.renum_id r]
end

theorem Parse.renum_id : Parse.renum (S := S) id = id := by
  funext p
  unfold Parse.renum
  rw [Stack.renum_id]
  rfl

/-- **C96, growing dictionaries.** Adding entries to a dictionary — words, paradigms, tags, suffixes, endings — none of whose keys is a spelling of a part of the word
changes nothing at all about the word: neither its analyses, nor anything obtained from them. -/
theorem c96_grown (m m' : Morph S) (hm : m.DiffersInDict m') (hlow : m.env.LowerStable) (hd : m.dict.WF) (w : Str) (hg : m.dict.Grows m'.dict)
    (hw : Unrelated m.sub (m.env.lower w) m.dict.words m'.dict.words) (hp : List.Forall₂ (Unrelated m.sub (m.env.lower w)) m.dict.pred m'.dict.pred) :
    m'.parse w = m.parse w ∧ m'.tag w = m.tag w ∧ m'.normalForms w = m.normalForms w ∧ (∀ strict, m'.wordIsKnown w strict = m.wordIsKnown w strict) ∧
    ∀ ps, m.parse w = .ok ps → ∀ p0 ∈ ps, ∀ (sim : Sim) (p : Parse S), Obtained m sim p0 p → Obtained m' sim p0 p ∧ m'.lexeme p = m.lexeme p ∧
      m'.normalized p = m.normalized p ∧ (∀ req, m'.inflect sim p req = m.inflect sim p req) ∧
      ∀ pick num, m'.makeAgree sim pick p num = m.makeAgree sim pick p num := by
  have ha := hg.agree (sub := m.sub) hd hw hp
  obtain ⟨h1, h2, h3, h4⟩ := c96_answers m m' hm hlow hd id Function.injective_id w ha
  have eid : ∀ {α : Type} (x : Except PyErr α), x.map id = x := by
    intro α x; cases x <;> rfl
  rw [Parse.renum_id, List.map_id_fun, eid] at h1
  refine ⟨h1, h2, h3, h4, fun ps hps p0 hp0 sim p hob => ?_⟩
  obtain ⟨g1, g2⟩ := c96_methods m m' hm hlow hd id w ha ps hps p0 hp0 sim p hob
  obtain ⟨k1, k2, k3, k4⟩ := g2
  simp only [Parse.renum_id, id_eq, List.map_id_fun, Option.map_id_fun, eid] at g1 k1 k2 k3 k4
  exact ⟨g1, k1, k2, k3, k4⟩

/-! ### Non-vacuity -/

/-- A way to check agreement: look at all parts of the word. -/
theorem agree_of_check (d d' : Dict) (sub : Subst) (φ : Nat → Nat) (W : Str) (h1 : d'.prefixes = d.prefixes) (h2 : d'.maxSuffixLength = d.maxSuffixLength)
    (h3 : ∀ k < d.paradigms.length, (d'.paradigmInfo (φ k)).toOption = (d.paradigmInfo k).toOption ∧ (d.paradigmInfo k).toOption.isSome = true)
    (h4 : ∀ x ∈ [] :: pieces W, ∀ v ∈ variants sub x, d'.words.vals v = (d.words.vals v).map fun r => (φ r.1, r.2))
    (h5 : d'.pred.length = d.pred.length)
    (h6 : ∀ tt ∈ d.pred.zip d'.pred, ∀ x ∈ [] :: pieces W, ∀ v ∈ variants sub x, tt.2.vals v = (tt.1.vals v).map fun r => (r.1, φ r.2.1, r.2.2)) :
    d.AgreeOn d' sub φ W := by
  have hmem : ∀ x : Str, x <:+: W → x ∈ [] :: pieces W := by
    intro x hx
    by_cases hn : x = []
    · subst hn; simp
    · exact List.mem_cons_of_mem _ (mem_pieces W x hx hn)
  refine ⟨h1, h2, fun k p hk => ?_, fun x v hx hv => h4 x (hmem x hx) v ((mem_variants_iff _ _ _).2 hv), fun j t ht => ?_⟩
  · obtain ⟨e1, e2⟩ := h3 k (List.getElem?_eq_some_iff.1 hk).1
    cases hb : d.paradigmInfo k with
    | error e => rw [hb] at e2; simp [Except.toOption] at e2
    | ok b =>
      rw [hb] at e1
      cases ha : d'.paradigmInfo (φ k) with
      | error e => rw [ha] at e1; simp [Except.toOption] at e1
      | ok a => rw [ha] at e1; simp [Except.toOption] at e1; rw [e1]
  · have hj : j < d.pred.length := (List.getElem?_eq_some_iff.1 ht).1
    have ht' : d.pred[j] = t := (List.getElem?_eq_some_iff.1 ht).2
    refine ⟨d'.pred[j]'(by omega), List.getElem?_eq_getElem _, fun x v hx hv => ?_⟩
    refine h6 (t, d'.pred[j]'(by omega)) ?_ x (hmem x hx) v ((mem_variants_iff _ _ _).2 hv)
    refine List.mem_iff_getElem.2 ⟨j, by simp; omega, ?_⟩
    simp [ht']

/-- The dictionary of the examples, built anew: its paradigms, tags and suffixes in another order, with another word (имя), its paradigm and a prediction for its
ending among them. -/
def Demo.dict96 : Dict :=
  { Demo.dict with
    paradigms := [[3, 4, 3, 4, 0, 0], [0, 0, 0], [1, 2, 1, 2, 0, 0], [6, 7, 6, 7, 0, 0], [5, 5, 0]]
    gramtab := ⟨c!"NOUN,inan,neut sing,nomn"⟩ :: Demo.dict.gramtab
    suffixes := c!"мя" :: Demo.dict.suffixes
    words := [(c!"белому", (0, 1)), (c!"белый", (0, 0)), (c!"ежи", (3, 1)), (c!"имя", (1, 0)), (c!"кошек", (2, 1)),
      (c!"кошка", (2, 0)), (c!"что", (4, 0)), (c!"ёж", (3, 0))]
    pred := [[(c!"ка", (2, 2, 0)), (c!"мя", (1, 1, 0)), (c!"шка", (2, 2, 0)), (c!"ек", (2, 2, 1)), (c!"ый", (1, 0, 0))], [], []] }

/-- Where the paradigms are now. -/
def Demo.moved96 (k : Nat) : Nat := if k = 0 then 2 else if k = 1 then 0 else if k = 2 then 4 else if k = 3 then 3 else k + 5

theorem Demo.moved96_inj : Function.Injective Demo.moved96 := by
  intro a b h
  simp only [Demo.moved96] at h
  repeat' split at h
  all_goals omega

/-- Both dictionaries agree on any parts of some words, in spite of all this: a word that is in them, one that is predicted, a compound, one with a particle. -/
theorem Demo.agree96 : ∀ W ∈ [c!"кошек", c!"мышка", c!"кошка-ежи", c!"кошки-то"], Demo.dict.AgreeOn Demo.dict96 ruSubst Demo.moved96 W := by
  intro W hW
  refine agree_of_check _ _ _ _ _ rfl rfl (fun k hk => ?_) ?_ rfl ?_
  · have : ∀ k ∈ List.range 4, (Demo.dict96.paradigmInfo (Demo.moved96 k)).toOption = (Demo.dict.paradigmInfo k).toOption ∧
        (Demo.dict.paradigmInfo k).toOption.isSome = true := by decide +kernel
    exact this k (List.mem_range.2 hk)
  · have : ∀ W ∈ [c!"кошек", c!"мышка", c!"кошка-ежи", c!"кошки-то"], ∀ x ∈ [] :: pieces W, ∀ v ∈ variants ruSubst x,
        Demo.dict96.words.vals v = (Demo.dict.words.vals v).map fun r => (Demo.moved96 r.1, r.2) := by decide +kernel
    exact this W hW
  · have : ∀ W ∈ [c!"кошек", c!"мышка", c!"кошка-ежи", c!"кошки-то"], ∀ tt ∈ Demo.dict.pred.zip Demo.dict96.pred, ∀ x ∈ [] :: pieces W,
        ∀ v ∈ variants ruSubst x, tt.2.vals v = (tt.1.vals v).map fun r => (r.1, Demo.moved96 r.2.1, r.2.2) := by decide +kernel
    exact this W hW

/-- So all answers for them are the same, and so are the lexemes; but the added word is known only to one of the analyzers, and the answers name other paradigms. -/
example : (∀ w ∈ [c!"Кошек", c!"мышка", c!"Кошка-ежи", c!"кошки-то"],
      Demo.morphP.parse w ≠ .ok [] ∧ { Demo.morphP with dict := Demo.dict96 }.parse w = (Demo.morphP.parse w).map (List.map (Parse.renum Demo.moved96))) ∧
    Demo.morphP.wordIsKnown (c!"имя") = false ∧ { Demo.morphP with dict := Demo.dict96 }.wordIsKnown (c!"имя") = true ∧
    { Demo.morphP with dict := Demo.dict96 }.parse (c!"мышка") ≠ Demo.morphP.parse (c!"мышка") := by
  refine ⟨fun w hw => ⟨?_, ?_⟩, by decide +kernel, by decide +kernel, ?_⟩
  · have : ∀ w ∈ [c!"Кошек", c!"мышка", c!"Кошка-ежи", c!"кошки-то"], (Demo.morphP.parse w).toOption.any (fun ps => decide (ps ≠ [])) = true := by decide +kernel
    obtain ⟨ps, h1, h2⟩ := ok_of_any _ _ (this w hw)
    rw [h1]
    intro e
    cases e
    simp at h2
  · have hl : ∀ w ∈ [c!"Кошек", c!"мышка", c!"Кошка-ежи", c!"кошки-то"], Demo.morphP.env.lower w ∈ [c!"кошек", c!"мышка", c!"кошка-ежи", c!"кошки-то"] := by decide +kernel
    exact (c96_answers Demo.morphP { Demo.morphP with dict := Demo.dict96 } ⟨rfl, rfl, rfl, rfl, rfl⟩ demoEnv_lowerStable Demo.dict_wf Demo.moved96
      Demo.moved96_inj w (Demo.agree96 _ (hl w hw))).1
  · have h : ((({ Demo.morphP with dict := Demo.dict96 } : Morph Rat).parse (c!"мышка")).toOption.map (List.map Parse.stack)) ≠
        ((Demo.morphP.parse (c!"мышка")).toOption.map (List.map Parse.stack)) := by decide +kernel
    exact fun e => h (by rw [e])

/-- A dictionary that only grew: a paradigm, a tag and a suffix at the end, a word and an ending somewhere. -/
def Demo.dict96g : Dict :=
  { Demo.dict with
    paradigms := Demo.dict.paradigms ++ [[7, 7, 0]]
    gramtab := Demo.dict.gramtab ++ [⟨c!"NOUN,inan,neut sing,nomn"⟩]
    suffixes := Demo.dict.suffixes ++ [c!"мя"]
    words := Demo.dict.words.take 3 ++ (c!"имя", (4, 0)) :: Demo.dict.words.drop 3
    pred := [[(c!"ка", (2, 0, 0)), (c!"мя", (1, 4, 0)), (c!"шка", (2, 0, 0)), (c!"ек", (2, 0, 1)), (c!"ый", (1, 1, 0))], [], []] }

theorem unrelated_of_check {V : Type} (sub : Subst) (W : Str) (t t' : Dawg V)
    (h : ∀ x ∈ [] :: pieces W, ∀ v ∈ variants sub x, t'.countP (fun e => decide (e.1 = v)) = t.countP fun e => decide (e.1 = v)) : Unrelated sub W t t' := by
  intro x v hx hv
  refine h x ?_ v ((mem_variants_iff _ _ _).2 hv)
  by_cases hn : x = []
  · subst hn; simp
  · exact List.mem_cons_of_mem _ (mem_pieces W x hx hn)

/-- The word is predicted, in both, as a form like кошка; nothing about it changes. -/
example : Demo.dict.Grows Demo.dict96g ∧ Unrelated ruSubst (c!"мышка") Demo.dict.words Demo.dict96g.words ∧
    List.Forall₂ (Unrelated ruSubst (c!"мышка")) Demo.dict.pred Demo.dict96g.pred ∧
    { Demo.morph with dict := Demo.dict96g }.parse (c!"мышка") = Demo.morph.parse (c!"мышка") ∧
    { Demo.morph with dict := Demo.dict96g }.parse (c!"полымя") ≠ Demo.morph.parse (c!"полымя") := by
  have hg : Demo.dict.Grows Demo.dict96g := by
    refine ⟨rfl, rfl, ⟨_, rfl⟩, ⟨_, rfl⟩, ⟨_, rfl⟩, by decide +kernel, ?_⟩
    exact .cons (by decide +kernel) (.cons (by decide +kernel) (.cons (by decide +kernel) .nil))
  have hw : Unrelated ruSubst (c!"мышка") Demo.dict.words Demo.dict96g.words := unrelated_of_check _ _ _ _ (by decide +kernel)
  have hp : List.Forall₂ (Unrelated ruSubst (c!"мышка")) Demo.dict.pred Demo.dict96g.pred :=
    .cons (unrelated_of_check _ _ _ _ (by decide +kernel)) (.cons (unrelated_of_check _ _ _ _ (by decide +kernel)) (.cons (unrelated_of_check _ _ _ _ (by decide +kernel)) .nil))
  have hl : Demo.morph.env.lower (c!"мышка") = c!"мышка" := by decide +kernel
  refine ⟨hg, hw, hp, ?_, ?_⟩
  · exact (c96_grown Demo.morph { Demo.morph with dict := Demo.dict96g } ⟨rfl, rfl, rfl, rfl, rfl⟩ demoEnv_lowerStable Demo.dict_wf (c!"мышка") hg
      (by rw [hl]; exact hw) (by rw [hl]; exact hp)).1
  · have h : ((({ Demo.morph with dict := Demo.dict96g } : Morph Rat).parse (c!"полымя")).toOption.map (List.map Parse.tag)) ≠
        ((Demo.morph.parse (c!"полымя")).toOption.map (List.map Parse.tag)) := by decide +kernel
    exact fun e => h (by rw [e])

end Verif
