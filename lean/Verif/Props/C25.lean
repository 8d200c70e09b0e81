/-
C25 — `lat2cyr` and `cyr2lat` are inverse to each other.
-/
import Verif.Model.TagInit
import Verif.Lemmas.PyDict

namespace Verif

/-- A tag string in normal spelling: groups separated by single spaces, grammemes of a group separated by commas. -/
def spell (groups : List (List Str)) : Str := joinC ' ' (groups.map (joinC ','))

/-- A token that cannot be mistaken for several: not empty, no comma, no white space. -/
structure CleanTok (isSpace : Char → Bool) (tok : Str) : Prop where
  ne : tok ≠ []
  comma : ',' ∉ tok
  space : ∀ c ∈ tok, isSpace c = false

theorem splitWs_append (isSpace : Char → Bool) (hs : isSpace ' ' = true) (p s : Str) (hp : p ≠ []) (h : ∀ c ∈ p, isSpace c = false) :
    splitWs isSpace (p ++ ' ' :: s) = p :: splitWs isSpace s := by
  induction p with
  | nil => exact absurd rfl hp
  | cons c p ih =>
    cases p with
    | nil =>
      have : splitWs isSpace (' ' :: s) = splitWs isSpace s := by rw [splitWs.eq_def]; simp [hs]
      simp only [List.cons_append, List.nil_append]
      rw [splitWs, if_neg (by simp [h c])]
      simp only [hs, if_true, this]
    | cons d p =>
      have h2 : ∀ c ∈ d :: p, isSpace c = false := fun c hc => h c (by simp only [List.mem_cons] at hc ⊢; exact .inr hc)
      have := ih (by simp) h2
      simp only [List.cons_append] at this ⊢
      rw [splitWs, if_neg (by simp [h c])]
      simp only [h2 d (by simp), Bool.false_eq_true, if_false, this, consHead]

theorem splitWs_single (isSpace : Char → Bool) (p : Str) (hp : p ≠ []) (h : ∀ c ∈ p, isSpace c = false) : splitWs isSpace p = [p] := by
  induction p with
  | nil => exact absurd rfl hp
  | cons c p ih =>
    cases p with
    | nil => rw [splitWs, if_neg (by simp [h c])]
    | cons d p =>
      have h2 : ∀ c ∈ d :: p, isSpace c = false := fun c hc => h c (by simp only [List.mem_cons] at hc ⊢; exact .inr hc)
      rw [splitWs, if_neg (by simp [h c])]
      simp only [h2 d (by simp), Bool.false_eq_true, if_false, ih (by simp) h2, consHead]

theorem splitWs_joinC (isSpace : Char → Bool) (hs : isSpace ' ' = true) (ps : List Str)
    (h : ∀ p ∈ ps, p ≠ [] ∧ ∀ c ∈ p, isSpace c = false) : splitWs isSpace (joinC ' ' ps) = ps := by
  induction ps with
  | nil => rfl
  | cons p ps ih =>
    cases ps with
    | nil => exact splitWs_single isSpace p (h p (by simp)).1 (h p (by simp)).2
    | cons q ps =>
      rw [joinC, splitWs_append isSpace hs p _ (h p (by simp)).1 (h p (by simp)).2, ih fun r hr => h r (by simp [hr])]

theorem joinC_mem (x : Char) (ps : List Str) (c : Char) (h : c ∈ joinC x ps) : c = x ∨ ∃ p ∈ ps, c ∈ p := by
  induction ps with
  | nil => simp [joinC] at h
  | cons p ps ih =>
    cases ps with
    | nil => exact .inr ⟨p, by simp, h⟩
    | cons q ps =>
      rw [joinC, List.mem_append, List.mem_cons] at h
      rcases h with h | h | h
      · exact .inr ⟨p, by simp, h⟩
      · exact .inl h
      · rcases ih h with h | ⟨r, hr, h⟩
        · exact .inl h
        · exact .inr ⟨r, by simp [hr], h⟩

theorem joinC_ne_nil (x : Char) (ps : List Str) (hp : ps ≠ []) (h : ∀ p ∈ ps, p ≠ []) : joinC x ps ≠ [] := by
  cases ps with
  | nil => exact absurd rfl hp
  | cons p ps =>
    cases ps with
    | nil => exact h p (by simp)
    | cons q ps => rw [joinC]; simp

/-- What the translation does to a tag in normal spelling: each token is looked up, everything else stays in place. -/
theorem translate_spell (isSpace : Char → Bool) (hs : isSpace ' ' = true) (hc : isSpace ',' = false) (mapping : List (Str × Str))
    (groups : List (List Str)) (hg : ∀ g ∈ groups, g ≠ [] ∧ ∀ tok ∈ g, CleanTok isSpace tok) :
    translateTag isSpace mapping (spell groups) = spell (groups.map fun g => g.map fun tok => (dictGet tok mapping).getD tok) := by
  unfold translateTag spell
  rw [splitWs_joinC isSpace hs]
  · rw [List.map_map, List.map_map]
    congr 1
    apply List.map_congr_left
    intro g hgm
    simp only [Function.comp_apply, translateComma]
    rw [splitC_joinC ',' g (hg g hgm).1 fun tok ht => ((hg g hgm).2 tok ht).comma]
  · intro p hp
    obtain ⟨g, hgm, rfl⟩ := List.mem_map.1 hp
    refine ⟨joinC_ne_nil _ _ (hg g hgm).1 fun tok ht => ((hg g hgm).2 tok ht).ne, fun c hcm => ?_⟩
    rcases joinC_mem _ _ _ hcm with rfl | ⟨tok, ht, hct⟩
    · exact hc
    · exact ((hg g hgm).2 tok ht).space c hct

/-! ### The tables of a class -/

theorem fillRows_tables (rows : List GramRow) (l : List (GramRow × Nat)) (c : TagCls) :
    (TagCls.fillRows rows l c).lat2cyr = c.lat2cyr ∧ (TagCls.fillRows rows l c).cyr2lat = c.cyr2lat ∧
    (TagCls.fillRows rows l c).known = c.known ∧ (TagCls.fillRows rows l c).extraPlur = c.extraPlur := by
  induction l generalizing c with
  | nil => exact ⟨rfl, rfl, rfl, rfl⟩
  | cons r l ih => obtain ⟨r, i⟩ := r; exact ih _

/-- The class after `add_grammemes_to_known` for each `(lat, cyr)` pair. -/
def TagCls.addAll (c : TagCls) (pairs : List (Str × Str)) : TagCls := pairs.foldl (fun c e => c.addKnown e.1 e.2) c

theorem addKnown_true (c : TagCls) (lat cyr : Str) : c.addKnown lat cyr =
    { c with known := insert lat c.known, lat2cyr := dictSet lat cyr c.lat2cyr, cyr2lat := dictSet cyr lat c.cyr2lat } := by
  unfold TagCls.addKnown; simp

theorem addAll_tables (pairs : List (Str × Str)) (c : TagCls) (h1 : ((c.lat2cyr ++ pairs).map Prod.fst).Nodup)
    (h2 : ((c.cyr2lat ++ pairs.map Prod.swap).map Prod.fst).Nodup) :
    (c.addAll pairs).lat2cyr = c.lat2cyr ++ pairs ∧ (c.addAll pairs).cyr2lat = c.cyr2lat ++ pairs.map Prod.swap := by
  induction pairs generalizing c with
  | nil => simp [TagCls.addAll]
  | cons e pairs ih =>
    obtain ⟨lat, cyr⟩ := e
    have n1 : lat ∉ c.lat2cyr.map Prod.fst := by
      simp only [List.map_append, List.map_cons] at h1
      have := (List.nodup_append.1 h1).2.2
      intro hm
      exact this lat hm lat (by simp) rfl
    have n2 : cyr ∉ c.cyr2lat.map Prod.fst := by
      simp only [List.map_append, List.map_cons, Prod.fst_swap, Prod.swap_prod_mk] at h2
      have := (List.nodup_append.1 h2).2.2
      intro hm
      exact this cyr hm cyr (by simp) rfl
    have e1 : (c.addKnown lat cyr).lat2cyr = c.lat2cyr ++ [(lat, cyr)] := by
      rw [addKnown_true]; exact keys_dictSet_not_mem _ _ _ n1
    have e2 : (c.addKnown lat cyr).cyr2lat = c.cyr2lat ++ [(cyr, lat)] := by
      rw [addKnown_true]; exact keys_dictSet_not_mem _ _ _ n2
    have := ih (c.addKnown lat cyr) (by rw [e1]; simpa using h1) (by rw [e2]; simpa using h2)
    rw [e1, e2] at this
    simpa [TagCls.addAll] using this

theorem init_tables (c : TagCls) (rows : List GramRow) :
    (c.init rows).lat2cyr = (TagCls.initial.addAll (rows.map fun r => (r.name, r.alias_))).lat2cyr ∧
    (c.init rows).cyr2lat = (TagCls.initial.addAll (rows.map fun r => (r.name, r.alias_))).cyr2lat ∧
    (c.init rows).known = (TagCls.initial.addAll (rows.map fun r => (r.name, r.alias_))).known := by
  have key : ∀ (rows : List GramRow) (c d : TagCls), c.lat2cyr = d.lat2cyr → c.cyr2lat = d.cyr2lat → c.known = d.known →
      let c' := rows.foldl (fun c r => c.addKnown r.name r.alias_) c
      let d' := d.addAll (rows.map fun r => (r.name, r.alias_))
      c'.lat2cyr = d'.lat2cyr ∧ c'.cyr2lat = d'.cyr2lat ∧ c'.known = d'.known := by
    intro rows
    induction rows with
    | nil => intro c d h1 h2 h3; exact ⟨h1, h2, h3⟩
    | cons r rows ih =>
      intro c d h1 h2 h3
      simp only [List.foldl_cons, List.map_cons, TagCls.addAll]
      apply ih
      · rw [addKnown_true, addKnown_true]; simp [h1]
      · rw [addKnown_true, addKnown_true]; simp [h2]
      · rw [addKnown_true, addKnown_true]; simp [h3]
  have hf := fillRows_tables rows rows.zipIdx ((c.initKnown rows).expandExtra rows)
  have hk := key rows { c with known := ∅, lat2cyr := [], cyr2lat := [] } TagCls.initial rfl rfl rfl
  unfold TagCls.init
  exact ⟨hf.1.trans hk.1, hf.2.1.trans hk.2.1, hf.2.2.1.trans hk.2.2⟩

/-- The `(name, alias)` pairs a class knows after loading a table and registering further grammemes. -/
def knownPairs (rows : List GramRow) (extra : List (Str × Str)) : List (Str × Str) := (rows.map fun r => (r.name, r.alias_)) ++ extra

theorem class_tables (c : TagCls) (rows : List GramRow) (extra : List (Str × Str)) (h1 : ((knownPairs rows extra).map Prod.fst).Nodup)
    (h2 : ((knownPairs rows extra).map Prod.snd).Nodup) :
    ((c.init rows).addAll extra).lat2cyr = knownPairs rows extra ∧
    ((c.init rows).addAll extra).cyr2lat = (knownPairs rows extra).map Prod.swap := by
  have h2' : (((knownPairs rows extra).map Prod.swap).map Prod.fst).Nodup := by
    rw [List.map_map]; exact h2
  have hi := init_tables c rows
  have ha := addAll_tables (rows.map fun r => (r.name, r.alias_)) TagCls.initial
    (by unfold knownPairs at h1; rw [List.map_append] at h1; simpa [TagCls.initial] using (List.nodup_append.1 h1).1)
    (by unfold knownPairs at h2'; rw [List.map_append, List.map_append] at h2'
        simpa [TagCls.initial] using (List.nodup_append.1 h2').1)
  rw [ha.1, ha.2] at hi
  simp only [TagCls.initial, List.nil_append] at hi
  have hb := addAll_tables extra (c.init rows) (by rw [hi.1]; exact h1) (by rw [hi.2.1]; simpa [knownPairs] using h2')
  rw [hb.1, hb.2, hi.1, hi.2.1]
  simp [knownPairs]

theorem dictGet_swap_of_mem (pairs : List (Str × Str)) (h2 : (pairs.map Prod.snd).Nodup) (n a : Str) (h : (n, a) ∈ pairs) :
    dictGet a (pairs.map Prod.swap) = some n := by
  refine dictGet_of_mem _ _ _ ?_ ?_
  · rw [List.map_map]; exact h2
  · exact List.mem_map.2 ⟨(n, a), h, rfl⟩

/-- Looking a token up and back. -/
theorem token_roundtrip (fwd : List (Str × Str)) (h2 : (fwd.map Prod.snd).Nodup) (tok : Str)
    (ht : tok ∈ fwd.map Prod.fst ∨ tok ∉ fwd.map Prod.snd) :
    (dictGet ((dictGet tok fwd).getD tok) (fwd.map Prod.swap)).getD ((dictGet tok fwd).getD tok) = tok := by
  cases hd : dictGet tok fwd with
  | some a => rw [Option.getD_some, dictGet_swap_of_mem fwd h2 tok a (dictGet_mem' _ _ _ hd)]; rfl
  | none =>
    have hn := (dictGet_none_iff _ _).1 hd
    have : dictGet tok (fwd.map Prod.swap) = none := by
      rw [dictGet_none_iff, List.map_map]
      rcases ht with ht | ht
      · exact absurd ht hn
      · exact ht
    rw [Option.getD_none, this]; rfl

theorem token_clean (isSpace : Char → Bool) (fwd : List (Str × Str)) (h : ∀ e ∈ fwd, CleanTok isSpace e.2) (tok : Str) (ht : CleanTok isSpace tok) :
    CleanTok isSpace ((dictGet tok fwd).getD tok) := by
  cases hd : dictGet tok fwd with
  | some a => exact h _ (dictGet_mem' _ _ _ hd)
  | none => exact ht

theorem translate_roundtrip (isSpace : Char → Bool) (hs : isSpace ' ' = true) (hc : isSpace ',' = false) (fwd : List (Str × Str))
    (h2 : (fwd.map Prod.snd).Nodup) (hclean : ∀ e ∈ fwd, CleanTok isSpace e.2)
    (groups : List (List Str)) (hg : ∀ g ∈ groups, g ≠ [] ∧ ∀ tok ∈ g, CleanTok isSpace tok ∧ (tok ∈ fwd.map Prod.fst ∨ tok ∉ fwd.map Prod.snd)) :
    translateTag isSpace (fwd.map Prod.swap) (translateTag isSpace fwd (spell groups)) = spell groups := by
  rw [translate_spell isSpace hs hc fwd groups fun g hgm => ⟨(hg g hgm).1, fun tok ht => ((hg g hgm).2 tok ht).1⟩]
  rw [translate_spell isSpace hs hc]
  · rw [List.map_map]
    congr 1
    conv_rhs => rw [← List.map_id groups]
    apply List.map_congr_left
    intro g hgm
    simp only [Function.comp_apply, List.map_map, id]
    conv_rhs => rw [← List.map_id g]
    apply List.map_congr_left
    intro tok ht
    exact token_roundtrip fwd h2 tok ((hg g hgm).2 tok ht).2
  · intro g' hg'
    obtain ⟨g, hgm, rfl⟩ := List.mem_map.1 hg'
    refine ⟨by simpa using (hg g hgm).1, fun tok' ht' => ?_⟩
    obtain ⟨tok, ht, rfl⟩ := List.mem_map.1 ht'
    exact token_clean isSpace fwd hclean tok ((hg g hgm).2 tok ht).1

/-- **C25.** After loading a grammeme table whose names and aliases are pairwise distinct and contain no separators — and after
registering more grammemes of that kind — translating a tag to Cyrillic and back gives the tag, and the other way round.  Tokens
that are not known pass unchanged, so they are allowed as long as they are not names in the other alphabet. -/
theorem c25_inverse (isSpace : Char → Bool) (hs : isSpace ' ' = true) (hc : isSpace ',' = false) (c : TagCls) (rows : List GramRow)
    (extra : List (Str × Str)) (h1 : ((knownPairs rows extra).map Prod.fst).Nodup) (h2 : ((knownPairs rows extra).map Prod.snd).Nodup)
    (hn : ∀ e ∈ knownPairs rows extra, CleanTok isSpace e.1 ∧ CleanTok isSpace e.2) (groups : List (List Str))
    (hg : ∀ g ∈ groups, g ≠ [] ∧ ∀ tok ∈ g, CleanTok isSpace tok) :
    let cls := (c.init rows).addAll extra
    ((∀ g ∈ groups, ∀ tok ∈ g, (∃ a, (tok, a) ∈ knownPairs rows extra) ∨ ¬ ∃ n, (n, tok) ∈ knownPairs rows extra) →
      cls.toLat isSpace (cls.toCyr isSpace (spell groups)) = spell groups) ∧
    ((∀ g ∈ groups, ∀ tok ∈ g, (∃ n, (n, tok) ∈ knownPairs rows extra) ∨ ¬ ∃ a, (tok, a) ∈ knownPairs rows extra) →
      cls.toCyr isSpace (cls.toLat isSpace (spell groups)) = spell groups) := by
  intro cls
  obtain ⟨e1, e2⟩ := class_tables c rows extra h1 h2
  have m1 : ∀ tok, tok ∈ (knownPairs rows extra).map Prod.fst ↔ ∃ a, (tok, a) ∈ knownPairs rows extra := by
    intro tok; simp
  have m2 : ∀ tok, tok ∈ (knownPairs rows extra).map Prod.snd ↔ ∃ n, (n, tok) ∈ knownPairs rows extra := by
    intro tok; simp
  constructor
  · intro ht
    show translateTag isSpace ((c.init rows).addAll extra).cyr2lat (translateTag isSpace ((c.init rows).addAll extra).lat2cyr (spell groups)) = _
    rw [e1, e2]
    exact translate_roundtrip isSpace hs hc _ h2 (fun e he => (hn e he).2) groups
      fun g hgm => ⟨(hg g hgm).1, fun tok htm => ⟨(hg g hgm).2 tok htm, by rw [m1, m2]; exact ht g hgm tok htm⟩⟩
  · intro ht
    show translateTag isSpace ((c.init rows).addAll extra).lat2cyr (translateTag isSpace ((c.init rows).addAll extra).cyr2lat (spell groups)) = _
    rw [e1, e2]
    have hsw : (knownPairs rows extra) = ((knownPairs rows extra).map Prod.swap).map Prod.swap := by simp
    conv_lhs => arg 2; rw [hsw]
    refine translate_roundtrip isSpace hs hc _ (by rw [List.map_map]; exact h1) ?_ groups ?_
    · intro e he
      obtain ⟨e', he', rfl⟩ := List.mem_map.1 he
      exact (hn e' he').1
    · intro g hgm
      refine ⟨(hg g hgm).1, fun tok htm => ⟨(hg g hgm).2 tok htm, ?_⟩⟩
      rw [List.map_map, List.map_map]
      show tok ∈ (knownPairs rows extra).map Prod.snd ∨ tok ∉ (knownPairs rows extra).map Prod.fst
      rw [m1, m2]; exact ht g hgm tok htm

/-- **C25, places.** Whatever the table is, translating a tag in normal spelling keeps commas and spaces in their places: each token
is replaced by its translation, tokens that are not in the table stay. -/
theorem c25_places (isSpace : Char → Bool) (hs : isSpace ' ' = true) (hc : isSpace ',' = false) (c : TagCls)
    (groups : List (List Str)) (hg : ∀ g ∈ groups, g ≠ [] ∧ ∀ tok ∈ g, CleanTok isSpace tok) :
    ∃ f : Str → Str, c.toCyr isSpace (spell groups) = spell (groups.map fun g => g.map f) ∧
      (∀ tok, tok ∉ c.lat2cyr.map Prod.fst → f tok = tok) ∧ (∀ tok a, dictGet tok c.lat2cyr = some a → f tok = a) := by
  refine ⟨fun tok => (dictGet tok c.lat2cyr).getD tok, translate_spell isSpace hs hc _ groups hg, ?_, ?_⟩
  · intro tok ht
    show (dictGet tok c.lat2cyr).getD tok = tok
    rw [(dictGet_none_iff _ _).2 ht]; rfl
  · intro tok a h
    show (dictGet tok c.lat2cyr).getD tok = a
    rw [h]; rfl

/-- **C25, places, the other way.** The same for `cyr2lat`. -/
theorem c25_places_lat (isSpace : Char → Bool) (hs : isSpace ' ' = true) (hc : isSpace ',' = false) (c : TagCls)
    (groups : List (List Str)) (hg : ∀ g ∈ groups, g ≠ [] ∧ ∀ tok ∈ g, CleanTok isSpace tok) :
    ∃ f : Str → Str, c.toLat isSpace (spell groups) = spell (groups.map fun g => g.map f) ∧
      (∀ tok, tok ∉ c.cyr2lat.map Prod.fst → f tok = tok) ∧ (∀ tok a, dictGet tok c.cyr2lat = some a → f tok = a) := by
  refine ⟨fun tok => (dictGet tok c.cyr2lat).getD tok, translate_spell isSpace hs hc _ groups hg, ?_, ?_⟩
  · intro tok ht
    show (dictGet tok c.cyr2lat).getD tok = tok
    rw [(dictGet_none_iff _ _).2 ht]; rfl
  · intro tok a h
    show (dictGet tok c.cyr2lat).getD tok = a
    rw [h]; rfl

/-- **C25, `grammemes_cyr`.** The Cyrillic grammemes of a tag made of known grammemes are the aliases of its grammemes. -/
theorem c25_grammemes_cyr (c : TagCls) (t : Tag) (h : ∀ g ∈ t.grammemes, g ∈ c.lat2cyr.map Prod.fst) :
    ∃ gs, c.grammemesCyr t = .ok gs ∧ ∀ a, a ∈ gs ↔ ∃ g ∈ t.grammemes, dictGet g c.lat2cyr = some a := by
  have key : ∀ l : List Str, (∀ g ∈ l, g ∈ c.lat2cyr.map Prod.fst) → ∃ r, mapE c.cyrOf l = .ok r ∧ ∀ a, a ∈ r ↔ ∃ g ∈ l, dictGet g c.lat2cyr = some a := by
    intro l
    induction l with
    | nil => intro _; exact ⟨[], rfl, by simp⟩
    | cons g l ih =>
      intro hl
      obtain ⟨a, ha⟩ := (dictGet_isSome_iff g c.lat2cyr).2 (hl g (by simp))
      obtain ⟨r, hr, hm⟩ := ih fun g' hg' => hl g' (by simp [hg'])
      refine ⟨a :: r, ?_, ?_⟩
      · simp only [mapE, TagCls.cyrOf, ha, hr, ok_bind, pure_eq_ok]
      · intro b
        simp only [List.mem_cons, hm, exists_eq_or_imp, ha, Option.some.injEq]
        exact or_congr_left eq_comm
  obtain ⟨r, hr, hm⟩ := key t.tuple fun g hg => h g (by simpa [Tag.grammemes] using hg)
  refine ⟨r.toFinset, ?_, fun a => ?_⟩
  · unfold TagCls.grammemesCyr; rw [hr]; rfl
  · simp only [List.mem_toFinset, hm, Tag.grammemes]

/-- **C25, defect.** With an ambiguous alias the round trip changes the tag. -/
theorem c25_ambiguous :
    let cls := TagCls.initial.init [⟨c!"NOUN", none, c!"СУЩ"⟩, ⟨c!"NPRO", none, c!"СУЩ"⟩]
    cls.toLat (· = ' ') (cls.toCyr (· = ' ') (c!"NOUN")) = c!"NPRO" := by decide +kernel

/-- A concrete table that satisfies the hypotheses of `c25_inverse`, and what it does. -/
example :
    let rows : List GramRow := [⟨c!"POST", none, c!"ЧР"⟩, ⟨c!"NOUN", some (c!"POST"), c!"СУЩ"⟩, ⟨c!"sing", some (c!"NMbr"), c!"ед"⟩]
    let extra : List (Str × Str) := [(c!"UNKN", c!"НЕИЗВ")]
    ((knownPairs rows extra).map Prod.fst).Nodup ∧ ((knownPairs rows extra).map Prod.snd).Nodup ∧
    ((TagCls.initial.init rows).addAll extra).toCyr (· = ' ') (c!"NOUN,foo sing") = c!"СУЩ,foo ед" ∧
    c!"NOUN,foo sing" = spell [[c!"NOUN", c!"foo"], [c!"sing"]] := by decide +kernel

end Verif
