/-
C64 — the Cyrillic gramtab, and what saving a dictionary does to the tag classes.
-/
import Verif.Model.Cyr
import Verif.Props.C25
import Verif.Props.C26
import Verif.Props.C32
import Verif.Props.C56

namespace Verif

/-! ### Translation -/

/-- What a grammeme becomes: its alias, if it has one. -/
def aliasOr (m : List (Str × Str)) (tok : Str) : Str :=
  match dictGet tok m with
  | some (c :: a) => c :: a
  | _ => tok

/-- The names in the alias table cannot be confused in tags made of the grammemes `toks`: names are not empty and contain no separator;
a name occurs in a grammeme only if it is that grammeme, and not at all in the alias of another grammeme. -/
structure Separable (m : List (Str × Str)) (toks : List Str) : Prop where
  nodup : (m.map Prod.fst).Nodup
  clean : ∀ e ∈ m, e.1 ≠ [] ∧ ',' ∉ e.1 ∧ ' ' ∉ e.1
  whole : ∀ e ∈ m, ∀ tok ∈ toks, e.1 <:+: tok → e.1 = tok
  apart : ∀ e ∈ m, ∀ f ∈ m, f.1 ∈ toks → f.1 ≠ e.1 → ¬ e.1 <:+: f.2

theorem pyReplace_self (p new : Str) (hp : p ≠ []) : pyReplace p p new = new := by
  have := pyReplace_match p new [] hp
  simpa using this

/-- The loop, on one piece of the tag. -/
def fromPiece (m : List (Str × Str)) (s : Str) : Str := m.foldl (fun t e => if e.2 = [] then t else pyReplace t e.1 e.2) s

theorem foldl_spell (m : List (Str × Str)) (hm : ∀ e ∈ m, e.1 ≠ [] ∧ ',' ∉ e.1 ∧ ' ' ∉ e.1) (groups : List (List Str)) :
    fromInternal m (spell groups) = spell (groups.map fun g => g.map (fromPiece m)) := by
  induction m generalizing groups with
  | nil =>
    have : (fun g : List Str => g.map (fromPiece [])) = id := by
      funext g; exact List.map_id g
    rw [this, List.map_id]; rfl
  | cons e m ih =>
    have he := hm e (by simp)
    have hm' : ∀ e ∈ m, e.1 ≠ [] ∧ ',' ∉ e.1 ∧ ' ' ∉ e.1 := fun e h => hm e (by simp [h])
    unfold fromInternal at ih ⊢
    rw [List.foldl_cons]
    by_cases h2 : e.2 = []
    · rw [if_pos h2, ih hm' groups]
      congr 1
      apply List.map_congr_left; intro g _
      apply List.map_congr_left; intro t _
      simp [fromPiece, h2]
    · rw [if_neg h2]
      have : pyReplace (spell groups) e.1 e.2 = spell (groups.map fun g => g.map fun t => pyReplace t e.1 e.2) := by
        unfold spell
        rw [pyReplace_joinC _ _ _ he.2.2 he.1, List.map_map, List.map_map]
        congr 1
        apply List.map_congr_left; intro g _
        exact pyReplace_joinC _ _ _ he.2.1 he.1 g
      rw [this, ih hm', List.map_map]
      congr 1
      apply List.map_congr_left; intro g _
      simp only [Function.comp_apply, List.map_map]
      apply List.map_congr_left; intro t _
      simp [fromPiece, h2]

theorem fromPiece_apart (m : List (Str × Str)) (s : Str) (h : ∀ e ∈ m, ¬ e.1 <:+: s) : fromPiece m s = s := by
  induction m with
  | nil => rfl
  | cons e m ih =>
    have := ih fun e he => h e (by simp [he])
    unfold fromPiece at this ⊢
    rw [List.foldl_cons]
    split
    · exact this
    · rw [pyReplace_eq_self _ _ _ (h e (by simp))]; exact this

theorem fromPiece_tok (m : List (Str × Str)) (toks : List Str) (hs : Separable m toks) (tok : Str) (ht : tok ∈ toks) :
    fromPiece m tok = aliasOr m tok := by
  induction m with
  | nil => rfl
  | cons e m ih =>
    have hs' : Separable m toks :=
      ⟨(List.nodup_cons.1 hs.nodup).2, fun e h => hs.clean e (by simp [h]), fun e h => hs.whole e (by simp [h]),
        fun e h f h' => hs.apart e (by simp [h]) f (by simp [h'])⟩
    have hrest : ∀ f ∈ m, f.1 ≠ e.1 := by
      intro f hf he
      exact (List.nodup_cons.1 hs.nodup).1 (he ▸ List.mem_map_of_mem hf)
    have ih := ih hs'
    have step : fromPiece (e :: m) tok = fromPiece m (if e.2 = [] then tok else pyReplace tok e.1 e.2) := rfl
    rw [step]
    by_cases h1 : e.1 = tok
    · have hg : dictGet tok (e :: m) = some e.2 := by unfold dictGet; rw [if_pos h1]
      have hap : ∀ f ∈ m, ¬ f.1 <:+: tok := by
        intro f hf hi
        exact hrest f hf ((hs.whole f (by simp [hf]) tok ht hi).trans h1.symm)
      unfold aliasOr
      rw [hg]
      cases h2 : e.2 with
      | nil => simp only [if_true]; exact fromPiece_apart m tok hap
      | cons c a =>
        rw [if_neg (by simp), ← h2, ← h1, pyReplace_self _ _ (hs.clean e (by simp)).1]
        simp only [h2]
        rw [← h2]
        exact fromPiece_apart m _ fun f hf => hs.apart f (by simp [hf]) e (by simp) (h1 ▸ ht) (hrest f hf).symm
    · have hg : dictGet tok (e :: m) = dictGet tok m := by rw [dictGet, if_neg h1]
      have hno : ¬ e.1 <:+: tok := fun h => h1 (hs.whole e (by simp) tok ht h)
      have : aliasOr (e :: m) tok = aliasOr m tok := by unfold aliasOr; rw [hg]
      rw [this, ← ih]
      split
      · rfl
      · rw [pyReplace_eq_self _ _ _ hno]

/-- **C64.** The tags of the Cyrillic gramtab: every grammeme is replaced by its alias (if it has one), commas and spaces keep their places. -/
theorem c64_translation (m : List (Str × Str)) (groups : List (List Str)) (hs : Separable m groups.flatten) :
    fromInternal m (spell groups) = spell (groups.map fun g => g.map (aliasOr m)) := by
  rw [foldl_spell m hs.clean]
  congr 1
  apply List.map_congr_left; intro g hg
  apply List.map_congr_left; intro t ht
  exact fromPiece_tok m _ hs t (List.mem_flatten.2 ⟨g, hg, ht⟩)

theorem addAliases_get (rows : List GramRow) (m : List (Str × Str)) (k a : Str) (h : dictGet k (addAliases m rows) = some a) :
    dictGet k m = some a ∨ ∃ row ∈ rows, row.name = k ∧ row.alias_ = a := by
  induction rows generalizing m with
  | nil => exact .inl h
  | cons row rows ih =>
    rcases ih (dictSet row.name row.alias_ m) h with h | ⟨r, hr, h⟩
    · rw [dictGet_dictSet] at h
      split at h
      · next he => cases h; exact .inr ⟨row, by simp, he.symm, rfl⟩
      · exact .inl h
    · exact .inr ⟨r, by simp [hr], h⟩

theorem lat2cyr_eq (cls : TagCls) (rows : List GramRow) : (cls.init rows).lat2cyr = addAliases [] rows := by
  rw [(init_tables cls rows).1]
  have : ∀ (rows : List GramRow) (c : TagCls), (c.addAll (rows.map fun r => (r.name, r.alias_))).lat2cyr = addAliases c.lat2cyr rows := by
    intro rows
    induction rows with
    | nil => intro c; rfl
    | cons r rows ih =>
      intro c
      show ((c.addKnown r.name r.alias_).addAll _).lat2cyr = _
      rw [ih, addKnown_true]
      rfl
  exact this rows TagCls.initial

/-- **C64.** In a process that has not saved or loaded a Cyrillic dictionary before, and if every grammeme of the table has an alias, the Cyrillic
tag is what `lat2cyr` gives after loading the dictionary. -/
theorem c64_is_lat2cyr (isSpace : Char → Bool) (hsp : isSpace ' ' = true) (hc : isSpace ',' = false) (r : Registry) (cls : TagCls) (rows : List GramRow)
    (hr : r.aliasMap = []) (hne : ∀ row ∈ rows, row.alias_ ≠ []) (tags : List (List (List Str)))
    (hg : ∀ groups ∈ tags, ∀ g ∈ groups, g ≠ [] ∧ ∀ tok ∈ g, CleanTok isSpace tok)
    (hs : ∀ groups ∈ tags, Separable (addAliases [] rows) groups.flatten) :
    (r.save rows (tags.map spell)).2 = (tags.map spell).map ((cls.init rows).toCyr isSpace) := by
  simp only [Registry.save, Registry.initCyr, hr, List.map_map]
  apply List.map_congr_left
  intro groups hgm
  simp only [Function.comp_apply]
  unfold TagCls.toCyr
  rw [c64_translation _ _ (hs groups hgm), lat2cyr_eq, translate_spell isSpace hsp hc _ _ (hg groups hgm)]
  congr 1
  apply List.map_congr_left; intro g _
  apply List.map_congr_left; intro tok _
  unfold aliasOr
  cases h : dictGet tok (addAliases [] rows) with
  | none => rfl
  | some a =>
    cases a with
    | cons c a => rfl
    | nil =>
      rcases addAliases_get _ _ _ _ h with h | ⟨row, hrow, _, h⟩
      · cases h
      · exact absurd h (hne row hrow)

/-! ### The classes -/

/-- **C64.** Saving a dictionary has the effect of loading it twice on the tag class all analyzers of the process share. -/
theorem c64_save_effect (r : Registry) (rows : List GramRow) (gramtab : List Str) :
    (r.save rows gramtab).1.base = (r.base.init rows).init rows ∧ (r.save rows gramtab).1.owned = true := by
  refine ⟨?_, rfl⟩
  have hx : ((r.initCyr rows).base).extraPlur = (r.base.init rows).extraPlur := by
    rw [expand_init]
    unfold Registry.initCyr
    simp only
    split
    · rfl
    · rw [(fillRows_tables _ _ _).2.2.2]; rfl
  have ht := init_tables (r.initCyr rows).base rows
  have ht' := init_tables (r.base.init rows) rows
  have he := expand_init (r.initCyr rows).base rows
  have he' := expand_init (r.base.init rows) rows
  rw [hx, ← he'] at he
  have hi : ∀ g, ((r.initCyr rows).base.init rows).incompat g = ((r.base.init rows).init rows).incompat g ∧
      ((r.initCyr rows).base.init rows).indices g = ((r.base.init rows).init rows).indices g := by
    intro g
    have a := init_incompat (r.initCyr rows).base rows g
    have b := init_incompat (r.base.init rows) rows g
    have c := init_incompat r.base rows g
    rw [a.1, a.2, b.1, b.2, he]
    cases hl : lastRow rows g with
    | some e => exact ⟨rfl, rfl⟩
    | none =>
      rw [hl] at c
      simp only at c ⊢
      rw [c.1, c.2]
      unfold Registry.initCyr
      simp only
      split
      · exact ⟨rfl, rfl⟩
      · have := fillRows_spec rows rows.zipIdx (r.base.expandExtra rows) g
        unfold lastRow at hl
        rw [hl] at this
        exact this
  show (r.initCyr rows).base.init rows = _
  generalize (r.initCyr rows).base.init rows = x at *
  generalize (r.base.init rows).init rows = y at *
  obtain ⟨x1, x2, x3, x4, x5, x6⟩ := x
  obtain ⟨y1, y2, y3, y4, y5, y6⟩ := y
  simp only at *
  rw [ht.1, ht.2.1, ht.2.2, ← ht'.1, ← ht'.2.1, ← ht'.2.2, he, funext fun g => (hi g).1, funext fun g => (hi g).2]

/-! ### Loading the Cyrillic format -/

/-- What loading the Cyrillic format does with a completely saved dictionary. -/
theorem loadExt_saved (little : Bool) (i : SaveInfo) (rows : List GramRow) (c : Compiled) (ops : List (FName × File)) (d : Disk) (r : Registry)
    (h : saveOps little i rows c = .ok ops) :
    r.loadExt (d.writeAll ops) = (r.initCyr rows, mapE ({ (r.initCyr rows).base with known := (r.initCyr rows).cyrKnown } : TagCls).mkTag i.extTags) := by
  have hn := saveOps_nodup _ _ _ _ _ h
  obtain ⟨b, hb, hops⟩ := saveOps_ok _ _ _ _ _ h
  have get := fun n f hm => writeAll_mem ops n f hn hm d
  have g1 := get .grammemes (.json (.arr (rows.map rowJson))) (by rw [hops]; simp)
  have g2 := get (.named (c!"gramtab-opencorpora-ext.json")) (.json (.arr (i.extTags.map Json.str))) (by rw [hops]; simp)
  have g6 := get .metaF (metaFile (metaOf i c)) (by rw [hops]; simp)
  generalize d.writeAll ops = D at *
  have hD : D = D.set .metaF (metaFile (metaOf i c)) := by
    funext n
    by_cases hnm : n = .metaF
    · rw [hnm, g6]; simp [Disk.set]
    · simp [Disk.set, hnm]
  have hmeta : loadMeta D = .ok (metaOf i c) := by
    conv_lhs => rw [hD]
    exact loadMeta_written D (metaOf i c) (metaOf_nodup i c)
  have hfmt : assertFormat (metaOf i c) = .ok () := (c37_accepted_iff _).2 ⟨['4'], by decide, rfl⟩
  have hgt : loadGramtab D (metaOf i c) (c!"opencorpora-ext") = .ok i.extTags := by
    have e1 : (dictGet (c!"gramtab_formats") (metaOf i c)).getD (.obj []) =
      .obj [(c!"opencorpora-ext", .str (c!"gramtab-opencorpora-ext.json")), (c!"opencorpora-int", .str (c!"gramtab-opencorpora-int.json"))] := rfl
    have e2 : dictGet (c!"opencorpora-ext") [(c!"opencorpora-ext", Json.str (c!"gramtab-opencorpora-ext.json")),
      (c!"opencorpora-int", .str (c!"gramtab-opencorpora-int.json"))] = some (.str (c!"gramtab-opencorpora-ext.json")) := rfl
    unfold loadGramtab
    rw [e1]
    simp only [e2, asStr, ok_bind, readJson, g2, asStrs_strs]
  have rg : readJson D .grammemes = .ok (.arr (rows.map rowJson)) := by unfold readJson; rw [g1]
  unfold Registry.loadExt
  simp only [hmeta, ok_bind, hfmt, rg, rowsOf_rows]
  show (r.initCyr rows, _) = _
  simp only [hgt, ok_bind]

theorem mkTag_of_subset (c : TagCls) (s : Str) (h : ∀ g ∈ splitTag s, g ∈ c.known) : c.mkTag s = .ok ⟨s⟩ := by
  unfold TagCls.mkTag TagCls.assertKnown
  rw [if_pos (by intro g hg; exact h g (by simpa using hg))]
  rfl

theorem mkTag_of_not (c : TagCls) (s g : Str) (hg : g ∈ splitTag s) (h : g ∉ c.known) (hk : c.known ≠ ∅) : c.mkTag s = .error .valueError := by
  unfold TagCls.mkTag TagCls.assertKnown TagCls.assertInit
  rw [if_neg (by intro hs; exact h (hs (by simpa using hg))), if_neg hk]
  rfl

theorem mapE_fails {α β : Type} (f : α → Except PyErr β) (l : List α) (x : α) (hx : x ∈ l) (e : PyErr)
    (hall : ∀ y ∈ l, (∃ b, f y = .ok b) ∨ f y = .error e) (he : f x = .error e) : mapE f l = .error e := by
  induction l with
  | nil => simp at hx
  | cons a l ih =>
    rw [mapE]
    rcases hall a (by simp) with ⟨b, hb⟩ | hb
    · rw [hb, ok_bind]
      rcases List.mem_cons.1 hx with rfl | hx
      · rw [hb] at he; cases he
      · rw [ih hx fun y hy => hall y (by simp [hy])]; rfl
    · rw [hb]; rfl

/-- **C64.** A saved dictionary can be loaded in the Cyrillic format exactly if all grammemes of its Cyrillic tags are Latin names of the
table; otherwise `ValueError` is raised. -/
theorem c64_ext_load (little : Bool) (i : SaveInfo) (rows : List GramRow) (hrows : rows ≠ []) (c : Compiled) (ops : List (FName × File)) (d : Disk)
    (r : Registry) (h : saveOps little i rows c = .ok ops) :
    ((∀ s ∈ i.extTags, ∀ g ∈ splitTag s, g ∈ rows.map GramRow.name) → (r.loadExt (d.writeAll ops)).2 = .ok (i.extTags.map Tag.mk)) ∧
    ((¬ ∀ s ∈ i.extTags, ∀ g ∈ splitTag s, g ∈ rows.map GramRow.name) → (r.loadExt (d.writeAll ops)).2 = .error .valueError) := by
  rw [loadExt_saved little i rows c ops d r h]
  have hk : ({ (r.initCyr rows).base with known := (r.initCyr rows).cyrKnown } : TagCls).known ≠ ∅ := by
    obtain ⟨row, rows, rfl⟩ := List.exists_cons_of_ne_nil hrows
    intro he
    have : row.name ∈ (∅ : Grams) := by rw [← he]; simp [Registry.initCyr]
    simp at this
  generalize hc : ({ (r.initCyr rows).base with known := (r.initCyr rows).cyrKnown } : TagCls) = cls at *
  have hmem : ∀ g, g ∈ cls.known ↔ g ∈ rows.map GramRow.name := by
    intro g; rw [← hc]; simp [Registry.initCyr]
  constructor
  · intro hall
    simp only
    rw [mapE_congr _ (fun s => .ok (Tag.mk s)) _ fun s hs => mkTag_of_subset cls s fun g hg => (hmem g).2 (hall s hs g hg), mapE_pure]
  · intro hn
    simp only [not_forall] at hn
    obtain ⟨s, hs, g, hg, hn⟩ := hn
    refine mapE_fails _ _ s hs _ (fun y hy => ?_) (mkTag_of_not cls s g hg (mt (hmem g).1 hn) hk)
    by_cases hy : ∀ g ∈ splitTag y, g ∈ cls.known
    · exact .inl ⟨_, mkTag_of_subset cls y hy⟩
    · simp only [not_forall] at hy
      obtain ⟨g, hg, hn⟩ := hy
      exact .inr (mkTag_of_not cls y g hg hn hk)

/-- **C64 (defect).** The Cyrillic format cannot be loaded: if the Cyrillic gramtab is the translation of the compiled one and some tag has a
grammeme with an alias that is not itself a grammeme name, loading raises `ValueError`. -/
theorem c64_unloadable (little : Bool) (i : SaveInfo) (rows : List GramRow) (c : Compiled) (ops : List (FName × File)) (d : Disk)
    (r r' : Registry) (h : saveOps little i rows c = .ok ops) (hi : i.extTags = (r'.save rows c.gramtab).2)
    (groups : List (List Str)) (ht : spell groups ∈ c.gramtab) (hlen : groups.length ≤ 2) (hs : Separable (addAliases r'.aliasMap rows) groups.flatten)
    (hcl : ∀ e ∈ addAliases r'.aliasMap rows, ',' ∉ e.2 ∧ ' ' ∉ e.2) (hct : ∀ tok ∈ groups.flatten, ',' ∉ tok ∧ ' ' ∉ tok)
    (tok a : Str) (htok : tok ∈ groups.flatten) (ha : dictGet tok (addAliases r'.aliasMap rows) = some a) (hne : a ≠ [])
    (hrows : rows ≠ []) (hnot : a ∉ rows.map GramRow.name) :
    (r.loadExt (d.writeAll ops)).2 = .error .valueError := by
  refine (c64_ext_load little i rows hrows c ops d r h).2 fun hall => hnot ?_
  refine hall (fromInternal (addAliases r'.aliasMap rows) (spell groups)) ?_ a ?_
  · rw [hi]
    exact List.mem_map_of_mem ht
  · rw [c64_translation _ _ hs]
    have hor : aliasOr (addAliases r'.aliasMap rows) tok = a := by
      unfold aliasOr; rw [ha]
      cases a with
      | nil => exact absurd rfl hne
      | cons x a => rfl
    obtain ⟨g, hg, htg⟩ := List.mem_flatten.1 htok
    have hno : ∀ g ∈ groups.map fun g => g.map (aliasOr (addAliases r'.aliasMap rows)), ∀ t ∈ g, ',' ∉ t ∧ ' ' ∉ t := by
      intro g' hg' t ht'
      obtain ⟨g, hg, rfl⟩ := List.mem_map.1 hg'
      obtain ⟨t0, ht0, rfl⟩ := List.mem_map.1 ht'
      have h0 := hct t0 (List.mem_flatten.2 ⟨g, hg, ht0⟩)
      unfold aliasOr
      split
      · next x a' hx =>
        exact hcl (t0, x :: a') (dictGet_mem' _ _ _ hx)
      · exact h0
    have hmem : ∃ g' ∈ groups.map fun g => g.map (aliasOr (addAliases r'.aliasMap rows)), a ∈ g' :=
      ⟨_, List.mem_map_of_mem hg, by rw [← hor]; exact List.mem_map_of_mem htg⟩
    have hlen' : (groups.map fun g => g.map (aliasOr (addAliases r'.aliasMap rows))).length ≤ 2 := by simpa using hlen
    generalize groups.map (fun g => g.map (aliasOr (addAliases r'.aliasMap rows))) = G at *
    have sp : ∀ g : List Str, (∀ t ∈ g, ',' ∉ t ∧ ' ' ∉ t) → ' ' ∉ joinC ',' g := by
      intro g hg hm
      rcases joinC_mem _ _ _ hm with h | ⟨p, hp, h⟩
      · cases h
      · exact (hg p hp).2 h
    match G, hmem, hno, hlen' with
    | [], ⟨g', hg', _⟩, _, _ => simp at hg'
    | [g], ⟨g', hg', ha'⟩, hno, _ =>
      simp only [List.mem_singleton] at hg'; subst hg'
      have hg0 := hno g' (by simp)
      show a ∈ splitC ',' (replaceFirst ' ' ',' (joinC ',' g'))
      rw [replaceFirst_not_mem _ _ _ (sp g' hg0), splitC_joinC _ _ (by rintro rfl; simp at ha') fun p hp => (hg0 p hp).1]
      exact ha'
    | [g, k], ⟨g', hg', ha'⟩, hno, _ =>
      have hg0 := hno g (by simp)
      have hk0 := hno k (by simp)
      show a ∈ splitC ',' (replaceFirst ' ' ',' (joinC ',' g ++ ' ' :: joinC ',' k))
      rw [replaceFirst_append _ _ _ _ (sp g hg0)]
      have e : ∀ x y : Str, splitC ',' (x ++ ',' :: y) = splitC ',' x ++ splitC ',' y := by
        intro x y
        induction x with
        | nil => rfl
        | cons c x ih =>
          rw [List.cons_append, splitC, splitC, ih]
          split
          · rfl
          · cases hx : splitC ',' x with
            | nil => exact absurd hx (splitC_ne_nil _ _)
            | cons p ps => rfl
      rw [e]
      simp only [List.mem_cons, List.not_mem_nil, or_false] at hg'
      have q : ∀ g : List Str, (∀ t ∈ g, ',' ∉ t ∧ ' ' ∉ t) → a ∈ g → a ∈ splitC ',' (joinC ',' g) := by
        intro g hg ha
        rw [splitC_joinC _ _ (by rintro rfl; simp at ha) fun p hp => (hg p hp).1]; exact ha
      rcases hg' with rfl | rfl
      · exact List.mem_append_left _ (q _ hg0 ha')
      · exact List.mem_append_right _ (q _ hk0 ha')

/-- **C64 (defect).** Trying to load the Cyrillic format for the first time changes the class that all other analyzers use: the
incompatibilities of the new table replace those of the loaded dictionary, although its known grammemes stay. -/
theorem c64_ext_corrupts (little : Bool) (i : SaveInfo) (rows : List GramRow) (c : Compiled) (ops : List (FName × File)) (d : Disk)
    (r : Registry) (hr : r.owned = false) (h : saveOps little i rows c = .ok ops) :
    (r.loadExt (d.writeAll ops)).1.base.known = r.base.known ∧
    ∀ g, (r.loadExt (d.writeAll ops)).1.base.incompat g = (r.base.init rows).incompat g := by
  rw [loadExt_saved little i rows c ops d r h]
  unfold Registry.initCyr
  simp only [hr, Bool.false_eq_true, if_false]
  refine ⟨(fillRows_tables _ _ _).2.2.1, fun g => ?_⟩
  rw [(fillRows_spec _ _ _ g).1, (init_incompat r.base rows g).1, expand_init]
  rfl

/-- **C64.** Later attempts leave the tables of the class as they are; only the set of grammemes plural forms exclude grows. -/
theorem c64_ext_again (little : Bool) (i : SaveInfo) (rows : List GramRow) (c : Compiled) (ops : List (FName × File)) (d : Disk)
    (r : Registry) (hr : r.owned = true) (h : saveOps little i rows c = .ok ops) :
    (r.loadExt (d.writeAll ops)).1.base.known = r.base.known ∧ (r.loadExt (d.writeAll ops)).1.base.incompat = r.base.incompat ∧
    (r.loadExt (d.writeAll ops)).1.base.indices = r.base.indices ∧ (r.loadExt (d.writeAll ops)).1.owned = true ∧
    ∀ g, g ∈ (r.loadExt (d.writeAll ops)).1.base.extraPlur ↔ g ∈ r.base.extraPlur ∨ ∃ p ∈ r.base.extraPlur, Below rows g p := by
  rw [loadExt_saved little i rows c ops d r h]
  unfold Registry.initCyr
  simp only [hr, if_true, TagCls.expandExtra]
  refine ⟨trivial, trivial, trivial, trivial, fun g => ?_⟩
  simp only [Finset.mem_union, Finset.mem_biUnion, mem_kids]

/-! ### Concrete cases -/

/-- A table of three grammemes and an analyzer's class that has loaded another one. -/
def Demo.cyrRows : List GramRow := [⟨c!"NOUN", none, c!"СУЩ"⟩, ⟨c!"sing", none, c!"ед"⟩, ⟨c!"plur", none, c!"мн"⟩]

example : Separable (addAliases [] Demo.cyrRows) [[c!"NOUN"], [c!"sing"]].flatten := by
  refine ⟨by decide +kernel, by decide +kernel, ?_, ?_⟩ <;> decide +kernel

example : (Registry.initial.save Demo.cyrRows [c!"NOUN sing"]).2 = [c!"СУЩ ед"] ∧
    dictGet (c!"NOUN") (addAliases [] Demo.cyrRows) = some (c!"СУЩ") ∧ c!"СУЩ" ∉ Demo.cyrRows.map GramRow.name := by decide +kernel

example : (Registry.initial.save Demo.cyrRows [c!"NOUN sing"]).1.owned = true := rfl

/-- A name inside another one is replaced as well: here `Infr` is damaged by `Inf`. -/
theorem c64_confusion : fromInternal [(c!"Inf", c!"инф"), (c!"Infr", c!"разг")] (c!"VERB,Infr") = c!"VERB,инфr" := by decide +kernel

/-- **C64 (defect).** The aliases of dictionaries saved earlier in the process are still applied: without the first save the tag stays as it is. -/
theorem c64_alias_leak :
    ((Registry.initial.save [⟨c!"sing", none, c!"ед"⟩] []).1.save [⟨c!"singl", none, c!""⟩] [c!"singl"]).2 = [c!"едl"] ∧
    (Registry.initial.save [⟨c!"singl", none, c!""⟩] [c!"singl"]).2 = [c!"singl"] := by decide +kernel

/-- **C64 (defect).** A concrete victim: before the attempt `plur` removes nothing from an adjective, afterwards it removes Qual. -/
theorem c64_victim :
    let A : List GramRow := [⟨c!"ADJF", none, c!"ПРИЛ"⟩, ⟨c!"Qual", none, c!"кач"⟩, ⟨c!"plur", none, c!"мн"⟩]
    let B : List GramRow := [⟨c!"GNdr", none, c!"род"⟩, ⟨c!"Qual", some (c!"GNdr"), c!"кач"⟩, ⟨c!"plur", none, c!"мн"⟩]
    let r : Registry := { Registry.initial with base := TagCls.initial.init A }
    updatedGrammemes r.base ⟨c!"ADJF,Qual"⟩ [c!"plur"] = .ok [c!"ADJF", c!"Qual", c!"plur"].toFinset ∧
    updatedGrammemes (r.initCyr B).base ⟨c!"ADJF,Qual"⟩ [c!"plur"] = .ok [c!"ADJF", c!"plur"].toFinset := by
  decide +kernel

end Verif
