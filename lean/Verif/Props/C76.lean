/-
C76 — calling the converter: the C extension, the options, the metadata.
-/
import Verif.Props.C67
import Verif.Model.ConvertCall

namespace Verif

/-- The conversion has work to do: the output folder is new, or is to be overwritten. -/
def Runs (overwrite : Bool) (folder : Option Disk) : Prop := folder = none ∨ overwrite = true

theorem Runs.not {overwrite : Bool} {folder : Option Disk} (h : Runs overwrite folder) : ¬ (folder.isSome ∧ overwrite = false) := by
  rintro ⟨h1, h2⟩
  rcases h with rfl | h
  · cases h1
  · rw [h] at h2; cases h2

/-- **C76.** Without the C extension the conversion raises `NotImplementedError` and touches nothing. -/
theorem c76_no_extension (a : ConvArgs) (st : Stamp) (u : Option UserOpts) (doc : Elem) (overwrite : Bool) (reg : Registry) (folder : Option Disk) :
    a.call st false u doc overwrite reg folder = ⟨reg, folder, .error (.raised .notImplementedError)⟩ := rfl

/-- **C76.** (A defect.) `compile_options` is optional in the signature, but a conversion without it, or with one that lacks `paradigm_prefixes`, never
succeeds: `KeyError` after the file has been read (or the exception of reading it).  The folder has been created before: after such a call every call
without `overwrite` (whatever its options and document) does nothing, successfully, and there is no dictionary. -/
theorem c76_no_prefixes (a : ConvArgs) (st : Stamp) (u : Option UserOpts) (hu : ∀ o, u = some o → o.paradigmPrefixes = none) (doc : Elem)
    (overwrite : Bool) (reg : Registry) (folder : Option Disk) (hrun : Runs overwrite folder) :
    let r := a.call st true u doc overwrite reg folder
    r.reg = reg ∧ r.folder = some (folder.getD Disk.fresh) ∧
    ((∀ x, parseXml a.env a.lx doc = .ok x → r.outcome = .error (.raised .keyError)) ∧
      ∀ e, parseXml a.env a.lx doc = .error e → r.outcome = .error (.raised e)) ∧
    (folder = none → ∃ d, r.folder = some d ∧ (∀ little cls, loadDict little d cls = .error .ioError) ∧
      ∀ (a' : ConvArgs) st' u' doc' reg', a'.call st' true u' doc' false reg' (some d) = ⟨reg', some d, .ok ()⟩) := by
  have hm : mergeOptions u = .error .keyError := by
    unfold mergeOptions
    cases u with
    | none => rfl
    | some o => simp only [Option.getD_some, hu o rfl]
  have key : a.call st true u doc overwrite reg folder = match parseXml a.env a.lx doc with
      | .error e => ⟨reg, some (folder.getD Disk.fresh), .error (.raised e)⟩
      | .ok _ => ⟨reg, some (folder.getD Disk.fresh), .error (.raised .keyError)⟩ := by
    unfold ConvArgs.call
    rw [if_neg (by simp), if_neg hrun.not, hm]
    cases parseXml a.env a.lx doc <;> rfl
  rw [key]
  refine ⟨?_, ?_, ⟨?_, ?_⟩, ?_⟩
  · cases parseXml a.env a.lx doc <;> rfl
  · cases parseXml a.env a.lx doc <;> rfl
  · intro x hx; rw [hx]
  · intro e he; rw [he]
  · rintro rfl
    refine ⟨Disk.fresh, ?_, fun little cls => loadDict_fresh little cls, fun a' st' u' doc' reg' => rfl⟩
    cases parseXml a.env a.lx doc <;> rfl

/-- The options a conversion works with: those given, the others by default. -/
structure Options (u : UserOpts) (o : COptions) : Prop where
  prefixes : u.paradigmPrefixes = some o.paradigmPrefixes
  minEndingFreq : (∀ n, u.minEndingFreq = some n → o.minEndingFreq = n) ∧ (u.minEndingFreq = none → o.minEndingFreq = 2)
  minParadigmPopularity : (∀ n, u.minParadigmPopularity = some n → o.minParadigmPopularity = n) ∧
    (u.minParadigmPopularity = none → o.minParadigmPopularity = 3)
  maxSuffixLength : (∀ n, u.maxSuffixLength = some n → o.maxSuffixLength = n) ∧ (u.maxSuffixLength = none → o.maxSuffixLength = 5)

theorem mergeOptions_iff (u : UserOpts) (o : COptions) : mergeOptions (some u) = .ok o ↔ Options u o := by
  obtain ⟨f, p, m, pp⟩ := u
  obtain ⟨f', p', m', pp'⟩ := o
  unfold mergeOptions
  constructor
  · intro h
    cases pp with
    | none => cases h
    | some pp =>
      cases h
      exact ⟨rfl, ⟨by rintro n rfl; rfl, by rintro rfl; rfl⟩, ⟨by rintro n rfl; rfl, by rintro rfl; rfl⟩, ⟨by rintro n rfl; rfl, by rintro rfl; rfl⟩⟩
  · rintro ⟨h1, ⟨h2, h2'⟩, ⟨h3, h3'⟩, ⟨h4, h4'⟩⟩
    simp only at h1 h2 h2' h3 h3' h4 h4'
    subst h1
    have e2 : f' = f.getD 2 := by cases f with | none => exact h2' rfl | some n => exact h2 n rfl
    have e3 : p' = p.getD 3 := by cases p with | none => exact h3' rfl | some n => exact h3 n rfl
    have e4 : m' = m.getD 5 := by cases m with | none => exact h4' rfl | some n => exact h4 n rfl
    subst e2 e3 e4
    rfl

/-- The options are determined by those given. -/
theorem options_unique (u : UserOpts) (o o' : COptions) (h : Options u o) (h' : Options u o') : o = o' := by
  have h1 := (mergeOptions_iff u o).2 h
  have h2 := (mergeOptions_iff u o').2 h'
  rw [h1] at h2
  cases h2; rfl

/-- **C76.** With the extension and `paradigm_prefixes`, and a readable file, the conversion is the one of C65 and C67 with these options. -/
theorem c76_is_conversion (a : ConvArgs) (st : Stamp) (u : UserOpts) (o : COptions) (ho : Options u o) (doc : Elem) (overwrite : Bool)
    (reg : Registry) (folder : Option Disk) :
    ∃ info, a.call st true (some u) doc overwrite reg folder = { a with opts := o, info := info }.convert doc overwrite reg folder := by
  have hm := (mergeOptions_iff u o).2 ho
  cases hx : parseXml a.env a.lx doc with
  | error e =>
    refine ⟨a.info, ?_⟩
    unfold ConvArgs.call ConvArgs.convert ConvArgs.compile
    rw [if_neg (by simp)]
    simp only [hx]
  | ok xv =>
    obtain ⟨x, v⟩ := xv
    refine ⟨realInfo st o x v, ?_⟩
    unfold ConvArgs.call
    rw [if_neg (by simp)]
    split
    · next h => unfold ConvArgs.convert; rw [if_pos h]
    · simp only [hx, hm]

/-- **C76.** With the extension, a conversion that has work to do succeeds exactly if `paradigm_prefixes` is given and the document is one C67 describes. -/
theorem c76_success_iff (a : ConvArgs) (st : Stamp) (u : Option UserOpts) (doc : Elem) (overwrite : Bool) (reg : Registry) (folder : Option Disk)
    (hrun : Runs overwrite folder) :
    (a.call st true u doc overwrite reg folder).outcome = .ok () ↔
      ∃ u' o, u = some u' ∧ Options u' o ∧ ∃ x v ls par, parseXml a.env a.lx doc = .ok (x, v) ∧
        (∀ l ∈ x.lexemes, ∃ s n, l.1 = some s ∧ a.int s = some n) ∧ (∀ g ∈ x.grammemes, g.1.isSome ∧ g.2.2.1.isSome) ∧
        joinLexemes (fun i => (i.bind a.int).getD 0) (dropUnsupported (simplifyTags x.toParsed)) = .ok ls ∧
        (∀ L ∈ ls, Extracts o.paradigmPrefixes L (par L).1 (par L).2) ∧ Fits o par ls ∧ FitsFile par ls := by
  by_cases hu : ∀ o, u = some o → o.paradigmPrefixes = none
  · constructor
    · intro h
      obtain ⟨_, _, ⟨h1, h2⟩, _⟩ := c76_no_prefixes a st u hu doc overwrite reg folder hrun
      cases hx : parseXml a.env a.lx doc with
      | error e => have := h2 e hx; rw [h] at this; cases this
      | ok x => have := h1 x hx; rw [h] at this; cases this
    · rintro ⟨u', o, rfl, ho, _⟩
      have := hu u' rfl
      rw [ho.prefixes] at this
      cases this
  · push Not at hu
    obtain ⟨u', rfl, hne⟩ := hu
    obtain ⟨o, hm⟩ : ∃ o, mergeOptions (some u') = .ok o := by
      unfold mergeOptions
      cases h : u'.paradigmPrefixes with
      | none => exact absurd h hne
      | some ps => exact ⟨_, by simp only [Option.getD_some, h]; rfl⟩
    have ho := (mergeOptions_iff u' o).1 hm
    obtain ⟨info, hi⟩ := c76_is_conversion a st u' o ho doc overwrite reg folder
    rw [hi, c67_convert_iff _ doc overwrite reg folder hrun]
    constructor
    · intro h; exact ⟨u', o, rfl, ho, h⟩
    · rintro ⟨u'', o', he, ho', h⟩
      cases he
      rw [options_unique u' o o' ho ho']; exact h

/-- **C76.** With a list of paradigm prefixes that contains the empty one and has at most 65536 items, as the lists of lang/ru and lang/uk, no form is a
problem because of its prefix: the other size conditions decide. -/
theorem c76_prefixes (o : COptions) (he : [] ∈ o.paradigmPrefixes) (hl : o.paradigmPrefixes.length ≤ 65536) (par : Lexeme → Str × StrPara)
    (ls : List Lexeme) (hpar : ∀ L ∈ ls, Extracts o.paradigmPrefixes L (par L).1 (par L).2) :
    ∀ L ∈ ls, ∀ r ∈ (par L).2, ∃ k, k ≤ 65535 ∧ o.paradigmPrefixes[k]? = some r.2.2 ∧ ∀ j, k < j → o.paradigmPrefixes[j]? ≠ some r.2.2 := by
  have last : ∀ (l : List Str) (x : Str), x ∈ l → ∃ k : Nat, l[k]? = some x ∧ ∀ j : Nat, k < j → l[j]? ≠ some x := by
    intro l x
    induction l with
    | nil => intro h; cases h
    | cons y l ih =>
      intro h
      by_cases hx : x ∈ l
      · obtain ⟨k, h1, h2⟩ := ih hx
        refine ⟨k + 1, by simpa using h1, ?_⟩
        intro j hj
        cases j with
        | zero => omega
        | succ j => simpa using h2 j (by omega)
      · rcases List.mem_cons.1 h with rfl | h
        · refine ⟨0, rfl, ?_⟩
          intro j hj
          cases j with
          | zero => omega
          | succ j =>
            intro hc
            exact hx (List.mem_of_getElem? (by simpa using hc))
        · exact absurd h hx
  intro L hL r hr
  have hmem : r.2.2 ∈ o.paradigmPrefixes := by
    have h := hpar L hL
    generalize (par L).1 = stem at h
    generalize (par L).2 = rows at h hr
    generalize o.paradigmPrefixes = pp at h he
    cases h with
    | single w t => 
      simp only [List.mem_singleton] at hr
      subst hr; exact he
    | common _ _ befores _ _ _ _ hok hrows =>
      exact hok _ (by rw [← hrows.pre]; exact List.mem_map.2 ⟨r, hr, rfl⟩)
    | whole _ _ _ _ _ _ _ _ hrows =>
      have : r.2.2 ∈ L.map fun _ => ([] : Str) := by rw [← hrows.pre]; exact List.mem_map.2 ⟨r, hr, rfl⟩
      obtain ⟨_, _, h⟩ := List.mem_map.1 this
      rw [← h]; exact he
  obtain ⟨k, h1, h2⟩ := last _ _ hmem
  obtain ⟨hk, _⟩ := List.getElem?_eq_some_iff.1 h1
  exact ⟨k, by omega, h1, h2⟩

/-- The shipped options (lang/ru/config.py, lang/uk/config.py). -/
theorem c76_shipped_prefixes : ruParadigmPrefixes = [c!"", c!"по", c!"наи"] ∧ ukParadigmPrefixes = [c!"", c!"най", c!"якнай", c!"щонай"] ∧ [] ∈ ruParadigmPrefixes ∧ ruParadigmPrefixes.Nodup ∧ ruParadigmPrefixes.length ≤ 65536 ∧
    [] ∈ ukParadigmPrefixes ∧ ukParadigmPrefixes.Nodup ∧ ukParadigmPrefixes.length ≤ 65536 := by decide

/-! ### The metadata -/

theorem mkTag_str {c : TagCls} {s : Str} {t : Tag} (h : c.mkTag s = .ok t) : t = ⟨s⟩ := by
  simp only [TagCls.mkTag, bind_ok_iff, pure_eq_ok, Except.ok.injEq] at h
  obtain ⟨_, _, rfl⟩ := h; rfl

theorem loadMeta_saved {little : Bool} {i : SaveInfo} {rows : List GramRow} {c : Compiled} {ops : List (FName × File)} {d : Disk}
    (h : saveOps little i rows c = .ok ops) : loadMeta (d.writeAll ops) = .ok (metaOf i c) := by
  have hn := saveOps_nodup _ _ _ _ _ h
  obtain ⟨b, hb, hops⟩ := saveOps_ok _ _ _ _ _ h
  have g6 := writeAll_mem ops .metaF (metaFile (metaOf i c)) hn (by rw [hops]; simp) d
  generalize d.writeAll ops = D at *
  have hD : D = D.set .metaF (metaFile (metaOf i c)) := by
    funext n
    by_cases hnm : n = .metaF
    · rw [hnm, g6]; simp [Disk.set]
    · simp [Disk.set, hnm]
  rw [hD]
  exact loadMeta_written D (metaOf i c) (metaOf_nodup i c)

theorem tables_options {bw : DawgBuild (Nat × Nat)} {bp : DawgBuild (Nat × Nat × Nat)} {o : COptions} {ls : List Lexeme} {c : Compiled}
    (h : compileLexemes bw bp o ls = .ok c) : c.prefixes = o.paradigmPrefixes ∧ c.maxSuffixLength = o.maxSuffixLength := by
  unfold compileLexemes finish at h
  simp only [bind_ok_iff, pure_eq_ok, Except.ok.injEq] at h
  obtain ⟨_, _, _, _, _, _, _, _, _, _, rfl⟩ := h
  exact ⟨rfl, rfl⟩

/-- If a saved folder can be loaded, its tags are accepted, and what is loaded is what was compiled. -/
theorem loaded_saved {little : Bool} {i : SaveInfo} {rows : List GramRow} {c : Compiled} {ops : List (FName × File)} {d : Disk} {cls : TagCls}
    (h : saveOps little i rows c = .ok ops) (hp : c.pred.length = c.prefixes.length) {r : List (Str × Json) × TagCls × Dict}
    (hl : loadDict little (d.writeAll ops) cls = .ok r) : r = (metaOf i c, cls.init rows, c.toDict) := by
  have hn := saveOps_nodup _ _ _ _ _ h
  obtain ⟨b, hb, hops⟩ := saveOps_ok _ _ _ _ _ h
  have get := fun n f hm => writeAll_mem ops n f hn hm d
  have g1 := get .grammemes (.json (.arr (rows.map rowJson))) (by rw [hops]; simp)
  have g2 := get (.named (c!"gramtab-opencorpora-int.json")) (.json (.arr (c.gramtab.map Json.str))) (by rw [hops]; simp)
  have hmeta : loadMeta (d.writeAll ops) = .ok (metaOf i c) := loadMeta_saved h
  have htags : ∀ s ∈ c.gramtab, (cls.init rows).mkTag s = .ok ⟨s⟩ := by
    unfold loadDict at hl
    simp only [bind_ok_iff, pure_eq_ok, Except.ok.injEq] at hl
    obtain ⟨m, hm, _, _, g, hg, rows', hrows', strs, hstrs, tab, htab, _⟩ := hl
    rw [hmeta] at hm
    cases hm
    have hgt : loadGramtab (d.writeAll ops) (metaOf i c) (c!"opencorpora-int") = .ok c.gramtab := by
      have e1 : (dictGet (c!"gramtab_formats") (metaOf i c)).getD (.obj []) =
        .obj [(c!"opencorpora-ext", .str (c!"gramtab-opencorpora-ext.json")), (c!"opencorpora-int", .str (c!"gramtab-opencorpora-int.json"))] := rfl
      have e2 : dictGet (c!"opencorpora-int") [(c!"opencorpora-ext", Json.str (c!"gramtab-opencorpora-ext.json")),
        (c!"opencorpora-int", .str (c!"gramtab-opencorpora-int.json"))] = some (.str (c!"gramtab-opencorpora-int.json")) := rfl
      unfold loadGramtab
      rw [e1]
      simp only [e2, asStr, ok_bind, readJson, g2, asStrs_strs]
    rw [hgt] at hstrs
    cases hstrs
    have : g = .arr (rows.map rowJson) := by
      unfold readJson at hg
      rw [g1] at hg
      cases hg; rfl
    subst this
    rw [rowsOf_rows] at hrows'
    cases hrows'
    intro s hs
    obtain ⟨t, _, ht⟩ := mapE_mem' htab hs
    rw [ht, mkTag_str ht]
  have := c56_round_trip little i rows c ops d cls h hp htags
  rw [this] at hl
  cases hl; rfl

/-- How many lexemes a Python dict filled from a list has. -/
theorem length_foldl_dictSet {α β : Type} [DecidableEq α] (l d : List (α × β)) (h : (d.map Prod.fst).Nodup) :
    ((l.foldl (fun d e => dictSet e.1 e.2 d) d).map Prod.fst).Nodup ∧
    ∀ x, x ∈ (l.foldl (fun d e => dictSet e.1 e.2 d) d).map Prod.fst ↔ x ∈ d.map Prod.fst ∨ x ∈ l.map Prod.fst := by
  induction l generalizing d with
  | nil => exact ⟨h, by simp⟩
  | cons e l ih =>
    have := ih (dictSet e.1 e.2 d) (keys_dictSet_nodup _ _ _ h)
    refine ⟨this.1, fun x => ?_⟩
    rw [List.foldl_cons, this.2, List.map_cons, List.mem_cons, keys_dictSet]
    tauto

/-- **C76.** What the metadata of a converted dictionary say, in this order; the counts are those of the document and of the dictionary one gets when the folder is
loaded. -/
theorem c76_metadata (a : ConvArgs) (st : Stamp) (u : UserOpts) (o : COptions) (ho : Options u o) (doc : Elem) (hflat : Flat doc.all)
    (hroot : doc.tag = c!"dictionary") (overwrite : Bool) (reg : Registry) (folder : Option Disk) (hrun : Runs overwrite folder)
    (hok : (a.call st true (some u) doc overwrite reg folder).outcome = .ok ()) :
    ∃ d, (a.call st true (some u) doc overwrite reg folder).folder = some d ∧ (∃ m, loadMeta d = .ok m) ∧
      ∀ cls m c D, loadDict a.little d cls = .ok (m, c, D) → loadMeta d = .ok m ∧ m = [
        (c!"language_code", .str a.lang), (c!"format_version", .str (c!"2.4")), (c!"pymorphy2_version", .str st.version),
        (c!"compiled_at", .str st.now), (c!"source", .str st.source), (c!"source_version", jsonOpt (doc.get (c!"version"))),
        (c!"source_revision", jsonOpt (doc.get (c!"revision"))),
        (c!"source_lexemes_count", .num ((doc.iter (c!"lemma")).map fun e => e.get (c!"id")).toFinset.card),
        (c!"source_links_count", .num (doc.iter (c!"link")).length),
        (c!"gramtab_length", .num D.gramtab.length),
        (c!"gramtab_formats", .obj [(c!"opencorpora-ext", .str (c!"gramtab-opencorpora-ext.json")),
          (c!"opencorpora-int", .str (c!"gramtab-opencorpora-int.json"))]),
        (c!"paradigms_length", .num D.paradigms.length), (c!"suffixes_length", .num D.suffixes.length),
        (c!"words_dawg_length", .num D.words.length),
        (c!"compile_options", .obj [(c!"min_ending_freq", .num o.minEndingFreq), (c!"min_paradigm_popularity", .num o.minParadigmPopularity),
          (c!"max_suffix_length", .num o.maxSuffixLength), (c!"paradigm_prefixes", .arr (o.paradigmPrefixes.map Json.str))]),
        (c!"prediction_suffixes_dawg_lengths", .arr (D.pred.map fun t => .num t.length))] := by
  have hm := (mergeOptions_iff u o).2 ho
  obtain ⟨x, v, hx, hcall⟩ : ∃ x v, parseXml a.env a.lx doc = .ok (x, v) ∧ a.call st true (some u) doc overwrite reg folder =
      { a with opts := o, info := realInfo st o x v }.convert doc overwrite reg folder := by
    cases hx : parseXml a.env a.lx doc with
    | error e =>
      unfold ConvArgs.call at hok
      rw [if_neg (by simp), if_neg hrun.not] at hok
      simp only [hx] at hok
      cases hok
    | ok xv =>
      refine ⟨xv.1, xv.2, rfl, ?_⟩
      unfold ConvArgs.call
      rw [if_neg (by simp), if_neg hrun.not]
      simp only [hx, hm]
  rw [hcall] at hok ⊢
  obtain ⟨x', v', rows, c, ops, hx', hc, hr, hs, hfold⟩ := convert_ok hrun hok
  rw [hx] at hx'
  cases hx'
  obtain ⟨_, hcp⟩ := compileXml_ok hc
  obtain ⟨lj, hlj, hcl⟩ := compile_split hcp
  have hwf := c30_sound a.bw a.bp o lj c hcl
  refine ⟨_, hfold, ⟨_, loadMeta_saved hs⟩, ?_⟩
  intro cls m c' D hl
  have := loaded_saved hs hwf.predLen hl
  cases this
  refine ⟨loadMeta_saved hs, ?_⟩
  have hv := c55_version a.env a.lx doc x v hx hroot
  have hdoc := c55_document a.env a.lx doc hflat x v hx
  have hlinks : x.links.length = (doc.iter (c!"link")).length := by rw [hdoc.links, List.length_map]
  have hlex : x.lexemes.length = ((doc.iter (c!"lemma")).map fun e => e.get (c!"id")).toFinset.card := by
    obtain ⟨ls, h1, h2⟩ := hdoc.lexemes
    obtain ⟨k1, k2⟩ := length_foldl_dictSet ls [] (by simp)
    rw [← h2] at k1 k2
    have h3 : ls.map Prod.fst = (doc.iter (c!"lemma")).map fun e => e.get (c!"id") := by
      clear h2 k1 k2
      generalize doc.iter (c!"lemma") = es at h1
      induction h1 with
      | nil => rfl
      | cons h _ ih => rw [List.map_cons, List.map_cons, wordForms_id h, ih]
    rw [← h3]
    have := card_of_nodup k1 (m := ls.map Prod.fst) (fun y => by rw [k2]; simp)
    rw [this, List.length_map]
  obtain ⟨t1, t2⟩ := tables_options hcl
  simp only [metaOf, ConvArgs.saveInfo, realInfo, Compiled.toDict, List.length_map, hv, hlinks, hlex, t1, t2]
  rfl

/-- The hypotheses are met: the document of C65 converted with the Russian prefixes succeeds; without options it fails, as does the same without the
extension. -/
example : Flat Demo.cdoc.all ∧ Demo.cdoc.tag = c!"dictionary" ∧
    Options { paradigmPrefixes := some ruParadigmPrefixes, minEndingFreq := some 0 } { paradigmPrefixes := ruParadigmPrefixes, minEndingFreq := 0 } ∧
    (Demo.convArgs.call ⟨c!"0.9", c!"now", c!"toy"⟩ true (some { paradigmPrefixes := some ruParadigmPrefixes, minEndingFreq := some 0 }) Demo.cdoc false
      Registry.initial none).outcome = .ok () ∧
    (Demo.convArgs.call ⟨c!"0.9", c!"now", c!"toy"⟩ true none Demo.cdoc false Registry.initial none).outcome = .error (.raised .keyError) := by
  refine ⟨Demo.cdoc_good.flat, rfl, (mergeOptions_iff _ _).1 rfl, by decide +kernel, by decide +kernel⟩

end Verif
