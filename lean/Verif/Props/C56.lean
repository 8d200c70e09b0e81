/-
C56: a saved dictionary is loaded as it was compiled.  C57: crashes while saving.
-/
import Verif.Props.C36
import Verif.Props.C37
import Verif.Props.C28

namespace Verif

/-! ### What is in the folder after the writes -/

theorem writeAll_not_mem (ws : List (FName × File)) (n : FName) : ∀ d : Disk, n ∉ ws.map Prod.fst → d.writeAll ws n = d n := by
  induction ws with
  | nil => intro d _; rfl
  | cons w ws ih =>
    intro d h
    simp only [List.map_cons, List.mem_cons, not_or] at h
    rw [Disk.writeAll, ih _ h.2, Disk.set, if_neg h.1]

theorem writeAll_mem (ws : List (FName × File)) (n : FName) (f : File) (hn : (ws.map Prod.fst).Nodup) (h : (n, f) ∈ ws) :
    ∀ d : Disk, d.writeAll ws n = some f := by
  induction ws with
  | nil => simp at h
  | cons w ws ih =>
    intro d
    simp only [List.map_cons, List.nodup_cons] at hn
    rw [Disk.writeAll]
    rcases List.mem_cons.1 h with h | h
    · subst h
      rw [writeAll_not_mem _ _ _ hn.1, Disk.set, if_pos rfl]
    · exact ih hn.2 h _

theorem saveOps_ok (little : Bool) (i : SaveInfo) (rows : List GramRow) (c : Compiled) (ops : List (FName × File))
    (h : saveOps little i rows c = .ok ops) : ∃ b, encodeParas little c.paradigms = .ok b ∧
      ops = [(.grammemes, .json (.arr (rows.map rowJson))),
        (.named (c!"gramtab-opencorpora-ext.json"), .json (.arr (i.extTags.map Json.str))),
        (.named (c!"gramtab-opencorpora-int.json"), .json (.arr (c.gramtab.map Json.str))),
        (.paradigms, .bytes b), (.suffixes, .json (.arr (c.suffixes.map Json.str))), (.words, .wordsDawg c.words)]
        ++ c.pred.mapIdx (fun k t => (FName.pred k, File.predDawg t)) ++ [(.metaF, metaFile (metaOf i c))] := by
  unfold saveOps at h
  obtain ⟨b, h1, h2⟩ := (bind_ok_iff _ _ _).1 h
  cases h2
  exact ⟨b, h1, rfl⟩

theorem predNames_nodup (l : List (Dawg (Nat × Nat × Nat))) :
    ((l.mapIdx (fun k t => (FName.pred k, File.predDawg t))).map Prod.fst).Nodup := by
  have : (l.mapIdx (fun k t => (FName.pred k, File.predDawg t))).map Prod.fst = (List.range l.length).map FName.pred := by
    apply List.ext_getElem?
    intro n
    simp only [List.getElem?_map, List.getElem?_mapIdx, List.getElem?_range]
    by_cases h : n < l.length
    · simp [h]
    · simp [h]
  rw [this]
  exact List.nodup_range.map (fun a b h => by cases h; rfl)

theorem saveOps_nodup (little : Bool) (i : SaveInfo) (rows : List GramRow) (c : Compiled) (ops : List (FName × File))
    (h : saveOps little i rows c = .ok ops) : (ops.map Prod.fst).Nodup := by
  obtain ⟨b, _, rfl⟩ := saveOps_ok _ _ _ _ _ h
  rw [List.map_append, List.map_append, List.append_assoc, List.nodup_append]
  refine ⟨by simp only [List.map_cons, List.map_nil]; decide +kernel, ?_, ?_⟩
  · rw [List.nodup_append]
    refine ⟨predNames_nodup _, by simp, ?_⟩
    intro a ha b hb
    simp only [List.map_cons, List.map_nil, List.mem_singleton] at hb
    subst hb
    simp only [List.mem_map, List.mem_mapIdx] at ha
    obtain ⟨_, ⟨k, hk, rfl⟩, rfl⟩ := ha
    simp
  · intro a ha b hb
    simp only [List.mem_append, List.mem_map, List.mem_mapIdx, List.mem_cons, List.not_mem_nil, or_false] at ha hb
    rcases hb with ⟨_, ⟨k, hk, rfl⟩, rfl⟩ | ⟨_, rfl, rfl⟩
    · rcases ha with ⟨_, rfl | rfl | rfl | rfl | rfl | rfl, rfl⟩ <;> simp
    · rcases ha with ⟨_, rfl | rfl | rfl | rfl | rfl | rfl, rfl⟩ <;> simp

theorem mapE_asStr (l : List Str) : mapE asStr (l.map Json.str) = .ok l := by
  induction l with
  | nil => rfl
  | cons a l ih => simp only [List.map_cons, mapE, asStr, ok_bind, ih]; rfl

theorem asStrs_strs (l : List Str) : asStrs (.arr (l.map Json.str)) = .ok l := mapE_asStr l

theorem rowsOf_rows (rows : List GramRow) : rowsOf (.arr (rows.map rowJson)) = .ok rows := by
  unfold rowsOf
  simp only
  induction rows with
  | nil => rfl
  | cons r rows ih =>
    obtain ⟨n, p, a⟩ := r
    have : rowOf (rowJson ⟨n, p, a⟩) = .ok ⟨n, p, a⟩ := by cases p <;> rfl
    rw [List.map_cons, mapE, this, ok_bind, ih]
    rfl

theorem metaOf_nodup (i : SaveInfo) (c : Compiled) : ((metaOf i c).map Prod.fst).Nodup := by
  have : (metaOf i c).map Prod.fst = [c!"language_code", c!"format_version", c!"pymorphy2_version", c!"compiled_at", c!"source",
    c!"source_version", c!"source_revision", c!"source_lexemes_count", c!"source_links_count", c!"gramtab_length", c!"gramtab_formats",
    c!"paradigms_length", c!"suffixes_length", c!"words_dawg_length", c!"compile_options", c!"prediction_suffixes_dawg_lengths"] := rfl
  rw [this]
  decide +kernel

theorem mapE_range {β : Type} (f : Nat → Except PyErr β) (l : List β) (h : ∀ (k : Nat) t, l[k]? = some t → f k = .ok t) :
    mapE f (List.range l.length) = .ok l := by
  rw [mapE_ok_iff, List.forall₂_iff_get]
  refine ⟨by simp, fun k h1 h2 => ?_⟩
  simp only [List.get_eq_getElem, List.getElem_range]
  exact h k _ (List.getElem?_eq_getElem h2)

/-- **C56.** A dictionary saved completely (into any folder) is loaded exactly as it was compiled, with the metadata written, provided
the compiled tables have one prediction table per prefix (the compiler gives no others, C30) and the tag class that knows the grammemes
of the dictionary accepts its tags. -/
theorem c56_round_trip (little : Bool) (i : SaveInfo) (rows : List GramRow) (c : Compiled) (ops : List (FName × File)) (d : Disk) (cls : TagCls)
    (h : saveOps little i rows c = .ok ops) (hp : c.pred.length = c.prefixes.length)
    (htags : ∀ s ∈ c.gramtab, (cls.init rows).mkTag s = .ok ⟨s⟩) :
    loadDict little (d.writeAll ops) cls = .ok (metaOf i c, cls.init rows, c.toDict) := by
  have hn := saveOps_nodup _ _ _ _ _ h
  obtain ⟨b, hb, hops⟩ := saveOps_ok _ _ _ _ _ h
  have get := fun n f hm => writeAll_mem ops n f hn hm d
  have g1 := get .grammemes (.json (.arr (rows.map rowJson))) (by rw [hops]; simp)
  have g2 := get (.named (c!"gramtab-opencorpora-int.json")) (.json (.arr (c.gramtab.map Json.str))) (by rw [hops]; simp)
  have g3 := get .paradigms (.bytes b) (by rw [hops]; simp)
  have g4 := get .suffixes (.json (.arr (c.suffixes.map Json.str))) (by rw [hops]; simp)
  have g5 := get .words (.wordsDawg c.words) (by rw [hops]; simp)
  have g6 := get .metaF (metaFile (metaOf i c)) (by rw [hops]; simp)
  have g7 : ∀ (k : Nat) t, c.pred[k]? = some t → d.writeAll ops (.pred k) = some (.predDawg t) := by
    intro k t hk
    apply get
    rw [hops]
    refine List.mem_append_left _ (List.mem_append_right _ ?_)
    rw [List.mem_mapIdx]
    obtain ⟨hlt, he⟩ := List.getElem?_eq_some_iff.1 hk
    exact ⟨k, hlt, by rw [he]⟩
  generalize d.writeAll ops = D at *
  have hD : D = D.set .metaF (metaFile (metaOf i c)) := by
    funext n
    by_cases hnm : n = .metaF
    · rw [hnm, g6]; simp [Disk.set]
    · simp [Disk.set, hnm]
  have hmeta : loadMeta D = .ok (metaOf i c) := by
    conv_lhs => rw [hD]
    exact loadMeta_written D (metaOf i c) (metaOf_nodup i c)
  have hfmt : assertFormat (metaOf i c) = .ok () := (c37_accepted_iff _).2 ⟨['4'], by decide, rfl⟩
  have hgt : loadGramtab D (metaOf i c) (c!"opencorpora-int") = .ok c.gramtab := by
    have e1 : (dictGet (c!"gramtab_formats") (metaOf i c)).getD (.obj []) =
      .obj [(c!"opencorpora-ext", .str (c!"gramtab-opencorpora-ext.json")), (c!"opencorpora-int", .str (c!"gramtab-opencorpora-int.json"))] := rfl
    have e2 : dictGet (c!"opencorpora-int") [(c!"opencorpora-ext", Json.str (c!"gramtab-opencorpora-ext.json")),
      (c!"opencorpora-int", .str (c!"gramtab-opencorpora-int.json"))] = some (.str (c!"gramtab-opencorpora-int.json")) := rfl
    unfold loadGramtab
    rw [e1]
    simp only [e2, asStr, ok_bind, readJson, g2, asStrs_strs]
  have htab : mapE (cls.init rows).mkTag c.gramtab = .ok (c.gramtab.map Tag.mk) := by
    rw [mapE_congr _ (fun s => .ok (Tag.mk s)) _ htags, mapE_pure]
  have hpar : loadParas little D = .ok c.paradigms := by
    unfold loadParas
    rw [g3]
    have := c36_round_trip little c.paradigms b [] hb
    rwa [List.append_nil] at this
  have hw : loadWords D = .ok c.words := by unfold loadWords; rw [g5]
  have hopt : compileOption (metaOf i c) (c!"paradigm_prefixes") = .ok (some (.arr (c.prefixes.map Json.str))) := rfl
  have hopt2 : compileOption (metaOf i c) (c!"max_suffix_length") = .ok (some (.num c.maxSuffixLength)) := rfl
  have hpre : loadPrefixes D (metaOf i c) = .ok c.prefixes := by
    unfold loadPrefixes
    rw [hopt, ok_bind]
    exact asStrs_strs _
  have hpd : mapE (loadPred D) (List.range c.prefixes.length) = .ok c.pred := by
    rw [← hp]
    refine mapE_range _ _ fun k t hk => ?_
    unfold loadPred
    rw [g7 k t hk]
  have hmax : maxSuffixOf (metaOf i c) = .ok c.maxSuffixLength := by
    unfold maxSuffixOf
    rw [hopt2, ok_bind]
    simp [asNat]
  unfold loadDict
  have rg : readJson D .grammemes = .ok (.arr (rows.map rowJson)) := by unfold readJson; rw [g1]
  have rs : readJson D .suffixes = .ok (.arr (c.suffixes.map Json.str)) := by unfold readJson; rw [g4]
  simp only [hmeta, ok_bind, hfmt, rg, rowsOf_rows, hgt, htab, rs, asStrs_strs, hpar, hw, hpre, hpd, hmax]
  rfl

/-- **C56, end to end.** For every list of lexemes the compiler accepts, saving succeeds iff there are at most 65535 paradigms of at most
21845 forms, and then a fresh process that loads the folder has exactly the compiled tables — which are well-formed. -/
theorem c56_compile_save_load (little : Bool) (bw : DawgBuild (Nat × Nat)) (bp : DawgBuild (Nat × Nat × Nat)) (o : COptions)
    (ls : List Lexeme) (c : Compiled) (hc : compileLexemes bw bp o ls = .ok c) (i : SaveInfo) (rows : List GramRow) (d : Disk) (cls : TagCls)
    (htags : ∀ s ∈ c.gramtab, (cls.init rows).mkTag s = .ok ⟨s⟩) :
    (FitsFormat c.paradigms → ∃ ops m cls' D, saveOps little i rows c = .ok ops ∧ loadDict little (d.writeAll ops) cls = .ok (m, cls', D) ∧
      D = c.toDict ∧ D.WF ∧ cls' = cls.init rows) ∧
    (¬ FitsFormat c.paradigms → saveOps little i rows c = .error .structError) := by
  refine ⟨fun hf => ?_, fun hf => ?_⟩
  · have hs : ∃ ops, saveOps little i rows c = .ok ops := by
      unfold saveOps
      rw [(encodeParas_ok_iff little c.paradigms _).2 ⟨hf, rfl⟩]
      exact ⟨_, rfl⟩
    obtain ⟨ops, hops⟩ := hs
    have hwf := c30_sound bw bp o ls c hc
    exact ⟨ops, _, _, _, hops, c56_round_trip little i rows c ops d cls hops hwf.predLen htags, rfl, hwf, rfl⟩
  · unfold saveOps
    rw [(c36_save_fails_iff little c.paradigms).2 hf]
    rfl

/-! ### C57 -/

/-- **C57.** A process killed at any time while it saves a dictionary into a folder without readable metadata (a fresh one, in particular)
leaves a folder that cannot be loaded. -/
theorem c57_killed_fresh (little : Bool) (i : SaveInfo) (rows : List GramRow) (c : Compiled) (ops : List (FName × File)) (d d' : Disk) (cls : TagCls)
    (h : saveOps little i rows c = .ok ops) (hd : d .metaF = none) (hk : Killed d ops d') :
    loadDict little d' cls = .error .ioError ∨ loadDict little d' cls = .error .valueError := by
  have hn := saveOps_nodup _ _ _ _ _ h
  obtain ⟨b, hb, hops⟩ := saveOps_ok _ _ _ _ _ h
  have key : ∀ (ws : List (FName × File)) (m : File) (d d' : Disk), FName.metaF ∉ ws.map Prod.fst → d .metaF = none →
      Killed d (ws ++ [(.metaF, m)]) d' → d' .metaF = none ∨ ∃ f, PartOf m f ∧ d' .metaF = some f := by
    intro ws
    induction ws with
    | nil =>
      intro m d d' _ hd hk
      cases hk with
      | before => exact .inl hd
      | inside _ _ _ f hf => exact .inr ⟨f, hf, by simp [Disk.set]⟩
      | later _ _ _ _ h => cases h
    | cons w ws ih =>
      intro m d d' hm hd hk
      simp only [List.map_cons, List.mem_cons, not_or] at hm
      cases hk with
      | before => exact .inl hd
      | inside _ _ _ f hf => left; simp [Disk.set, hm.1, hd]
      | later _ _ _ _ h => exact ih m _ d' hm.2 (by simp [Disk.set, hm.1, hd]) h
  obtain ⟨pre, hpre⟩ : ∃ pre, ops = pre ++ [(FName.metaF, metaFile (metaOf i c))] := ⟨_, hops⟩
  rw [hpre] at hk hn
  have hnm : FName.metaF ∉ pre.map Prod.fst := by
    intro hm
    rw [List.map_append] at hn
    exact (List.nodup_append.1 hn).2.2 _ hm .metaF (by simp) rfl
  rcases key _ _ _ _ hnm hd hk with h1 | ⟨f, h1, h2⟩
  · left
    unfold loadDict loadMeta readJson
    rw [h1]
    rfl
  · right
    cases h1
    unfold loadDict loadMeta readJson
    rw [h2]
    rfl

/-- `d'` differs from `d` at most in files that are torn in `d`. -/
def Mended (d d' : Disk) : Prop := ∀ n, d n = d' n ∨ d n = some .broken

theorem readJson_mended {d d' : Disk} (hm : Mended d d') {n : FName} {j : Json} (h : readJson d n = .ok j) : readJson d' n = .ok j := by
  rcases hm n with e | e
  · unfold readJson at *; rw [← e]; exact h
  · unfold readJson at h; rw [e] at h; cases h

theorem loadDict_mended {little : Bool} {d d' : Disk} {cls : TagCls} {r : List (Str × Json) × TagCls × Dict} (hm : Mended d d')
    (h : loadDict little d cls = .ok r) : loadDict little d' cls = .ok r := by
  unfold loadDict at *
  simp only [bind_ok_iff] at h
  obtain ⟨m, h1, u, h2, g, h3, rows, h4, strs, h5, gramtab, h6, sj, h7, suffixes, h8, paradigms, h9, words, h10, prefixes, h11, pred, h12,
    msl, h13, h14⟩ := h
  have e1 : loadMeta d' = .ok m := by
    unfold loadMeta at *
    obtain ⟨j, hj, h1⟩ := (bind_ok_iff _ _ _).1 h1
    rw [readJson_mended hm hj, ok_bind]; exact h1
  have e5 : loadGramtab d' m (c!"opencorpora-int") = .ok strs := by
    unfold loadGramtab at *
    split at h5
    · rename_i fs hfs
      rw [hfs] at *
      simp only at *
      split at h5
      · cases h5
      · rename_i n hn
        rw [hn] at *
        simp only at *
        obtain ⟨n', hn', h5⟩ := (bind_ok_iff _ _ _).1 h5
        obtain ⟨j, hj, h5⟩ := (bind_ok_iff _ _ _).1 h5
        rw [hn', ok_bind, readJson_mended hm hj, ok_bind]; exact h5
    · cases h5
  have e9 : loadParas little d' = .ok paradigms := by
    unfold loadParas at *
    rcases hm .paradigms with e | e
    · rw [← e]; exact h9
    · rw [e] at h9; cases h9
  have e10 : loadWords d' = .ok words := by
    unfold loadWords at *
    rcases hm .words with e | e
    · rw [← e]; exact h10
    · rw [e] at h10; cases h10
  have e11 : loadPrefixes d' m = .ok prefixes := by
    unfold loadPrefixes at *
    obtain ⟨x, hx, h11⟩ := (bind_ok_iff _ _ _).1 h11
    rw [hx, ok_bind]
    cases x with
    | some j => exact h11
    | none =>
      obtain ⟨j, hj, h11⟩ := (bind_ok_iff _ _ _).1 h11
      simp only
      rw [readJson_mended hm hj, ok_bind]; exact h11
  have e12 : mapE (loadPred d') (List.range prefixes.length) = .ok pred := by
    rw [mapE_ok_iff] at *
    refine h12.imp ?_
    intro k t hk
    unfold loadPred at *
    rcases hm (.pred k) with e | e
    · rw [← e]; exact hk
    · rw [e] at hk; cases hk
  cases u
  simp only [e1, ok_bind, h2, readJson_mended hm h3, h4, e5, h6, readJson_mended hm h7, h8, e9, e10, e11, e12, h13]
  exact h14

theorem killed_split {d d' : Disk} {ops : List (FName × File)} (h : Killed d ops d') : ∃ k, k < ops.length ∧
    (d' = d.writeAll (ops.take k) ∨ ∃ w f, ops[k]? = some w ∧ PartOf w.2 f ∧ d' = (d.writeAll (ops.take k)).set w.1 f) := by
  induction h with
  | before d w ws => exact ⟨0, by simp, .inl rfl⟩
  | inside d w ws f h => exact ⟨0, by simp, .inr ⟨w, f, rfl, h, rfl⟩⟩
  | later d d' w ws h ih =>
    obtain ⟨k, hk, h⟩ := ih
    refine ⟨k + 1, by simp; exact hk, ?_⟩
    rw [List.take_succ_cons, Disk.writeAll, List.getElem?_cons_succ]
    exact h

theorem writeAll_take_succ (ops : List (FName × File)) : ∀ (d : Disk) (k : Nat) (w : FName × File), ops[k]? = some w →
    d.writeAll (ops.take (k + 1)) = (d.writeAll (ops.take k)).set w.1 w.2 := by
  induction ops with
  | nil => intro d k w h; simp at h
  | cons a ops ih =>
    intro d k w h
    cases k with
    | zero => simp at h; subst h; rfl
    | succ k =>
      rw [List.getElem?_cons_succ] at h
      rw [List.take_succ_cons, Disk.writeAll, ih _ k w h, List.take_succ_cons, Disk.writeAll]

/-- **C57.** A torn file is never taken for a good one: if a folder left by a killed save (over whatever was in the folder before) can be
loaded, then what is loaded is what would be loaded had the process been killed between two writes, after the first `k` of them. -/
theorem c57_no_torn_file (little : Bool) (i : SaveInfo) (rows : List GramRow) (c : Compiled) (ops : List (FName × File)) (d d' : Disk) (cls : TagCls)
    (h : saveOps little i rows c = .ok ops) (hk : Killed d ops d') (r : List (Str × Json) × TagCls × Dict)
    (hl : loadDict little d' cls = .ok r) : ∃ k ≤ ops.length, loadDict little (d.writeAll (ops.take k)) cls = .ok r := by
  obtain ⟨k, hkl, e | ⟨w, f, hw, hp, e⟩⟩ := killed_split hk
  · exact ⟨k, by omega, by rw [← e]; exact hl⟩
  refine ⟨k + 1, by omega, ?_⟩
  rw [writeAll_take_succ ops d k w hw]
  generalize d.writeAll (ops.take k) = D at e
  subst e
  have mend : f = .broken → loadDict little (D.set w.1 w.2) cls = .ok r := by
    intro hf
    refine loadDict_mended ?_ hl
    intro n
    by_cases hn : n = w.1
    · right; simp [Disk.set, hn, hf]
    · left; simp [Disk.set, hn]
  obtain ⟨wn, wf⟩ := w
  cases hp with
  | json => exact mend rfl
  | wordsDawg => exact mend rfl
  | predDawg => exact mend rfl
  | intDawg => exact mend rfl
  | bytes b b' hpre =>
    by_cases hbb : b' = b
    · rw [hbb] at hl; exact hl
    exfalso
    have hm := List.mem_of_getElem? hw
    obtain ⟨b0, hb0, hops⟩ := saveOps_ok _ _ _ _ _ h
    have : wn = .paradigms ∧ b = b0 := by
      rw [hops] at hm
      simp only [List.mem_append, List.mem_cons, List.not_mem_nil, or_false, List.mem_mapIdx, metaFile, Prod.mk.injEq, reduceCtorEq, and_false,
        false_or, exists_false, File.bytes.injEq] at hm
      exact hm
    obtain ⟨rfl, rfl⟩ := this
    unfold loadDict at hl
    simp only [bind_ok_iff] at hl
    obtain ⟨_, _, _, _, _, _, _, _, _, _, _, _, _, _, _, _, paradigms, h9, _⟩ := hl
    unfold loadParas at h9
    simp only [Disk.set, if_true] at h9
    rcases c36_truncated little c.paradigms b b' hb0 hpre hbb with h' | h' <;> rw [h'] at h9 <;> cases h9

theorem killed_after (ops : List (FName × File)) : ∀ k, k < ops.length → ∀ d : Disk, Killed d ops (d.writeAll (ops.take k)) := by
  induction ops with
  | nil => intro k hk; simp at hk
  | cons w ws ih =>
    intro k hk d
    cases k with
    | zero => exact .before d w ws
    | succ k => exact .later d _ w ws (ih k (by simpa using hk) _)

/-- A grammeme table. -/
def Demo.rows : List GramRow := [⟨c!"NOUN", none, c!"СУЩ"⟩, ⟨c!"VERB", none, c!"ГЛ"⟩]

def Demo.info : SaveInfo := ⟨.str (c!"ru"), .null, .null, .null, .null, .null, .null, .null, .null, .null, .null, .null, []⟩

/-- Compile one lexeme and write the dictionary over a folder, stopping after `k` writes. -/
def Demo.saveInto (L : Lexeme) (d : Disk) (k : Nat) : Except PyErr (Disk × Nat) := do
  let c ← compileLexemes dedupBuild dedupBuild { paradigmPrefixes := [c!""] } [L]
  let ops ← saveOps true Demo.info Demo.rows c
  pure (d.writeAll (ops.take k), ops.length)

/-- Load the folder and look a word up: the normal forms of its forms. -/
def Demo.loadLookup (d : Disk) (w : Str) : Except PyErr (List Str) := do
  let r ← loadDict true d TagCls.initial
  mapE (fun e : Str × Nat × Nat => r.2.2.normalForm e.2.1 e.2.2 e.1) (r.2.2.words.filter fun e => e.1 = w)

/-- The hypotheses of `c56_round_trip` hold: a saved dictionary (of eight files) is loaded. -/
example : (do
    let (d, n) ← Demo.saveInto [(c!"ab", c!"NOUN"), (c!"ac", c!"VERB")] Disk.fresh 8
    let r ← Demo.loadLookup d (c!"ac")
    pure (n, r)) = .ok (8, [c!"ab"]) := by
  decide +kernel

theorem Demo.mixed : (do
    let (d, _) ← Demo.saveInto [(c!"ab", c!"NOUN"), (c!"ac", c!"VERB")] Disk.fresh 8
    let (d', _) ← Demo.saveInto [(c!"xy", c!"NOUN"), (c!"xz", c!"VERB")] d 5
    let r1 ← Demo.loadLookup d (c!"ac")
    let r2 ← Demo.loadLookup d' (c!"ac")
    pure (r1, r2)) = .ok ([c!"ab"], [c!"ay"]) := by
  decide +kernel

/-- **C57 (defect).** Overwriting a dictionary in place is not safe: there are two dictionaries such that a process killed while saving the
second one over the first one leaves a folder that loads without any error and answers with a normal form that occurs in neither. -/
theorem c57_overwrite_mixes : ∃ (c1 c2 : Compiled) (ops1 ops2 : List (FName × File)) (d' : Disk) (r : List (Str × Json) × TagCls × Dict),
    (∃ L1, compileLexemes dedupBuild dedupBuild { paradigmPrefixes := [c!""] } [L1] = .ok c1 ∧ c!"ay" ∉ L1.map Prod.fst) ∧
    (∃ L2, compileLexemes dedupBuild dedupBuild { paradigmPrefixes := [c!""] } [L2] = .ok c2 ∧ c!"ay" ∉ L2.map Prod.fst) ∧
    saveOps true Demo.info Demo.rows c1 = .ok ops1 ∧ saveOps true Demo.info Demo.rows c2 = .ok ops2 ∧
    Killed (Disk.fresh.writeAll ops1) ops2 d' ∧ loadDict true d' TagCls.initial = .ok r ∧
    (c!"ac", 0, 1) ∈ r.2.2.words ∧ r.2.2.normalForm 0 1 (c!"ac") = .ok (c!"ay") := by
  have h : (match compileLexemes dedupBuild dedupBuild { paradigmPrefixes := [c!""] } [[(c!"ab", c!"NOUN"), (c!"ac", c!"VERB")]] with
    | .error _ => false
    | .ok c1 => match compileLexemes dedupBuild dedupBuild { paradigmPrefixes := [c!""] } [[(c!"xy", c!"NOUN"), (c!"xz", c!"VERB")]] with
      | .error _ => false
      | .ok c2 => match saveOps true Demo.info Demo.rows c1 with
        | .error _ => false
        | .ok ops1 => match saveOps true Demo.info Demo.rows c2 with
          | .error _ => false
          | .ok ops2 => decide (5 < ops2.length) && match loadDict true ((Disk.fresh.writeAll ops1).writeAll (ops2.take 5)) TagCls.initial with
            | .error _ => false
            | .ok r => decide ((c!"ac", 0, 1) ∈ r.2.2.words) && decide (r.2.2.normalForm 0 1 (c!"ac") = .ok (c!"ay"))) = true := by
    decide +kernel
  split at h
  · cases h
  split at h
  · cases h
  split at h
  · cases h
  split at h
  · cases h
  rename_i _ c1 h1 _ c2 h2 _ ops1 h3 _ ops2 h4
  rw [Bool.and_eq_true, decide_eq_true_eq] at h
  obtain ⟨h5, h⟩ := h
  split at h
  · cases h
  rename_i r h6
  rw [Bool.and_eq_true, decide_eq_true_eq, decide_eq_true_eq] at h
  exact ⟨c1, c2, ops1, ops2, _, r, ⟨[(c!"ab", c!"NOUN"), (c!"ac", c!"VERB")], h1, by decide +kernel⟩,
    ⟨[(c!"xy", c!"NOUN"), (c!"xz", c!"VERB")], h2, by decide +kernel⟩, h3, h4,
    killed_after ops2 5 h5 _, h6, h.1, h.2⟩

end Verif
