/-
C88 — adding P(t|w) to a dictionary: the files, the analyzers afterwards, kills and repetitions.
-/
import Verif.Model.AddProb
import Verif.Props.C37
import Verif.Props.C49
import Verif.Props.C87

set_option linter.unusedSectionVars false

namespace Verif

variable {S : Type} [Score S]

/-! ### Specification -/

/-- The analyzer with other P(t|w) data. -/
def Analyzer.withEst (x : Analyzer S) (e : Option (List (Str × Nat))) : Analyzer S := { x with morph := { x.morph with est := e } }

/-- The keys `add_conditional_tag_probability` sets. -/
def probKeys : List Str := [c!"P(t|w)", c!"P(t|w)_unique_words", c!"P(t|w)_outcomes", c!"P(t|w)_min_word_freq"]

/-! ### Loading depends on the files it reads -/

theorem except_map_bind {α β γ : Type} (x : Except PyErr α) (g : α → Except PyErr β) (f : β → γ) :
    (x >>= g).map f = x >>= fun a => (g a).map f := by
  cases x <;> rfl

theorem loadDict_agree (little : Bool) (cls : TagCls) (d d' : Disk) (m m' : List (Str × Json)) (hd : ∀ n, n ≠ .metaF → n ≠ .probs → d' n = d n)
    (hm : loadMeta d = .ok m) (hm' : loadMeta d' = .ok m') (hk : ∀ k, k ∉ probKeys → dictGet k m' = dictGet k m) :
    loadDict little d' cls = (loadDict little d cls).map fun r => (m', r.2) := by
  have k1 : dictGet (c!"format_version") m' = dictGet (c!"format_version") m := hk _ (by decide)
  have k2 : dictGet (c!"gramtab_formats") m' = dictGet (c!"gramtab_formats") m := hk _ (by decide)
  have k3 : dictGet (c!"compile_options") m' = dictGet (c!"compile_options") m := hk _ (by decide)
  have k4 : dictGet (c!"prediction_options") m' = dictGet (c!"prediction_options") m := hk _ (by decide)
  have e1 : assertFormat m' = assertFormat m := by unfold assertFormat; rw [k1]
  have rj : ∀ n, n ≠ .metaF → n ≠ .probs → readJson d' n = readJson d n := by intro n h1 h2; unfold readJson; rw [hd n h1 h2]
  have e2 : ∀ f, loadGramtab d' m' f = loadGramtab d m f := by
    intro f
    unfold loadGramtab
    rw [k2]
    have : ∀ n, readJson d' (.named n) = readJson d (.named n) := fun n => rj _ (by simp) (by simp)
    simp only [this]
  have e3 : ∀ k, compileOption m' k = compileOption m k := by intro k; unfold compileOption; rw [k3]
  have e4 : maxSuffixOf m' = maxSuffixOf m := by unfold maxSuffixOf; rw [e3, k4]
  have e5 : loadPrefixes d' m' = loadPrefixes d m := by unfold loadPrefixes; rw [e3, rj _ (by simp) (by simp)]
  have e6 : loadWords d' = loadWords d := by unfold loadWords; rw [hd _ (by simp) (by simp)]
  have e7 : loadPred d' = loadPred d := by funext i; unfold loadPred; rw [hd _ (by simp) (by simp)]
  have e8 : loadParas little d' = loadParas little d := by unfold loadParas; rw [hd _ (by simp) (by simp)]
  unfold loadDict
  rw [hm, hm', ok_bind, ok_bind, e1, rj _ (by simp) (by simp), e2, rj _ (by simp) (by simp), e4, e5, e6, e7, e8]
  simp only [except_map_bind]
  rfl

theorem withDisk_self (s : Sys) (path : Str) : s.withDisk path (s.disk path) = s := by
  unfold Sys.withDisk
  have : (fun p => if p = path then s.disk path else s.disk p) = s.disk := by
    funext p; split
    · next h => rw [h]
    · rfl
  rw [this]

theorem withDisk_at (s : Sys) (path : Str) (d : Disk) : (s.withDisk path d).disk path = d := by simp [Sys.withDisk]

theorem withDisk_withDisk (s : Sys) (path : Str) (d d' : Disk) : (s.withDisk path d).withDisk path d' = s.withDisk path d' := by
  unfold Sys.withDisk
  have : (fun p => if p = path then d' else if p = path then d else s.disk p) = fun p => if p = path then d' else s.disk p := by
    funext p; split <;> simp_all
  simp only [this]

theorem choosePath_withDisk (s : Sys) (path : Str) (d : Disk) (p l : Option Str) : choosePath (s.withDisk path d) p l = choosePath s p l := rfl

/-- The constructor, the folder given: what it does with the loaded dictionary. -/
theorem construct_at (s : Sys) (cls : TagCls) (a : MorphArgs S) (p : Str) (hp : Selected s a p) : construct s cls a = (do
    let r ← loadDict s.little (s.disk p) cls
    let dl ← dictLang r.1
    let est ← loadEst (s.disk p) r.1 a.est
    let m ← mkMorph s.env r.2.2 r.2.1 (a.sub.getD (defaultSubst (chooseLanguage dl a.lang'))) (a.units.getD (defaultUnits (chooseLanguage dl a.lang'))) est
    pure ⟨m, chooseLanguage dl a.lang', a.path, a.lang, a.resultType, a.units.getD (defaultUnits (chooseLanguage dl a.lang'))⟩) := by
  have h := (choosePath_iff s a p).2 hp
  unfold construct
  change (do
    let path ← choosePath s a.path a.lang'
    _) = _
  rw [h, ok_bind]
  rfl

theorem mkMorph_est (env : Env) (dict : Dict) (cls : TagCls) (sub : Subst) (items : List (List (UnitSpec S))) (e e' : Option (List (Str × Nat))) :
    mkMorph env dict cls sub items e' = (mkMorph env dict cls sub items e).map fun m => { m with est := e' } := by
  unfold mkMorph
  simp only [except_map_bind]
  rfl

theorem Selected.est {s : Sys} {a : MorphArgs S} {p : Str} (h : Selected s a p) (e : EstArg) : Selected s { a with est := e } p := by
  rcases h with h | ⟨h, h'⟩ | ⟨h, h', h''⟩
  · exact .explicit h
  · exact .fromEnv h h'
  · exact .package h h' h''

theorem Selected.withDisk {s : Sys} {a : MorphArgs S} {p : Str} (h : Selected s a p) (path : Str) (d : Disk) : Selected (s.withDisk path d) a p := by
  rcases h with h | ⟨h, h'⟩ | ⟨h, h', h''⟩
  · exact .explicit h
  · exact .fromEnv h h'
  · exact .package h h' h''

/-- Without P(t|w) data the constructor reads neither the table nor its entries in the metadata. -/
theorem construct_off (s : Sys) (cls : TagCls) (a : MorphArgs S) (p : Str) (hp : Selected s a p) (d' : Disk) (m m' : List (Str × Json))
    (hd : ∀ n, n ≠ .metaF → n ≠ .probs → d' n = s.disk p n) (hm : loadMeta (s.disk p) = .ok m) (hm' : loadMeta d' = .ok m')
    (hk : ∀ k, k ∉ probKeys → dictGet k m' = dictGet k m) :
    construct (s.withDisk p d') cls { a with est := .off } = construct s cls { a with est := .off } := by
  rw [construct_at _ _ _ p ((hp.est .off).withDisk p d'), construct_at _ _ _ p (hp.est .off), withDisk_at]
  have hl := loadDict_agree s.little cls (s.disk p) d' m m' hd hm hm' hk
  have hlm : ∀ r, loadDict s.little (s.disk p) cls = .ok r → r.1 = m := by
    intro r hr
    have := loadDict_meta hr
    rw [hm] at this
    cases this
    rfl
  show (loadDict s.little d' cls >>= _) = _
  rw [hl]
  cases hr : loadDict s.little (s.disk p) cls with
  | error e => rfl
  | ok r =>
    have : dictLang m' = dictLang r.1 := by
      rw [hlm r hr]; unfold dictLang; rw [hk _ (by decide)]
    show (dictLang m' >>= _) = _
    rw [this]
    rfl

/-- With P(t|w) data: the same analyzer with that data. -/
theorem construct_with (s : Sys) (cls : TagCls) (a : MorphArgs S) (p : Str) (hp : Selected s a p) (y : Analyzer S)
    (h : construct s cls { a with est := .off } = .ok y) (m : List (Str × Json)) (hm : loadMeta (s.disk p) = .ok m) (e : EstArg) :
    construct s cls { a with est := e } = (loadEst (s.disk p) m e).map y.withEst := by
  rw [construct_at _ _ _ p (hp.est e)]
  rw [construct_at _ _ _ p (hp.est .off)] at h
  simp only [bind_ok_iff] at h
  obtain ⟨r, hr, dl, hdl, est, hest, mm, hmm, h⟩ := h
  have hrm : r.1 = m := by
    have := loadDict_meta hr
    rw [hm] at this
    cases this
    rfl
  cases hest
  cases h
  rw [hr, ok_bind, hdl, ok_bind, hrm]
  show (loadEst (s.disk p) m e >>= _) = _
  cases he : loadEst (s.disk p) m e with
  | error x => rfl
  | ok t =>
    rw [ok_bind]
    show (mkMorph s.env r.2.2 r.2.1 (a.sub.getD _) (a.units.getD _) t >>= _) = _
    rw [mkMorph_est _ _ _ _ _ none t]
    erw [hmm]
    rfl

/-- P(t|w) data is to be read. -/
def wantsEst (m : List (Str × Json)) (a : EstArg) : Bool :=
  match a with
  | .auto => ((dictGet (c!"P(t|w)") m).map Json.truthy).getD false
  | .off => false
  | .on => true

theorem loadEst_no {d : Disk} {m : List (Str × Json)} {a : EstArg} (h : wantsEst m a = false) : loadEst d m a = .ok none := by
  unfold loadEst
  change (if wantsEst m a = true then _ else _) = _
  rw [h]; rfl

theorem loadEst_yes {d : Disk} {m : List (Str × Json)} {a : EstArg} (h : wantsEst m a = true) {t : List (Str × Nat)} (ht : d .probs = some (.intDawg t)) :
    loadEst d m a = .ok (some t) := by
  unfold loadEst
  change (if wantsEst m a = true then _ else _) = _
  rw [h, ht]; rfl

theorem loadEst_torn {d : Disk} {m : List (Str × Json)} {a : EstArg} (h : wantsEst m a = true) (ht : d .probs = some .broken) :
    loadEst d m a = .error .ioError := by
  unfold loadEst
  change (if wantsEst m a = true then _ else _) = _
  rw [h, ht]; rfl

/-! ### The call -/

/-- What a call does that ends without an exception. -/
theorem addProb_ok {s : Sys} {cls : TagCls} {path : Str} {given : Option (Morph Dbl)} {corpus : List (Str × List (Str × Str))} {minFreq : Int}
    {ops : List (FName × File)} (h : addProb s cls path given corpus minFreq = (ops, .ok ())) :
    ∃ t extra m, probTable s cls path given corpus minFreq = .ok (t, extra) ∧ loadMeta (s.disk path) = .ok m ∧
      ops = [(.probs, .intDawg t), (.metaF, metaFile (extra.foldl (fun d e => dictSet e.1 e.2 d) m))] := by
  unfold addProb at h
  split at h
  · cases h
  · next t extra ht =>
    have hl : loadMeta ((s.disk path).set .probs (.intDawg t)) = loadMeta (s.disk path) := rfl
    unfold updateMeta at h
    rw [hl] at h
    cases hm : loadMeta (s.disk path) with
    | error e => rw [hm] at h; cases h
    | ok m =>
      rw [hm] at h
      cases h
      exact ⟨t, extra, m, ht, rfl, rfl⟩

theorem probTable_ok {s : Sys} {cls : TagCls} {path : Str} {corpus : List (Str × List (Str × Str))} {minFreq : Int}
    {t : List (Str × Nat)} {extra : List (Str × Json)} (h : probTable s cls path none corpus minFreq = .ok (t, extra)) :
    ∃ x obs cpd data, construct (S := Dbl) s cls { path := some path, est := .off } = .ok x ∧ ambiguousWords x.morph (disambiguated corpus) = .ok obs ∧
      condProb x.morph (condFreq obs) = .ok cpd ∧ cpdDataD x.morph cpd minFreq = .ok data ∧ t = cpdDawgD data ∧
      extra = probMeta (condFreq obs) cpd minFreq := by
  unfold probTable at h
  simp only [bind_ok_iff, pure_eq_ok, Except.ok.injEq, Prod.mk.injEq] at h
  obtain ⟨m, hm, obs, hobs, cpd, hcpd, data, hdata, h1, h2⟩ := h
  unfold probMorph at hm
  cases hx : construct (S := Dbl) s cls { path := some path, est := .off } with
  | error e => rw [hx] at hm; cases hm
  | ok x =>
  rw [hx] at hm
  cases hm
  exact ⟨x, obs, cpd, data, rfl, hobs, hcpd, hdata, h1.symm, h2.symm⟩

theorem probTable_keys {s : Sys} {cls : TagCls} {path : Str} {given : Option (Morph Dbl)} {corpus : List (Str × List (Str × Str))} {minFreq : Int}
    {t : List (Str × Nat)} {extra : List (Str × Json)} (h : probTable s cls path given corpus minFreq = .ok (t, extra)) :
    ∃ a b c, extra = [(c!"P(t|w)", .bool true), (c!"P(t|w)_unique_words", a), (c!"P(t|w)_outcomes", b), (c!"P(t|w)_min_word_freq", c)] := by
  unfold probTable at h
  simp only [bind_ok_iff, pure_eq_ok, Except.ok.injEq, Prod.mk.injEq] at h
  obtain ⟨_, _, obs, _, cpd, _, data, _, _, h2⟩ := h
  exact ⟨_, _, _, h2.symm⟩

theorem lastValue_none (k : Str) (l : List (Str × Json)) (h : k ∉ l.map Prod.fst) (m : List (Str × Json)) :
    dictGet k (l.foldl (fun d e => dictSet e.1 e.2 d) m) = dictGet k m := by
  induction l generalizing m with
  | nil => rfl
  | cons e l ih =>
    simp only [List.map_cons, List.mem_cons, not_or] at h
    rw [List.foldl_cons, ih h.2, dictGet_dictSet, if_neg h.1]

/-- The metadata afterwards. -/
theorem meta_after {d : Disk} {m extra : List (Str × Json)} (hm : loadMeta d = .ok m) (t : File) :
    loadMeta (d.writeAll [(.probs, t), (.metaF, metaFile (extra.foldl (fun d e => dictSet e.1 e.2 d) m))]) =
      .ok (extra.foldl (fun d e => dictSet e.1 e.2 d) m) :=
  loadMeta_written _ _ (updates_nodup _ _ (loadMeta_nodup d m hm))

/-- **C88, exceptions.** If the call raises an exception (without `morph` argument), no file has been touched. -/
theorem c88_failure (s : Sys) (cls : TagCls) (path : Str) (corpus : List (Str × List (Str × Str))) (minFreq : Int) (ops : List (FName × File)) (e : PyErr)
    (h : addProb s cls path none corpus minFreq = (ops, .error e)) : ops = [] := by
  unfold addProb at h
  split at h
  · cases h; rfl
  · next t extra ht =>
    obtain ⟨x, _, _, _, hx, _⟩ := probTable_ok ht
    obtain ⟨p, r, _, _, _, h1, h2, _⟩ := construct_ok hx
    cases h1
    have hm := loadDict_meta h2
    have hl : loadMeta ((s.disk path).set .probs (.intDawg t)) = loadMeta (s.disk path) := rfl
    unfold updateMeta at h
    rw [hl, hm] at h
    cases h

/-- **C88.** After `add_conditional_tag_probability` the folder has the table and the new entries of the metadata, everything else is as before, and every
analyzer of the folder is the analyzer it would have been without P(t|w) data, with the table of the corpus (unless it is made with
`probability_estimator_cls=None`).  Data of an earlier call has no influence. -/
theorem c88_after (s : Sys) (cls : TagCls) (path : Str) (corpus : List (Str × List (Str × Str))) (minFreq : Int) (ops : List (FName × File))
    (h : addProb s cls path none corpus minFreq = (ops, .ok ())) :
    ∃ (x : Analyzer Dbl) (data : List ((Str × Tag) × Dbl)), construct s cls { path := some path, est := .off } = .ok x ∧
      estimateD x.morph corpus minFreq = .ok data ∧
      (∀ n, n ≠ .metaF → n ≠ .probs → (s.disk path).writeAll ops n = s.disk path n) ∧
      ∀ (S : Type) [Score S] (cls' : TagCls) (a : MorphArgs S), Selected s a path →
        construct (s.withDisk path ((s.disk path).writeAll ops)) cls' { a with est := .off } = construct s cls' { a with est := .off } ∧
        ∀ y, construct s cls' { a with est := .off } = .ok y → ∀ e, e = EstArg.auto ∨ e = EstArg.on →
          construct (s.withDisk path ((s.disk path).writeAll ops)) cls' { a with est := e } = .ok (y.withEst (some (cpdDawgD data))) := by
  obtain ⟨t, extra, m, ht, hm, rfl⟩ := addProb_ok h
  obtain ⟨x, obs, cpd, data, hx, hobs, hcpd, hdata, rfl, _⟩ := probTable_ok ht
  obtain ⟨v1, v2, v3, hextra⟩ := probTable_keys ht
  have hkeys : extra.map Prod.fst = probKeys := by rw [hextra]; rfl
  have hm' := meta_after (extra := extra) hm (.intDawg (cpdDawgD data))
  have hd : ∀ n, n ≠ FName.metaF → n ≠ FName.probs →
      (s.disk path).writeAll [(.probs, .intDawg (cpdDawgD data)), (.metaF, metaFile (extra.foldl (fun d e => dictSet e.1 e.2 d) m))] n = s.disk path n := by
    intro n h1 h2
    simp [Disk.writeAll, Disk.set, h1, h2]
  have hk : ∀ k, k ∉ probKeys → dictGet k (extra.foldl (fun d e => dictSet e.1 e.2 d) m) = dictGet k m :=
    fun k hk => lastValue_none k extra (hkeys ▸ hk) m
  refine ⟨x, data, hx, ?_, hd, fun S _ cls' a ha => ?_⟩
  · unfold estimateD
    rw [hobs, ok_bind, hcpd, ok_bind, hdata]
  · have hoff := construct_off s cls' a path ha _ m _ hd hm hm' hk
    refine ⟨hoff, fun y hy e he => ?_⟩
    rw [← hoff] at hy
    rw [construct_with _ cls' a path (ha.withDisk path _) y hy _ (by rw [withDisk_at]; exact hm') e, withDisk_at]
    have hw : ((dictGet (c!"P(t|w)") (extra.foldl (fun d e => dictSet e.1 e.2 d) m)).map Json.truthy).getD false = true := by
      have : dictGet (c!"P(t|w)") (extra.foldl (fun d e => dictSet e.1 e.2 d) m) = some (.bool true) := by
        rw [updates_get, hextra]; rfl
      rw [this]; rfl
    have hp : ((s.disk path).writeAll [(.probs, .intDawg (cpdDawgD data)), (.metaF, metaFile (extra.foldl (fun d e => dictSet e.1 e.2 d) m))]) .probs =
        some (.intDawg (cpdDawgD data)) := rfl
    unfold loadEst
    rcases he with rfl | rfl
    · simp only [hw, if_true, hp]; rfl
    · simp only [if_true, hp]; rfl

/-! ### Repetition -/

theorem dict_ext {β : Type} (l l' : List (Str × β)) (hk : l.map Prod.fst = l'.map Prod.fst) (hn : (l.map Prod.fst).Nodup)
    (h : ∀ k, dictGet k l = dictGet k l') : l = l' := by
  apply List.ext_getElem?
  intro i
  have hi := congrArg (fun x : List Str => x[i]?) hk
  simp only [List.getElem?_map] at hi
  cases h1 : l[i]? with
  | none => rw [h1] at hi; cases h2 : l'[i]? with
    | none => rfl
    | some b => rw [h2] at hi; cases hi
  | some a =>
    rw [h1] at hi
    cases h2 : l'[i]? with
    | none => rw [h2] at hi; cases hi
    | some b =>
      rw [h2] at hi
      have hab : a.1 = b.1 := Option.some.inj hi
      have ha : dictGet a.1 l = some a.2 := dictGet_of_mem _ _ _ hn (List.mem_of_getElem? h1)
      have hb : dictGet b.1 l' = some b.2 := dictGet_of_mem _ _ _ (hk ▸ hn) (List.mem_of_getElem? h2)
      rw [h, hab, hb] at ha
      rw [show a = b from Prod.ext hab (Option.some.inj ha).symm]

/-- Setting the same keys twice: the last values count, and the order is that of setting them once. -/
theorem updates_twice (m e1 e2 : List (Str × Json)) (hm : (m.map Prod.fst).Nodup) (hk : e1.map Prod.fst = e2.map Prod.fst) :
    e2.foldl (fun d e => dictSet e.1 e.2 d) (e1.foldl (fun d e => dictSet e.1 e.2 d) m) = e2.foldl (fun d e => dictSet e.1 e.2 d) m := by
  have hn1 := updates_nodup e1 m hm
  have hsub : ∀ (ks acc : List Str), (∀ k ∈ ks, k ∈ acc) → ks.foldl (fun acc x => if x ∈ acc then acc else acc ++ [x]) acc = acc := by
    intro ks
    induction ks with
    | nil => intro acc _; rfl
    | cons k ks ih =>
      intro acc h
      rw [List.foldl_cons, if_pos (h k (by simp))]
      exact ih acc fun k hk => h k (by simp [hk])
  have hin : ∀ (ks acc : List Str), (∀ k ∈ ks, k ∈ ks.foldl (fun acc x => if x ∈ acc then acc else acc ++ [x]) acc) ∧
      ∀ k ∈ acc, k ∈ ks.foldl (fun acc x => if x ∈ acc then acc else acc ++ [x]) acc := by
    intro ks
    induction ks with
    | nil => intro acc; exact ⟨by simp, fun k h => h⟩
    | cons x ks ih =>
      intro acc
      rw [List.foldl_cons]
      obtain ⟨i1, i2⟩ := ih (if x ∈ acc then acc else acc ++ [x])
      refine ⟨?_, fun k hk => i2 k (by split <;> simp [hk])⟩
      intro k hk
      rcases List.mem_cons.1 hk with rfl | hk
      · exact i2 _ (by split <;> simp_all)
      · exact i1 k hk
  apply dict_ext
  · rw [updates_keys, updates_keys e1, updates_keys e2, hk]
    exact hsub _ _ fun k hk => (hin _ _).1 k hk
  · exact updates_nodup e2 _ hn1
  · intro k
    rw [updates_get, updates_get, updates_get]
    cases h2 : lastValue k e2 with
    | some v => rfl
    | none =>
      have : lastValue k e1 = none := by
        unfold lastValue at h2 ⊢
        rw [Option.map_eq_none_iff, List.find?_eq_none] at h2 ⊢
        intro x hx hxk
        simp only [decide_eq_true_eq] at hxk
        have : k ∈ e2.map Prod.fst := hk ▸ hxk ▸ List.mem_map_of_mem (List.mem_reverse.1 hx)
        obtain ⟨y, hy, hyk⟩ := List.mem_map.1 this
        exact h2 y (List.mem_reverse.2 hy) (by simp [hyk])
      rw [this]; rfl

/-- The table depends neither on an old table nor on its entries in the metadata. -/
theorem probTable_agree (s : Sys) (cls : TagCls) (path : Str) (corpus : List (Str × List (Str × Str))) (minFreq : Int) (d' : Disk) (m m' : List (Str × Json))
    (hd : ∀ n, n ≠ .metaF → n ≠ .probs → d' n = s.disk path n) (hm : loadMeta (s.disk path) = .ok m) (hm' : loadMeta d' = .ok m')
    (hk : ∀ k, k ∉ probKeys → dictGet k m' = dictGet k m) :
    probTable (s.withDisk path d') cls path none corpus minFreq = probTable s cls path none corpus minFreq := by
  have := construct_off (S := Dbl) s cls { path := some path, est := .off } path (.explicit rfl) d' m m' hd hm hm' hk
  unfold probTable probMorph
  have e : ({ ({ path := some path, est := .off } : MorphArgs Dbl) with est := .off } : MorphArgs Dbl) = { path := some path, est := .off } := rfl
  rw [e] at this
  rw [this]

/-- **C88, repetition.** Calling again, with the same or another corpus, gives the folder that the last call alone would have given: no earlier estimate
leaks into a later one, and repeating a call changes nothing. -/
theorem c88_again (s : Sys) (cls cls' : TagCls) (path : Str) (corpus corpus' : List (Str × List (Str × Str))) (minFreq minFreq' : Int)
    (ops ops' : List (FName × File)) (h : addProb s cls path none corpus minFreq = (ops, .ok ()))
    (h' : addProb s cls' path none corpus' minFreq' = (ops', .ok ())) :
    ∃ ops'', addProb (s.withDisk path ((s.disk path).writeAll ops)) cls' path none corpus' minFreq' = (ops'', .ok ()) ∧
      ((s.disk path).writeAll ops).writeAll ops'' = (s.disk path).writeAll ops' := by
  obtain ⟨t, extra, m, ht, hm, rfl⟩ := addProb_ok h
  obtain ⟨t', extra', m', ht', hm', rfl⟩ := addProb_ok h'
  rw [hm] at hm'
  cases hm'
  obtain ⟨v1, v2, v3, hextra⟩ := probTable_keys ht
  obtain ⟨u1, u2, u3, hextra'⟩ := probTable_keys ht'
  have hma := meta_after (extra := extra) hm (.intDawg t)
  have htt := probTable_agree s cls' path corpus' minFreq' _ m _ (by intro n h1 h2; simp [Disk.writeAll, Disk.set, h1, h2]) hm hma
    (fun k hk => lastValue_none k extra (by rw [hextra]; exact hk) m)
  refine ⟨[(.probs, .intDawg t'), (.metaF, metaFile (extra'.foldl (fun d e => dictSet e.1 e.2 d) (extra.foldl (fun d e => dictSet e.1 e.2 d) m)))], ?_, ?_⟩
  · unfold addProb
    rw [htt, ht']
    simp only [withDisk_at]
    have hl : ∀ (d : Disk) f, loadMeta (d.set .probs f) = loadMeta d := fun _ _ => rfl
    unfold updateMeta
    rw [hl, hma]
    rfl
  · rw [updates_twice m extra extra' (loadMeta_nodup _ _ hm) (by rw [hextra, hextra']; rfl)]
    funext n
    simp only [Disk.writeAll, Disk.set]
    split
    · rfl
    · split <;> rfl

/-! ### Kills -/

theorem killed_states {d d' : Disk} {t : List (Str × Nat)} {M : List (Str × Json)} (h : Killed d [(.probs, .intDawg t), (.metaF, metaFile M)] d') :
    d' = d ∨ d' = d.set .probs .broken ∨ d' = d.set .probs (.intDawg t) ∨ d' = (d.set .probs (.intDawg t)).set .metaF .broken := by
  cases h with
  | before => exact .inl rfl
  | inside _ _ _ f hf => cases hf; exact .inr (.inl rfl)
  | later _ _ _ _ h => cases h with
    | before => exact .inr (.inr (.inl rfl))
    | inside _ _ _ f hf => cases hf; exact .inr (.inr (.inr rfl))
    | later _ _ _ _ h => cases h

theorem loadDict_torn (little : Bool) (d : Disk) (cls : TagCls) :
    loadMeta (d.set .metaF .broken) = .error .valueError ∧ loadDict little (d.set .metaF .broken) cls = .error .valueError := by
  have : loadMeta (d.set .metaF .broken) = .error .valueError := by
    unfold loadMeta readJson
    simp only [Disk.set, if_true]
    rfl
  exact ⟨this, by unfold loadDict; rw [this]; rfl⟩

/-- If an analyzer can be made, it can be made without P(t|w) data. -/
theorem construct_off_of {s : Sys} {cls : TagCls} {a : MorphArgs S} {x : Analyzer S} (h : construct s cls a = .ok x) :
    ∃ y, construct s cls { a with est := .off } = .ok y := by
  obtain ⟨path, r, dl, est, m, h1, h2, h3, h4, h5, rfl⟩ := construct_ok h
  have hs := (choosePath_iff s a path).1 h1
  rw [construct_at _ _ _ path (hs.est .off), h2, ok_bind, h3, ok_bind]
  rw [mkMorph_est _ _ _ _ _ none est] at h5
  show ∃ y, (mkMorph s.env r.2.2 r.2.1 (a.sub.getD _) (a.units.getD _) none >>= _) = .ok y
  cases hm : mkMorph s.env r.2.2 r.2.1 (a.sub.getD (defaultSubst (chooseLanguage dl a.lang'))) (a.units.getD (defaultUnits (chooseLanguage dl a.lang'))) none with
  | error e => rw [hm] at h5; cases h5
  | ok m' => erw [hm]; exact ⟨_, rfl⟩

/-- **C88, kills.** Whenever the call is killed: making an analyzer of the folder raises an exception, or gives the analyzer of before the call, or that of
after the complete call.  No analyzer mixes the two. -/
theorem c88_killed (s : Sys) (cls : TagCls) (path : Str) (corpus : List (Str × List (Str × Str))) (minFreq : Int) (ops : List (FName × File))
    (h : addProb s cls path none corpus minFreq = (ops, .ok ())) (d' : Disk) (hk : Killed (s.disk path) ops d') (cls' : TagCls) (a : MorphArgs S)
    (ha : Selected s a path) :
    (∃ e, construct (s.withDisk path d') cls' a = .error e) ∨ construct (s.withDisk path d') cls' a = construct s cls' a ∨
      construct (s.withDisk path d') cls' a = construct (s.withDisk path ((s.disk path).writeAll ops)) cls' a := by
  obtain ⟨t, extra, m, ht, hm, rfl⟩ := addProb_ok h
  obtain ⟨v1, v2, v3, hextra⟩ := probTable_keys ht
  cases hc : construct (s.withDisk path d') cls' a with
  | error e => exact .inl ⟨e, rfl⟩
  | ok x =>
    right
    obtain ⟨y, hy⟩ := construct_off_of hc
    rcases killed_states hk with rfl | rfl | rfl | rfl
    · left; rw [withDisk_self] at hc; rw [hc]
    · have hm' : loadMeta ((s.disk path).set .probs .broken) = .ok m := hm
      have hoff := construct_off s cls' a path ha _ m m (by intro n _ h2; simp [Disk.set, h2]) hm hm' (fun _ _ => rfl)
      have h1 := construct_with _ cls' a path (ha.withDisk path _) y hy m (by rw [withDisk_at]; exact hm') a.est
      rw [hoff] at hy
      have h2 := construct_with _ cls' a path ha y hy m hm a.est
      rw [withDisk_at] at h1
      change construct _ cls' a = _ at h1
      change construct _ cls' a = _ at h2
      cases hw : wantsEst m a.est with
      | false =>
        left
        rw [loadEst_no hw] at h1 h2
        rw [h2, ← hc, h1]
      | true => rw [loadEst_torn hw rfl, hc] at h1; cases h1
    · have hm' : loadMeta ((s.disk path).set .probs (.intDawg t)) = .ok m := hm
      have hoff := construct_off s cls' a path ha _ m m (by intro n _ h2; simp [Disk.set, h2]) hm hm' (fun _ _ => rfl)
      have h1 := construct_with _ cls' a path (ha.withDisk path _) y hy m (by rw [withDisk_at]; exact hm') a.est
      rw [hoff] at hy
      have h2 := construct_with _ cls' a path ha y hy m hm a.est
      rw [withDisk_at] at h1
      change construct _ cls' a = _ at h1
      change construct _ cls' a = _ at h2
      cases hw : wantsEst m a.est with
      | false =>
        left
        rw [loadEst_no hw] at h1 h2
        rw [h2, ← hc, h1]
      | true =>
        right
        have hma := meta_after (extra := extra) hm (.intDawg t)
        have hoff' := construct_off s cls' a path ha _ m _ (by intro n h1 h2; simp [Disk.writeAll, Disk.set, h1, h2]) hm hma
          (fun k hk => lastValue_none k extra (by rw [hextra]; exact hk) m)
        rw [← hoff'] at hy
        have h3 := construct_with _ cls' a path (ha.withDisk path _) y hy _ (by rw [withDisk_at]; exact hma) a.est
        rw [withDisk_at] at h3
        change construct _ cls' a = _ at h3
        have hw' : wantsEst (extra.foldl (fun d e => dictSet e.1 e.2 d) m) a.est = true := by
          have hv : dictGet (c!"P(t|w)") (extra.foldl (fun d e => dictSet e.1 e.2 d) m) = some (.bool true) := by rw [updates_get, hextra]; rfl
          cases he : a.est with
          | auto => unfold wantsEst; simp only [hv]; rfl
          | off => rw [he] at hw; cases hw
          | on => rfl
        rw [loadEst_yes hw rfl] at h1
        rw [loadEst_yes hw' rfl] at h3
        rw [h3, ← hc, h1]
    · rw [construct_at _ _ _ path (ha.withDisk path _), withDisk_at] at hc
      have := (loadDict_torn s.little ((s.disk path).set .probs (.intDawg t)) cls').2
      change (loadDict s.little _ cls' >>= _) = _ at hc
      rw [this] at hc
      cases hc

/-- **C88, recovery.** After a kill the call can be repeated: it gives the folder that the complete call would have given, unless the metadata was being
written; then the folder can no longer be loaded and the call raises `ValueError` (and touches nothing). -/
theorem c88_recover (s : Sys) (cls cls' : TagCls) (path : Str) (corpus : List (Str × List (Str × Str))) (minFreq : Int) (ops : List (FName × File))
    (h : addProb s cls path none corpus minFreq = (ops, .ok ())) (h' : addProb s cls' path none corpus minFreq = (ops, .ok ()))
    (d' : Disk) (hk : Killed (s.disk path) ops d') :
    (addProb (s.withDisk path d') cls' path none corpus minFreq = (ops, .ok ()) ∧ d'.writeAll ops = (s.disk path).writeAll ops) ∨
    (addProb (s.withDisk path d') cls' path none corpus minFreq = ([], .error .valueError) ∧ loadMeta d' = .error .valueError ∧
      d' .metaF = some .broken) := by
  obtain ⟨t, extra, m, ht, hm, rfl⟩ := addProb_ok h
  obtain ⟨t', extra', m', ht', hm', he⟩ := addProb_ok h'
  have keep : ∀ d' : Disk, (∀ n, n ≠ .probs → d' n = s.disk path n) →
      (addProb (s.withDisk path d') cls' path none corpus minFreq = ([(.probs, .intDawg t), (.metaF, metaFile (extra.foldl (fun d e => dictSet e.1 e.2 d) m))], .ok ()) ∧
        d'.writeAll [(.probs, .intDawg t), (.metaF, metaFile (extra.foldl (fun d e => dictSet e.1 e.2 d) m))] =
          (s.disk path).writeAll [(.probs, .intDawg t), (.metaF, metaFile (extra.foldl (fun d e => dictSet e.1 e.2 d) m))]) := by
    intro d' hd
    have hlm : loadMeta d' = loadMeta (s.disk path) := by unfold loadMeta readJson; rw [hd _ (by simp)]
    have htt := probTable_agree s cls' path corpus minFreq d' m m (fun n _ h2 => hd n h2) hm (hlm.trans hm) (fun _ _ => rfl)
    constructor
    · rw [he]
      unfold addProb
      rw [htt, ht']
      simp only [withDisk_at]
      have hl : ∀ (d : Disk) f, loadMeta (d.set .probs f) = loadMeta d := fun _ _ => rfl
      unfold updateMeta
      rw [hl, hlm, hm']
      rfl
    · funext n
      simp only [Disk.writeAll, Disk.set]
      split
      · rfl
      · split
        · rfl
        · next h2 => exact hd n h2
  rcases killed_states hk with rfl | rfl | rfl | rfl
  · exact .inl (keep _ fun _ _ => rfl)
  · exact .inl (keep _ fun n hn => by simp [Disk.set, hn])
  · exact .inl (keep _ fun n hn => by simp [Disk.set, hn])
  · right
    obtain ⟨t1, t2⟩ := loadDict_torn s.little ((s.disk path).set .probs (.intDawg t)) cls'
    refine ⟨?_, t1, rfl⟩
    have hpt : probTable (s.withDisk path (((s.disk path).set .probs (.intDawg t)).set .metaF .broken)) cls' path none corpus minFreq = .error .valueError := by
      unfold probTable probMorph
      rw [construct_at _ _ _ path (.explicit rfl), withDisk_at]
      change (Except.map _ (loadDict s.little _ cls' >>= _)) >>= _ = _
      rw [t2]
      rfl
    unfold addProb
    rw [hpt]

/-! ### The metadata -/

theorem sum_indicator (ks : List Str) (hn : ks.Nodup) (x : Str) (hx : x ∈ ks) : (ks.map fun k => if x = k then 1 else 0).sum = 1 := by
  induction ks with
  | nil => cases hx
  | cons k ks ih =>
    obtain ⟨h1, h2⟩ := List.nodup_cons.1 hn
    rw [List.map_cons, List.sum_cons]
    rcases List.mem_cons.1 hx with rfl | hx'
    · rw [if_pos rfl]
      have : (ks.map fun k => if x = k then 1 else 0) = ks.map fun _ => 0 := by
        apply List.map_congr_left
        intro k hk
        rw [if_neg (by rintro rfl; exact h1 hk)]
      rw [this]; simp
    · rw [if_neg (by rintro rfl; exact h1 hx'), ih h2 hx']

theorem sum_countP (ks : List Str) (hn : ks.Nodup) (obs : List (Str × Grams)) (h : ∀ e ∈ obs, e.1 ∈ ks) :
    (ks.map fun k => obs.countP fun e => decide (e.1 = k)).sum = obs.length := by
  induction obs with
  | nil => simp
  | cons e obs ih =>
    have := ih fun e he => h e (by simp [he])
    have h1 : (ks.map fun k => (e :: obs).countP fun e => decide (e.1 = k)) =
        ks.map fun k => (obs.countP fun e => decide (e.1 = k)) + if e.1 = k then 1 else 0 := by
      apply List.map_congr_left
      intro k _
      rw [List.countP_cons]
      simp
    rw [h1, List.sum_map_add, this, sum_indicator ks hn e.1 (h e (by simp))]
    rfl

/-- The number of outcomes is the number of observations. -/
theorem condFreq_total (obs : List (Str × Grams)) : ((condFreq obs).map fun e => e.2.n).sum = obs.length := by
  have hok := condFreq_ok obs
  have h1 : ((condFreq obs).map fun e => e.2.n) = ((condFreq obs).map Prod.fst).map fun k => obs.countP fun e => decide (e.1 = k) := by
    rw [List.map_map]
    apply List.map_congr_left
    intro e he
    exact hok.total e.1 e.2 (dictGet_of_mem _ _ _ hok.keysNodup he)
  rw [h1]
  exact sum_countP _ hok.keysNodup obs fun e he => (hok.keys e.1).2 ⟨e.2, he⟩

open Classical in
/-- **C88, metadata.** The metadata says that there is P(t|w) data, from how many observations (the words of the corpus with one analysis that is not `UNKN`
and that the analyzer finds ambiguous), of how many different lower-case words, and with which threshold; the other keys are as before, and in their
order before the new ones. -/
theorem c88_metadata (s : Sys) (cls : TagCls) (path : Str) (corpus : List (Str × List (Str × Str))) (minFreq : Int) (ops : List (FName × File))
    (h : addProb s cls path none corpus minFreq = (ops, .ok ())) :
    ∃ (x : Analyzer Dbl) (m m' : List (Str × Json)) (ws : Finset Str), construct s cls { path := some path, est := .off } = .ok x ∧
      loadMeta (s.disk path) = .ok m ∧ loadMeta ((s.disk path).writeAll ops) = .ok m' ∧
      (∀ w, w ∈ ws ↔ ∃ e ∈ corpus, ∃ g, IsObs x.morph e w g) ∧
      dictGet (c!"P(t|w)") m' = some (.bool true) ∧
      dictGet (c!"P(t|w)_unique_words") m' = some (.num ws.card) ∧
      dictGet (c!"P(t|w)_outcomes") m' = some (.num (corpus.countP fun e => decide (∃ w g, IsObs x.morph e w g))) ∧
      dictGet (c!"P(t|w)_min_word_freq") m' = some (.num minFreq) ∧
      (∀ k, k ∉ probKeys → dictGet k m' = dictGet k m) ∧
      m'.map Prod.fst = firstOccs (m.map Prod.fst ++ probKeys) := by
  obtain ⟨t, extra, m, ht, hm, rfl⟩ := addProb_ok h
  obtain ⟨x, obs, cpd, data, hx, hobs, hcpd, hdata, rfl, hextra⟩ := probTable_ok ht
  have hma := meta_after (extra := extra) hm (.intDawg (cpdDawgD data))
  have hok := condFreq_ok obs
  have hlen : cpd.length = (condFreq obs).length := by
    unfold condProb at hcpd
    exact mapE_length hcpd
  refine ⟨x, m, _, ((condFreq obs).map Prod.fst).toFinset, hx, hm, hma, ?_, ?_, ?_, ?_, ?_, ?_, ?_⟩
  · intro w
    rw [List.mem_toFinset, hok.keys]
    constructor
    · rintro ⟨g, hg⟩
      obtain ⟨e, he, ho⟩ := (obs_mem x.morph corpus obs hobs w g).1 hg
      exact ⟨e, he, g, ho⟩
    · rintro ⟨e, he, g, ho⟩
      exact ⟨g, (obs_mem x.morph corpus obs hobs w g).2 ⟨e, he, ho⟩⟩
  · rw [updates_get, hextra]; rfl
  · rw [updates_get, hextra, List.toFinset_card_of_nodup hok.keysNodup, List.length_map, ← hlen]; rfl
  · rw [updates_get, hextra]
    have := ambiguousWords_countP x.morph corpus obs hobs (fun _ => true)
    rw [List.countP_eq_length.2 (by simp)] at this
    simp only [and_true] at this
    rw [← this, ← condFreq_total obs]
    rfl
  · rw [updates_get, hextra]; rfl
  · intro k hk
    exact lastValue_none k extra (by rw [hextra]; exact hk) m
  · rw [updates_keys, hextra]
    conv_rhs => rw [firstOccs, List.foldl_append]
    congr 1
    exact (firstOccs_nodup _ (loadMeta_nodup _ _ hm)).symm

/-! ### The scores afterwards -/

/-- The analyzer in double precision. -/
def Analyzer.toDbl (x : Analyzer Rat) : Analyzer Dbl :=
  ⟨x.morph.toDbl, x.lang, x.path_, x.lang_, x.resultTypeOrig, x.unitsUnbound.map fun g => g.map fun s => s.mapS Verif.toDbl⟩

theorem mkMorph_map (env : Env) (dict : Dict) (cls : TagCls) (sub : Subst) (items : List (List (UnitSpec Rat))) (est : Option (List (Str × Nat))) :
    mkMorph env dict cls sub (items.map fun g => g.map fun s => s.mapS toDbl) est = (mkMorph env dict cls sub items est).map Morph.toDbl := by
  cases h : mkMorph env dict cls sub items est with
  | ok m => exact mkMorph_toDbl h
  | error e =>
    unfold mkMorph at h ⊢
    rw [initUnits_mapS]
    cases hr : initUnits items cls with
    | error e' => rw [hr] at h; cases h; rfl
    | ok r => rw [hr] at h; cases h

/-- The default constructor call in exact and in double arithmetic. -/
theorem construct_toDbl (s : Sys) (cls : TagCls) (path lang : Option Str) (est : EstArg) (sub : Option Subst) (p : Str)
    (hp : Selected (S := Rat) s { path := path, lang := lang, est := est, sub := sub } p) :
    construct (S := Dbl) s cls { path := path, lang := lang, est := est, sub := sub } =
      (construct (S := Rat) s cls { path := path, lang := lang, est := est, sub := sub }).map Analyzer.toDbl := by
  have hp' : Selected (S := Dbl) s { path := path, lang := lang, est := est, sub := sub } p := by
    rcases hp with h | ⟨h, h'⟩ | ⟨h, h', h''⟩
    · exact .explicit h
    · exact .fromEnv h h'
    · exact .package h h' h''
  have hu : ∀ l, defaultUnits (S := Dbl) l = (defaultUnits (S := Rat) l).map fun g => g.map fun s => s.mapS toDbl := by
    intro l
    unfold defaultUnits
    split
    · exact ukUnits_toDbl
    · exact ruUnits_toDbl
  rw [construct_at _ _ _ p hp, construct_at _ _ _ p hp']
  simp only [except_map_bind, Option.getD_none, hu, mkMorph_map]
  congr 1; funext r; congr 1; funext dl; congr 1; funext e
  have key : ∀ (x : Except PyErr (Morph Rat)) (l : Str) (u : List (List (UnitSpec Rat))),
      (Except.map Morph.toDbl x >>= fun m => (pure ⟨m, l, path, lang, some (c!"Parse"), u.map fun g => g.map fun s => s.mapS toDbl⟩ : Except PyErr (Analyzer Dbl))) =
      x >>= fun m => Except.map Analyzer.toDbl (pure ⟨m, l, path, lang, some (c!"Parse"), u⟩) := by
    intro x l u; cases x <;> rfl
  exact key _ _ _

theorem construct_sameCall {s : Sys} {cls : TagCls} {path lang : Option Str} {est : EstArg} {sub : Option Subst} {x : Analyzer Rat}
    (h : construct s cls { path := path, lang := lang, est := est, sub := sub } = .ok x) : SameCall x.morph x.morph.toDbl := by
  obtain ⟨p, r, dl, e, m, h1, h2, h3, h4, h5, rfl⟩ := construct_ok h
  have h6 := mkMorph_toDbl h5
  simp only [Option.getD_none] at h5 h6
  unfold defaultUnits at h5 h6
  split at h5
  · next hl => rw [if_pos hl, ← ukUnits_toDbl] at h6; exact ⟨_, _, _, _, _, .inr ⟨h5, h6⟩⟩
  · next hl => rw [if_neg hl, ← ruUnits_toDbl] at h6; exact ⟨_, _, _, _, _, .inl ⟨h5, h6⟩⟩

/-- **C88, end to end.** `m` is the analyzer of the dictionary without P(t|w) data, with exact scores.  After the call every default analyzer of the folder
(in double precision) scores each result for which the corpus gives an estimate with that estimate, up to a millionth and rounding, and sorts by it. -/
theorem c88_scores (s : Sys) (cls : TagCls) (path : Str) (corpus : List (Str × List (Str × Str))) (minFreq : Int) (ops : List (FName × File))
    (h : addProb s cls path none corpus minFreq = (ops, .ok ())) (hlow : s.env.LowerStable) (hc : corpus.length ≤ 2 ^ 30)
    (x : Analyzer Rat) (hx : construct s cls { path := some path, est := .off } = .ok x) (hsc : x.morph.dict.SmallCounts x.morph.sub)
    (ht : ∀ e ∈ corpus, ∀ ts, x.morph.tag (x.morph.env.lower e.1) = .ok ts → ts.length ≤ 2 ^ 30) :
    ∃ data, estimate x.morph corpus minFreq = .ok data ∧ ((∀ e ∈ data, ':' ∉ e.1.2.str) →
      ∀ (cls' : TagCls) (lang : Option Str) (sub : Option Subst) (y : Analyzer Dbl),
        construct (s.withDisk path ((s.disk path).writeAll ops)) cls' { path := some path, lang := lang, sub := sub } = .ok y →
        ∀ w ps, y.morph.parse w = .ok ps → (∃ p ∈ ps, ∃ q, ((s.env.lower w, p.tag), q) ∈ data ∧ 2 / 1000000 ≤ q) →
          ps.Pairwise (fun a b => b.score.val ≤ a.score.val) ∧
          ∀ p ∈ ps, ∀ q, ((s.env.lower w, p.tag), q) ∈ data → p.score.val ≤ q + 1 / 2 ^ 53 ∧ q - 1 / 1000000 - 1 / 2 ^ 53 ≤ p.score.val) := by
  obtain ⟨xd, dataD, hxd, hest, _, hafter⟩ := c88_after s cls path corpus minFreq ops h
  have hxd' := construct_toDbl s cls (some path) none .off none path (.explicit rfl)
  rw [hx] at hxd'
  erw [hxd] at hxd'
  obtain rfl := Except.ok.inj hxd'
  have hsame := construct_sameCall hx
  have henv : x.morph.env = s.env := by
    obtain ⟨p, r, dl, e, m, h1, h2, h3, h4, h5, rfl⟩ := construct_ok hx
    exact (mkMorph_units h5).1
  have hnone : x.morph.est = none := (c49_estimator s cls _ x hx path (.explicit rfl)).1 rfl
  have hd : ∀ dawg, x.morph.est = some dawg → ∀ e ∈ dawg, e.2 < 2 ^ 50 := by intro dawg hda; rw [hnone] at hda; cases hda
  have he := c87_estimate x.morph x.morph.toDbl hsame hsc hd corpus hc ht minFreq
  change estimateD x.morph.toDbl corpus minFreq = .ok dataD at hest
  cases hdata : estimate x.morph corpus minFreq with
  | error e => rw [hdata, hest] at he; cases he
  | ok data =>
    refine ⟨data, rfl, fun hcol cls' lang sub y hy w ps hps hex => ?_⟩
    obtain ⟨y0, hy0⟩ := construct_off_of hy
    obtain ⟨a1, a2⟩ := hafter Rat cls' { path := some path, lang := lang, sub := sub } (.explicit rfl)
    have hy' := construct_toDbl (s.withDisk path ((s.disk path).writeAll ops)) cls' (some path) lang .auto sub path (.explicit rfl)
    have hyr : ∃ yr, construct (S := Rat) (s.withDisk path ((s.disk path).writeAll ops)) cls' { path := some path, lang := lang, sub := sub } = .ok yr ∧
        y = yr.toDbl := by
      cases hr : construct (S := Rat) (s.withDisk path ((s.disk path).writeAll ops)) cls' { path := some path, lang := lang, sub := sub } with
      | error e => erw [hr, hy] at hy'; cases hy'
      | ok yr => erw [hr, hy] at hy'; exact ⟨yr, rfl, Except.ok.inj hy'⟩
    obtain ⟨yr, hyr, rfl⟩ := hyr
    have hsame' := construct_sameCall hyr
    have henv' : yr.morph.env = s.env := by
      obtain ⟨p, r, dl, e, m, h1, h2, h3, h4, h5, rfl⟩ := construct_ok hyr
      exact (mkMorph_units h5).1
    have hestY : yr.morph.est = some (cpdDawgD dataD) := by
      obtain ⟨z, hz⟩ := construct_off_of hyr
      rw [a1] at hz
      have := a2 z hz .auto (.inl rfl)
      erw [hyr] at this
      rw [Except.ok.inj this]
      rfl
    have := c87_scores x.morph x.morph.toDbl hsame hsc hd corpus hc ht minFreq data hdata hcol dataD hest yr.morph yr.morph.toDbl hsame'
      (henv' ▸ hlow) hestY w ps hps
    have e2 : (yr.morph.toDbl).env = s.env := henv'
    rw [e2] at this
    exact this hex

/-! ### Success -/

/-- **C88, success.** The call succeeds for every dictionary that loads and every corpus whose words the analyzer can analyze. -/
theorem c88_succeeds (s : Sys) (cls : TagCls) (path : Str) (corpus : List (Str × List (Str × Str))) (minFreq : Int) (x : Analyzer Dbl)
    (hx : construct s cls { path := some path, est := .off } = .ok x)
    (hw : ∀ e ∈ corpus, (∃ ts, x.morph.tag e.1 = .ok ts) ∧ (∃ ts, x.morph.tag (x.morph.env.lower e.1) = .ok ts) ∧
      ∃ ps, x.morph.parse (x.morph.env.lower e.1) = .ok ps) :
    ∃ ops, addProb s cls path none corpus minFreq = (ops, .ok ()) := by
  have hobs : ∃ obs, ambiguousWords x.morph (disambiguated corpus) = .ok obs := by
    obtain ⟨l, hl⟩ := mapE_total (f := fun e : Str × Str => do
        let ts ← x.morph.tag e.1
        pure (if 1 < ts.length then [(x.morph.env.lower e.1, tag2grammemes e.2)] else [])) (disambiguated corpus) (by
      intro e he
      unfold disambiguated at he
      obtain ⟨y, hy, hye⟩ := List.mem_filterMap.1 he
      obtain ⟨ts, hts⟩ := (hw y (List.mem_filter.1 hy).1).1
      cases hh : y.2.head? with
      | none => rw [hh] at hye; cases hye
      | some q =>
        rw [hh] at hye
        obtain rfl := Option.some.inj hye
        exact ⟨_, by simp only [hts]; rfl⟩)
    exact ⟨_, by unfold ambiguousWords; rw [hl]; rfl⟩
  obtain ⟨obs, hobs⟩ := hobs
  have hok := condFreq_ok obs
  have hword : ∀ c ∈ condFreq obs, ∃ e ∈ corpus, c.1 = x.morph.env.lower e.1 := by
    intro c hc
    obtain ⟨g, hg⟩ := (hok.keys c.1).1 (List.mem_map_of_mem (f := Prod.fst) hc)
    obtain ⟨e, he, ho⟩ := (obs_mem x.morph corpus obs hobs c.1 g).1 hg
    obtain ⟨_, _, _, _, h2, _⟩ := ho
    exact ⟨e, he, h2.symm⟩
  have hcpd : ∃ cpd, condProb x.morph (condFreq obs) = .ok cpd := by
    unfold condProb
    apply mapE_total
    intro c hc
    obtain ⟨e, he, hce⟩ := hword c hc
    obtain ⟨ts, hts⟩ := (hw e he).2.1
    exact ⟨_, by rw [hce, hts]; rfl⟩
  obtain ⟨cpd, hcpd⟩ := hcpd
  have hword' : ∀ c ∈ cpd, ∃ e ∈ corpus, c.1 = x.morph.env.lower e.1 := by
    intro c hc
    unfold condProb at hcpd
    obtain ⟨c', hc', h'⟩ := mapE_mem hcpd hc
    simp only [bind_ok_iff, pure_eq_ok, Except.ok.injEq] at h'
    obtain ⟨ts, _, rfl⟩ := h'
    exact hword c' hc'
  have hdata : ∃ data, cpdDataD x.morph cpd minFreq = .ok data := by
    obtain ⟨l, hl⟩ := mapE_total (f := fun e : Str × FreqDist × Nat => do
        let probs ← tagProbabilitiesD x.morph e.1 e.2.1 e.2.2
        pure (e.1, probs)) (cpd.filter fun e => decide (minFreq ≤ (e.2.1.n : Int))) (by
      intro c hc
      obtain ⟨e, he, hce⟩ := hword' c (List.mem_filter.1 hc).1
      obtain ⟨ps, hps⟩ := (hw e he).2.2
      exact ⟨_, by unfold tagProbabilitiesD; simp only [hce, hps]; rfl⟩)
    exact ⟨_, by unfold cpdDataD; rw [hl]; rfl⟩
  obtain ⟨data, hdata⟩ := hdata
  have ht : probTable s cls path none corpus minFreq = .ok (cpdDawgD data, probMeta (condFreq obs) cpd minFreq) := by
    unfold probTable probMorph
    rw [hx]
    show (ambiguousWords x.morph _ >>= _) = _
    rw [hobs, ok_bind]
    show (condProb x.morph (condFreq obs) >>= _) = _
    rw [hcpd, ok_bind, hdata]
    rfl
  obtain ⟨p, r, _, _, _, h1, h2, _⟩ := construct_ok hx
  cases h1
  have hm := loadDict_meta h2
  unfold addProb
  rw [ht]
  have hl : ∀ f, loadMeta ((s.disk path).set .probs f) = loadMeta (s.disk path) := fun _ => rfl
  unfold updateMeta
  simp only [hl, hm]
  exact ⟨_, rfl⟩

/-- **C88, success.** In particular for every healthy dictionary (C01) and every corpus of words of named letters. -/
theorem c88_succeeds_healthy (s : Sys) (cls : TagCls) (path : Str) (corpus : List (Str × List (Str × Str))) (minFreq : Int) (x : Analyzer Rat)
    (hx : construct s cls { path := some path, est := .off } = .ok x) (hh : Healthy x.morph) (hsc : x.morph.dict.SmallCounts x.morph.sub)
    (hw : ∀ e ∈ corpus, s.env.Named e.1 ∧ s.env.Named (s.env.lower e.1)) :
    ∃ ops, addProb s cls path none corpus minFreq = (ops, .ok ()) := by
  have hsame := construct_sameCall hx
  have hxd := construct_toDbl s cls (some path) none .off none path (.explicit rfl)
  rw [hx] at hxd
  have henv : x.morph.env = s.env := by
    obtain ⟨p, r, dl, e, m, h1, h2, h3, h4, h5, rfl⟩ := construct_ok hx
    exact (mkMorph_units h5).1
  have hnone : x.morph.est = none := (c49_estimator s cls _ x hx path (.explicit rfl)).1 rfl
  have hsa := fun w => c73_same_analyses x.morph x.morph.toDbl hsame hsc (by intro dawg hda; rw [hnone] at hda; cases hda) w
  refine c88_succeeds s cls path corpus minFreq x.toDbl hxd fun e he => ?_
  obtain ⟨n1, n2⟩ := hw e he
  have n3 : s.env.Named (s.env.lower (s.env.lower e.1)) := by
    have := hh.low e.1 _ (List.infix_refl _)
    rw [henv] at this
    rw [this]; exact n2
  have t1 := (c01_total x.morph hsame.default hh e.1 (henv ▸ n1) (henv ▸ n2)).2
  have t2 := c01_total x.morph hsame.default hh (s.env.lower e.1) (henv ▸ n2) (henv ▸ n3)
  have e2 : x.toDbl.morph.env = s.env := henv
  rw [e2]
  refine ⟨?_, ?_, ?_⟩
  · obtain ⟨ts, hts, _⟩ := t1
    exact ⟨ts, (hsa e.1).2.1.trans hts⟩
  · obtain ⟨ts, hts, _⟩ := t2.2
    exact ⟨ts, (hsa _).2.1.trans hts⟩
  · obtain ⟨⟨ps, hps, _⟩, _⟩ := t2
    have := (hsa (s.env.lower e.1)).1
    rw [hps] at this
    cases hp : x.morph.toDbl.parse (s.env.lower e.1) with
    | ok ps' => exact ⟨ps', hp⟩
    | error er => rw [hp] at this; cases this

/-! ### An example -/

/-- A machine with a dictionary of one lexeme, whose forms in the nominative and the accusative are the same. -/
def Demo.sysP : Sys := { Demo.sys with disk := fun _ => Demo.folder (c!"ru") [(c!"ель", c!"NOUN,femn sing,nomn"), (c!"ель", c!"NOUN,femn sing,accs")] }

/-- The word three times in the nominative, once (with a capital) in the accusative, and words that do not count. -/
def Demo.corpusP : List (Str × List (Str × Str)) :=
  [(c!"ель", [(c!"ель", c!"NOUN,femn sing,nomn")]), (c!"Ель", [(c!"ель", c!"NOUN,femn sing,accs")]), (c!"ели", [(c!"ель", c!"NOUN,femn plur,nomn")]),
   (c!"ель", [(c!"ель", c!"UNKN")]), (c!"ель", [(c!"ель", c!"NOUN,femn sing,nomn")]), (c!"ель", [(c!"ель", c!"NOUN,femn sing,nomn")])]

def Demo.opsP : List (FName × File) := (addProb Demo.sysP TagCls.initial (c!"/p") none Demo.corpusP 1).1

theorem Demo.opsP_ok : addProb Demo.sysP TagCls.initial (c!"/p") none Demo.corpusP 1 = (Demo.opsP, .ok ()) := by
  refine Prod.ext rfl ?_
  have : ((addProb Demo.sysP TagCls.initial (c!"/p") none Demo.corpusP 1).2.toOption).isSome = true := by decide +kernel
  cases h : (addProb Demo.sysP TagCls.initial (c!"/p") none Demo.corpusP 1).2 with
  | ok u => rfl
  | error e => rw [h] at this; cases this

/-- What the analyzer of the folder says about the word, before and after. -/
example : ((construct (S := Dbl) Demo.sysP TagCls.initial { path := some (c!"/p") }).toOption.bind fun x =>
      (x.morph.parse (c!"ель")).toOption.map (List.map fun p => (p.tag.str, p.score.val))) =
      some [(c!"NOUN,femn sing,nomn", 1), (c!"NOUN,femn sing,accs", 1)] ∧
    ((construct (S := Dbl) (Demo.sysP.withDisk (c!"/p") ((Demo.sysP.disk (c!"/p")).writeAll Demo.opsP)) TagCls.initial { path := some (c!"/p") }).toOption.bind fun x =>
      (x.morph.parse (c!"ель")).toOption.map (List.map fun p => (p.tag.str, p.score.val))) =
      some [(c!"NOUN,femn sing,nomn", fl (666666 / 1000000)), (c!"NOUN,femn sing,accs", fl (333333 / 1000000))] := by
  decide +kernel

/-- Non-vacuity: the hypotheses of `c88_scores` hold for it (and those of `c88_after`, `c88_killed`, `c88_metadata`, by `Demo.opsP_ok`). -/
example : ∃ x : Analyzer Rat, construct Demo.sysP TagCls.initial { path := some (c!"/p"), est := .off } = .ok x ∧ x.morph.dict.SmallCounts x.morph.sub ∧
    Demo.sysP.env.LowerStable ∧ Demo.corpusP.length ≤ 2 ^ 30 ∧
    (∀ e ∈ Demo.corpusP, ∀ ts, x.morph.tag (x.morph.env.lower e.1) = .ok ts → ts.length ≤ 2 ^ 30) ∧
    ∃ data, estimate x.morph Demo.corpusP 1 = .ok data ∧ data ≠ [] ∧ ∀ e ∈ data, ':' ∉ e.1.2.str := by
  have h1 : ((construct (S := Rat) Demo.sysP TagCls.initial { path := some (c!"/p"), est := .off }).toOption.map fun x =>
      decide ((∀ t ∈ x.morph.dict.pred, (t.map fun e => e.2.1).sum < 2 ^ 25 - 1) ∧ x.lang = c!"ru" ∧
        (∀ e ∈ Demo.corpusP, ((x.morph.tag (x.morph.env.lower e.1)).toOption.map fun ts => decide (ts.length ≤ 2)) = some true) ∧
        ((estimate x.morph Demo.corpusP 1).toOption.map fun d => decide (d ≠ [] ∧ ∀ e ∈ d, ':' ∉ e.1.2.str)) = some true)) = some true := by
    decide +kernel
  cases hx : construct (S := Rat) Demo.sysP TagCls.initial { path := some (c!"/p"), est := .off } with
  | error e => rw [hx] at h1; cases h1
  | ok x =>
    rw [hx] at h1
    obtain ⟨a, l, b, c⟩ := of_decide_eq_true (Option.some.inj h1)
    have hs : x.morph.sub = ruSubst := by
      obtain ⟨p, r, dl, e, m, _, h2, h3, _, h5, rfl⟩ := construct_ok hx
      rw [show m.sub = _ from (mkMorph_units h5).2.2.1]
      change defaultSubst (chooseLanguage dl _) = _
      rw [show chooseLanguage dl _ = c!"ru" from l]
      rfl
    refine ⟨x, rfl, hs ▸ c73_condition _ _ c05_default_targets.2.2.1 a, demoEnv_lowerStable, by decide, ?_, ?_⟩
    · intro e he ts hts
      have := b e he
      rw [hts] at this
      have h2 : ts.length ≤ 2 := of_decide_eq_true (Option.some.inj this)
      omega
    · cases hd : estimate x.morph Demo.corpusP 1 with
      | error e => rw [hd] at c; cases c
      | ok data =>
        rw [hd] at c
        obtain ⟨c1, c2⟩ := of_decide_eq_true (Option.some.inj c)
        exact ⟨data, rfl, c1, c2⟩

end Verif
