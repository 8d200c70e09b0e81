/-
C48: a pickled analyzer.
-/
import Verif.Model.Construct
import Verif.Lemmas.Cls
import Verif.Props.C25
import Verif.Props.C56

set_option linter.unusedSectionVars false

namespace Verif

variable {S : Type} [Score S]

theorem init_known (c c' : TagCls) (rows : List GramRow) : (c.init rows).known = (c'.init rows).known :=
  (init_tables c rows).2.2.trans (init_tables c' rows).2.2.symm

/-- Loading does not depend on the class state that was there before, except for the class state it leaves. -/
theorem loadDict_cls {little : Bool} {d : Disk} {cls : TagCls} {r : List (Str × Json) × TagCls × Dict} (h : loadDict little d cls = .ok r) :
    ∃ rows, r.2.1 = cls.init rows ∧ ∀ cls', loadDict little d cls' = .ok (r.1, cls'.init rows, r.2.2) := by
  unfold loadDict at h ⊢
  simp only [bind_ok_iff] at h
  obtain ⟨m, h1, u, h2, g, h3, rows, h4, strs, h5, gramtab, h6, sj, h7, suffixes, h8, paradigms, h9, words, h10, prefixes, h11, pred, h12,
    msl, h13, h14⟩ := h
  cases h14
  refine ⟨rows, rfl, fun cls' => ?_⟩
  have h6' : mapE (cls'.init rows).mkTag strs = .ok gramtab := by
    rw [show (cls'.init rows).mkTag = (cls.init rows).mkTag from funext (mkTag_knownEq (init_known _ _ _))]; exact h6
  simp only [h1, ok_bind, h2, h3, h4, h5, h6', h7, h8, h9, h10, h11, h12, h13]
  rfl

/-- The language handed to the choice of the dictionary, analyzer.py:197-198. -/
def MorphArgs.lang' (a : MorphArgs S) : Option Str := if a.path = none ∧ a.lang = none then some (c!"ru") else a.lang

theorem construct_ok {s : Sys} {cls : TagCls} {a : MorphArgs S} {x : Analyzer S} (h : construct s cls a = .ok x) :
    ∃ path r dl est m, choosePath s a.path a.lang' = .ok path ∧ loadDict s.little (s.disk path) cls = .ok r ∧ dictLang r.1 = .ok dl ∧
      loadEst (s.disk path) r.1 a.est = .ok est ∧
      mkMorph s.env r.2.2 r.2.1 (a.sub.getD (defaultSubst (chooseLanguage dl a.lang'))) (a.units.getD (defaultUnits (chooseLanguage dl a.lang'))) est = .ok m ∧
      x = ⟨m, chooseLanguage dl a.lang', a.path, a.lang, a.resultType, a.units.getD (defaultUnits (chooseLanguage dl a.lang'))⟩ := by
  unfold construct at h
  simp only [bind_ok_iff] at h
  obtain ⟨path, h1, r, h2, dl, h3, est, h4, m, h5, h6⟩ := h
  cases h6
  exact ⟨path, r, dl, est, m, h1, h2, h3, h4, h5, rfl⟩

/-- The answers of two analyzers that do not depend on what other dictionaries were loaded before. -/
def SameAnswers (m m' : Morph S) : Prop :=
  (∀ w, m.parse w = m'.parse w) ∧ (∀ w, m.tag w = m'.tag w) ∧ (∀ w, m.normalForms w = m'.normalForms w) ∧
  (∀ w strict, m.wordIsKnown w strict = m'.wordIsKnown w strict) ∧ (∀ p, m.isKnown p = m'.isKnown p) ∧
  (∀ p, m.iterKnownWordParses p = m'.iterKnownWordParses p) ∧
  (∀ p, m.lexeme p = m'.lexeme p) ∧ (∀ p, m.normalized p = m'.normalized p)

theorem SameButCls.answers {m m' : Morph S} (h : SameButCls m m') : SameAnswers m m' := by
  refine ⟨parse_sameBut h, tag_sameBut h, fun w => ?_, fun w b => ?_, fun p => ?_, fun p => ?_, fun p => lexemeOf_sameBut h _ _,
    fun p => normalizedOf_sameBut h _ _⟩
  · unfold Morph.normalForms; rw [parse_sameBut h]
  · unfold Morph.wordIsKnown; rw [h.dict, h.env, h.sub]
  · unfold Morph.isKnown; rw [h.dict, h.sub]
  · unfold Morph.iterKnownWordParses; rw [h.dict, h.units]

/-- **C48.** Let `x` be an analyzer constructed with the default `probability_estimator_cls` and `char_substitutes` (all other arguments
are free).  Unpickling it on a machine with the same byte order where the same arguments select a folder with the same content succeeds
and gives an analyzer of the same language with the same answers, whatever dictionaries were loaded there before; it pickles to the same
arguments again. -/
theorem c48_copy (s s' : Sys) (cls cls' : TagCls) (a : MorphArgs S) (x : Analyzer S) (h : construct s cls a = .ok x)
    (he : a.est = .auto) (hs : a.sub = none) (hl : s'.little = s.little) (hv : s'.env = s.env)
    (hp : ∀ path, choosePath s a.path a.lang' = .ok path → choosePath s' a.path a.lang' = .ok path ∧ s'.disk path = s.disk path) :
    ∃ y, construct s' cls' x.reduce = .ok y ∧ y.lang = x.lang ∧ SameAnswers x.morph y.morph ∧ y.reduce = x.reduce := by
  obtain ⟨path, r, dl, est, m, h1, h2, h3, h4, h5, rfl⟩ := construct_ok h
  obtain ⟨rows, hr, hload⟩ := loadDict_cls h2
  obtain ⟨hp1, hp2⟩ := hp path h1
  rw [hr] at h5
  obtain ⟨m', hm', hsame⟩ := mkMorph_knownEq s.env r.2.2 (init_known cls cls' rows) _ _ est m h5
  rw [hs] at hm'
  refine ⟨⟨m', chooseLanguage dl a.lang', a.path, a.lang, a.resultType, a.units.getD (defaultUnits (chooseLanguage dl a.lang'))⟩, ?_, rfl,
    hsame.answers, rfl⟩
  unfold construct Analyzer.reduce
  simp only [Option.getD_some]
  change (do
    let path ← choosePath s' a.path a.lang'
    _) = _
  rw [hp1, ok_bind, hp2, hl, hload cls', ok_bind]
  simp only [h3, ok_bind]
  rw [he] at h4
  rw [h4, ok_bind, hv]
  change (do
    let m ← mkMorph s.env r.2.2 (cls'.init rows) (Option.getD none (defaultSubst (chooseLanguage dl a.lang'))) _ est
    _) = _
  rw [hm', ok_bind]
  rfl

/-- **C48.** In the same process, with nothing else loaded in between, the copy is equal to the original in every respect. -/
theorem c48_same_process (s : Sys) (cls : TagCls) (a : MorphArgs S) (x : Analyzer S) (h : construct s cls a = .ok x)
    (he : a.est = .auto) (hs : a.sub = none) : construct s cls x.reduce = .ok x := by
  obtain ⟨path, r, dl, est, m, h1, h2, h3, h4, h5, rfl⟩ := construct_ok h
  unfold construct Analyzer.reduce
  simp only [Option.getD_some]
  change (do
    let path ← choosePath s a.path a.lang'
    _) = _
  rw [h1, ok_bind, h2, ok_bind, h3, ok_bind]
  rw [he] at h4
  rw [h4, ok_bind]
  rw [hs] at h5
  change (do
    let m ← mkMorph s.env r.2.2 r.2.1 (Option.getD none (defaultSubst (chooseLanguage dl a.lang'))) _ est
    _) = _
  rw [h5, ok_bind]
  rfl

/-! ### What pickling loses -/

/-- A grammeme table with the names the default units need. -/
def Demo.fullRows : List GramRow := [c!"NOUN", c!"ADJF", c!"CONJ", c!"ADVB", c!"anim", c!"femn", c!"masc", c!"sing", c!"plur", c!"nomn", c!"gent",
    c!"datv", c!"accs", c!"ablt", c!"loct", c!"Qual", c!"Sgtm", c!"Name", c!"Fixd", c!"Abbr", c!"Init", c!"Patr"].map fun n => ⟨n, none, n⟩

/-- A folder with a dictionary of one lexeme, in the given language, possibly with P(t|w) data. -/
def Demo.folder (lang : Str) (L : Lexeme) (probs : Option (List (Str × Nat)) := none) : Disk :=
  match compileLexemes dedupBuild dedupBuild { paradigmPrefixes := [c!""] } [L] with
  | .error _ => Disk.fresh
  | .ok c =>
    let i := { Demo.info with languageCode := .str lang }
    match saveOps true i Demo.fullRows c with
    | .error _ => Disk.fresh
    | .ok ops => match probs with
      | none => Disk.fresh.writeAll ops
      | some p => ((Disk.fresh.writeAll ops).set .probs (.intDawg p)).set .metaF (metaFile (metaOf i c ++ [(c!"P(t|w)", .bool true)]))

/-- A machine with a Russian dictionary (with P(t|w) data) at /ru and a Ukrainian one at /uk; the Russian one is an installed package. -/
def Demo.sys : Sys where
  little := true
  disk := fun p =>
    if p = c!"/ru" then Demo.folder (c!"ru") [(c!"ёж", c!"NOUN,anim,masc sing,nomn"), (c!"ежи", c!"NOUN,anim,masc plur,nomn")]
      (some [(c!"ёж:NOUN,anim,masc sing,nomn", 7)])
    else if p = c!"/uk" then Demo.folder (c!"uk") [(c!"кіт", c!"NOUN,anim,masc sing,nomn")]
    else Disk.fresh
  envVar := none
  installed := [(c!"ru", c!"/ru")]
  env := demoEnv

/-- The hypotheses of `c48_copy` are met: `MorphAnalyzer()` on the demo machine. -/
example : (do
    let x ← construct (S := Rat) Demo.sys TagCls.initial {}
    let y ← construct (S := Rat) Demo.sys x.morph.cls x.reduce
    pure (x.lang, (x.morph.tag (c!"ЕЖ")).toOption, (y.morph.tag (c!"ЕЖ")).toOption)) =
    .ok (c!"ru", some [⟨c!"NOUN,anim,masc sing,nomn"⟩], some [⟨c!"NOUN,anim,masc sing,nomn"⟩]) := by
  decide +kernel

/-- **C48 (defect).** `char_substitutes` is lost: an analyzer constructed with `char_substitutes=None` does not know еж; its unpickled
copy, on the same machine, does. -/
theorem c48_substitutes_lost : ∃ (x y : Analyzer Rat), construct Demo.sys TagCls.initial { sub := some fun _ => [] } = .ok x ∧
    construct Demo.sys TagCls.initial x.reduce = .ok y ∧ x.morph.wordIsKnown (c!"еж") = false ∧ y.morph.wordIsKnown (c!"еж") = true := by
  have h : (match construct (S := Rat) Demo.sys TagCls.initial { sub := some fun _ => [] } with
    | .error _ => false
    | .ok x => match construct Demo.sys TagCls.initial x.reduce with
      | .error _ => false
      | .ok y => x.morph.wordIsKnown (c!"еж") = false && y.morph.wordIsKnown (c!"еж")) = true := by decide +kernel
  split at h
  · cases h
  rename_i x hx
  split at h
  · cases h
  rename_i y hy
  simp only [Bool.and_eq_true, decide_eq_true_eq] at h
  exact ⟨x, y, hx, hy, h.1, h.2⟩

/-- **C48 (defect).** `probability_estimator_cls` is lost: an analyzer constructed with `probability_estimator_cls=None` scores ёж with 1,
its unpickled copy with the stored P(t|w). -/
theorem c48_estimator_lost : ∃ (x y : Analyzer Rat), construct Demo.sys TagCls.initial { est := .off } = .ok x ∧
    construct Demo.sys TagCls.initial x.reduce = .ok y ∧
    (x.morph.parse (c!"ёж")).toOption.map (List.map Parse.score) = some [1] ∧
    (y.morph.parse (c!"ёж")).toOption.map (List.map Parse.score) = some [7 / 1000000] := by
  have h : (match construct (S := Rat) Demo.sys TagCls.initial { est := .off } with
    | .error _ => false
    | .ok x => match construct Demo.sys TagCls.initial x.reduce with
      | .error _ => false
      | .ok y => decide ((x.morph.parse (c!"ёж")).toOption.map (List.map Parse.score) = some [1]) &&
        decide ((y.morph.parse (c!"ёж")).toOption.map (List.map Parse.score) = some [7 / 1000000])) = true := by decide +kernel
  split at h
  · cases h
  rename_i x hx
  split at h
  · cases h
  rename_i y hy
  simp only [Bool.and_eq_true, decide_eq_true_eq] at h
  exact ⟨x, y, hx, hy, h.1, h.2⟩

end Verif
