/-
C49: which dictionary, which language, which configuration.
-/
import Verif.Props.C48

set_option linter.unusedSectionVars false

namespace Verif

variable {S : Type} [Score S]

/-- The documented choice of the folder: the `path` argument, else the environment variable, else the installed package of the language
(Russian if none is given). -/
inductive Selected (s : Sys) (a : MorphArgs S) (p : Str) : Prop
  | explicit : a.path = some p → Selected s a p
  | fromEnv : a.path = none → s.envVar = some p → Selected s a p
  | package : a.path = none → s.envVar = none → dictGet (a.lang.getD (c!"ru")) s.installed = some p → Selected s a p

theorem choosePath_iff (s : Sys) (a : MorphArgs S) (p : Str) : choosePath s a.path a.lang' = .ok p ↔ Selected s a p := by
  obtain ⟨path, lang, rt, un, est, sub⟩ := a
  cases path with
  | some q =>
    simp only [choosePath, Except.ok.injEq]
    constructor
    · rintro rfl; exact .explicit rfl
    · rintro (h | h | h)
      · cases h; rfl
      · cases h
      · cases h
  | none =>
    cases he : s.envVar with
    | some q =>
      simp only [choosePath, he, Except.ok.injEq]
      constructor
      · rintro rfl; exact .fromEnv rfl he
      · rintro (h | ⟨_, h⟩ | ⟨_, h, _⟩)
        · cases h
        · rw [he] at h; cases h; rfl
        · rw [he] at h; cases h
    | none =>
      have hl : (if True ∧ lang = none then some (c!"ru") else lang) = some (lang.getD (c!"ru")) := by cases lang <;> simp
      simp only [choosePath, he, MorphArgs.lang', langDictPath, hl, Option.bind_some]
      constructor
      · intro h
        split at h
        · rename_i q hq; cases h; exact .package rfl he hq
        · cases h
      · rintro (h | ⟨_, h⟩ | ⟨_, _, h⟩)
        · cases h
        · rw [he] at h; cases h
        · simp only at h; rw [h]

/-- **C49.** At most one folder is selected; the dictionary of a constructed analyzer is the one in the selected folder, and if no folder
is selected the constructor raises `ValueError`. -/
theorem c49_dictionary (s : Sys) (cls : TagCls) (a : MorphArgs S) :
    (∀ p q, Selected s a p → Selected s a q → p = q) ∧
    (∀ x, construct s cls a = .ok x → ∃ p m c, Selected s a p ∧ loadDict s.little (s.disk p) cls = .ok (m, c, x.morph.dict)) ∧
    ((∀ p, ¬ Selected s a p) → construct s cls a = .error .valueError) := by
  refine ⟨fun p q hp hq => ?_, fun x h => ?_, fun h => ?_⟩
  · rw [← choosePath_iff] at hp hq
    rw [hp] at hq; cases hq; rfl
  · obtain ⟨path, r, dl, est, m, h1, h2, h3, h4, h5, rfl⟩ := construct_ok h
    refine ⟨path, r.1, r.2.1, (choosePath_iff s a path).1 h1, ?_⟩
    unfold mkMorph at h5
    obtain ⟨u, _, h5⟩ := (bind_ok_iff _ _ _).1 h5
    cases h5
    exact h2
  · have hc : choosePath s a.path a.lang' = .error .valueError := by
      cases hc : choosePath s a.path a.lang' with
      | ok p => exact absurd ((choosePath_iff s a p).1 hc) (h p)
      | error e =>
        revert hc
        unfold choosePath langDictPath
        split
        · intro hc; cases hc
        · split
          · intro hc; cases hc
          · split <;> intro hc <;> cases hc; rfl
    unfold construct
    change (do
      let path ← choosePath s a.path a.lang'
      _) = _
    rw [hc]
    rfl

/-- **C49.** With an explicit path neither the environment variable nor the installed packages matter. -/
theorem c49_explicit_path (s s' : Sys) (cls : TagCls) (a : MorphArgs S) (p : Str) (hp : a.path = some p) (hl : s'.little = s.little)
    (hv : s'.env = s.env) (hd : s'.disk p = s.disk p) : construct s' cls a = construct s cls a := by
  unfold construct
  rw [hp]
  simp only [choosePath, ok_bind, hl, hv, hd]

/-- **C49.** The environment variable works as an explicit path, except that a missing language is taken to be Russian. -/
theorem c49_env_var (s : Sys) (cls : TagCls) (a : MorphArgs S) (p : Str) (hp : a.path = none) (he : s.envVar = some p) :
    (construct s cls a).map Analyzer.morph =
      (construct s cls { a with path := some p, lang := some (a.lang.getD (c!"ru")) }).map Analyzer.morph := by
  have hl : (if a.path = none ∧ a.lang = none then some (c!"ru") else a.lang) = some (a.lang.getD (c!"ru")) := by
    rw [hp]; cases a.lang <;> simp
  unfold construct
  rw [hl, hp]
  simp only [choosePath, he, ok_bind, reduceCtorEq, false_and, if_false]
  cases h1 : loadDict s.little (s.disk p) cls with
  | error e => rfl
  | ok r =>
    simp only [ok_bind]
    cases h2 : dictLang r.1 with
    | error e => rfl
    | ok dl =>
      simp only [ok_bind]
      cases h3 : loadEst (s.disk p) r.1 a.est with
      | error e => rfl
      | ok est =>
        simp only [ok_bind]
        generalize mkMorph s.env _ _ _ _ est = m
        cases m <;> rfl

/-- The language a dictionary declares in its metadata. -/
def DeclaresLang (s : Sys) (p : Str) (l : Option Str) : Prop := ∃ m, loadMeta (s.disk p) = .ok m ∧
  match l with
  | some l => dictGet (c!"language_code") m = some (.str l)
  | none => dictGet (c!"language_code") m = none ∨ dictGet (c!"language_code") m = some .null

theorem loadDict_meta {little : Bool} {d : Disk} {cls : TagCls} {r : List (Str × Json) × TagCls × Dict} (h : loadDict little d cls = .ok r) :
    loadMeta d = .ok r.1 := by
  unfold loadDict at h
  simp only [bind_ok_iff] at h
  obtain ⟨m, h1, u, h2, g, h3, rows, h4, strs, h5, gramtab, h6, sj, h7, suffixes, h8, paradigms, h9, words, h10, prefixes, h11, pred, h12,
    msl, h13, h14⟩ := h
  cases h14
  exact h1

/-- **C49.** The language of the analyzer: the requested one; if none is requested but a path is given, the one the dictionary there
declares, or Russian if it declares none; if neither is given, Russian. -/
theorem c49_language (s : Sys) (cls : TagCls) (a : MorphArgs S) (x : Analyzer S) (h : construct s cls a = .ok x) :
    (∀ l, a.lang = some l → x.lang = l) ∧
    (a.lang = none → ∀ p, a.path = some p → ∃ l, DeclaresLang s p l ∧ x.lang = l.getD (c!"ru")) ∧
    (a.lang = none → a.path = none → x.lang = c!"ru") := by
  obtain ⟨path, r, dl, est, m, h1, h2, h3, h4, h5, rfl⟩ := construct_ok h
  refine ⟨fun l hl => ?_, fun hl p hp => ?_, fun hl hp => ?_⟩
  · simp [MorphArgs.lang', hl, chooseLanguage]
  · have hpp : path = p := by rw [hp] at h1; simp only [choosePath] at h1; cases h1; rfl
    subst hpp
    refine ⟨dl, ⟨r.1, loadDict_meta h2, ?_⟩, ?_⟩
    · unfold dictLang at h3
      split at h3
      · cases h3; exact .inl (by assumption)
      · cases h3; exact .inr (by assumption)
      · cases h3; assumption
      · cases h3
    · simp only [MorphArgs.lang', hl, hp, reduceCtorEq, false_and, if_false, chooseLanguage]
      cases dl <;> rfl
  · simp [MorphArgs.lang', hl, hp, chooseLanguage]

/-- **C49.** The configuration follows from the language: Ukrainian units and substitutes for `uk`, Russian ones for everything else
(`ru`, `ru-old`, unknown codes); explicit units and substitutes are used as they are. -/
theorem c49_config (s : Sys) (cls : TagCls) (a : MorphArgs S) (x : Analyzer S) (h : construct s cls a = .ok x) :
    (a.units = none → x.lang = c!"uk" → IsUk x.morph) ∧ (a.units = none → x.lang ≠ c!"uk" → IsRu x.morph) ∧
    (a.sub = none → x.morph.sub = if x.lang = c!"uk" then ukSubst else ruSubst) ∧
    (∀ us, a.units = some us → ∃ c, mkMorph x.morph.env x.morph.dict c x.morph.sub us x.morph.est = .ok x.morph) ∧
    (∀ t, a.sub = some t → x.morph.sub = t) := by
  obtain ⟨path, r, dl, est, m, h1, h2, h3, h4, h5, rfl⟩ := construct_ok h
  have hcfg : ∀ l : Str, configLang l = some (c!"uk") ↔ l = c!"uk" := by
    intro l
    unfold configLang
    by_cases h1 : l = c!"ru-old"
    · subst h1; decide
    · by_cases h2 : l = c!"uk"
      · subst h2; decide
      · rw [if_neg h1]
        simp only [h2, or_false, iff_false]
        split
        · intro hh; cases hh; exact h2 rfl
        · intro hh; cases hh
  have hm : m.env = s.env ∧ m.dict = r.2.2 ∧ m.sub = a.sub.getD (defaultSubst (chooseLanguage dl a.lang')) ∧ m.est = est := by
    unfold mkMorph at h5
    obtain ⟨u, _, h5⟩ := (bind_ok_iff _ _ _).1 h5
    cases h5
    exact ⟨rfl, rfl, rfl, rfl⟩
  obtain ⟨e1, e2, e3, e4⟩ := hm
  have hself : mkMorph m.env m.dict r.2.1 m.sub (a.units.getD (defaultUnits (chooseLanguage dl a.lang'))) m.est = .ok m := by
    rw [e1, e2, e3, e4]; exact h5
  refine ⟨fun hu hl => ⟨r.2.1, ?_⟩, fun hu hl => ⟨r.2.1, ?_⟩, fun hs => ?_, fun us hu => ⟨r.2.1, ?_⟩, fun t ht => ?_⟩
  · rw [hu, Option.getD_none, defaultUnits, if_pos ((hcfg _).2 hl)] at hself; exact hself
  · rw [hu, Option.getD_none, defaultUnits, if_neg (fun hh => hl ((hcfg _).1 hh))] at hself; exact hself
  · show m.sub = _
    rw [e3, hs, Option.getD_none, defaultSubst]
    by_cases hl : chooseLanguage dl a.lang' = c!"uk"
    · rw [if_pos ((hcfg _).2 hl), if_pos hl]
    · rw [if_neg (fun hh => hl ((hcfg _).1 hh)), if_neg hl]
  · rw [hu, Option.getD_some] at hself; exact hself
  · show m.sub = t
    rw [e3, ht]; rfl

/-- **C49.** By default P(t|w) data is used exactly if the metadata of the dictionary says it is there; it is read from the same folder. -/
theorem c49_estimator (s : Sys) (cls : TagCls) (a : MorphArgs S) (x : Analyzer S) (h : construct s cls a = .ok x) (p : Str) (hp : Selected s a p) :
    (a.est = .off → x.morph.est = none) ∧
    (a.est = .on → ∃ t, x.morph.est = some t ∧ s.disk p .probs = some (.intDawg t)) ∧
    (a.est = .auto → ∃ m, loadMeta (s.disk p) = .ok m ∧
      ((∃ j, dictGet (c!"P(t|w)") m = some j ∧ j.truthy = true) → ∃ t, x.morph.est = some t ∧ s.disk p .probs = some (.intDawg t)) ∧
      ((¬ ∃ j, dictGet (c!"P(t|w)") m = some j ∧ j.truthy = true) → x.morph.est = none)) := by
  obtain ⟨path, r, dl, est, m, h1, h2, h3, h4, h5, rfl⟩ := construct_ok h
  rw [(choosePath_iff s a p).2 hp] at h1
  cases h1
  have e4 : m.est = est := by
    unfold mkMorph at h5
    obtain ⟨u, _, h5⟩ := (bind_ok_iff _ _ _).1 h5
    cases h5
    rfl
  have rd : ∀ {e : Option (List (Str × Nat))}, (match s.disk p .probs with
      | some (.intDawg t) => (.ok (some t) : Except PyErr (Option (List (Str × Nat))))
      | _ => .error PyErr.ioError) = .ok e → ∃ t, e = some t ∧ s.disk p .probs = some (.intDawg t) := by
    intro e h
    split at h
    · cases h; exact ⟨_, rfl, by assumption⟩
    · cases h
  unfold loadEst at h4
  simp only
  rw [e4]
  refine ⟨fun ha => ?_, fun ha => ?_, fun ha => ⟨r.1, loadDict_meta h2, fun hj => ?_, fun hj => ?_⟩⟩
  · rw [ha] at h4; simp at h4; exact h4.symm
  · rw [ha] at h4; simp only [if_true] at h4; exact rd h4
  · obtain ⟨j, hj, ht⟩ := hj
    rw [ha] at h4
    simp only [hj, Option.map_some, Option.getD_some, ht, if_true] at h4
    exact rd h4
  · rw [ha] at h4
    simp only at h4
    cases hg : dictGet (c!"P(t|w)") r.1 with
    | none => rw [hg] at h4; simp at h4; exact h4.symm
    | some j =>
      have ht : j.truthy = false := by
        cases ht : j.truthy
        · rfl
        · exact absurd ⟨j, hg, ht⟩ hj
      rw [hg] at h4
      simp [ht] at h4; exact h4.symm

/-- The demo machine with the environment variable set to the Ukrainian dictionary. -/
def Demo.sysUk : Sys := { Demo.sys with envVar := some (c!"/uk") }

/-- Constructing with an explicit path takes the language from the dictionary; without any argument the installed Russian package is
used; an uninstalled language is an error. -/
example : (construct (S := Rat) Demo.sys TagCls.initial { path := some (c!"/uk") }).map Analyzer.lang = .ok (c!"uk") ∧
    (construct (S := Rat) Demo.sys TagCls.initial {}).map Analyzer.lang = .ok (c!"ru") ∧
    (construct (S := Rat) Demo.sys TagCls.initial { lang := some (c!"uk") }).map Analyzer.lang = .error .valueError := by
  decide +kernel

/-- **C49 (defect).** With the environment variable pointing to a Ukrainian dictionary, `MorphAnalyzer()` is a Russian analyzer, although
`MorphAnalyzer(path=…)` with the same folder is a Ukrainian one. -/
theorem c49_env_language :
    (construct (S := Rat) Demo.sysUk TagCls.initial {}).map Analyzer.lang = .ok (c!"ru") ∧
    (construct (S := Rat) Demo.sysUk TagCls.initial { path := Demo.sysUk.envVar }).map Analyzer.lang = .ok (c!"uk") := by
  decide +kernel

end Verif
