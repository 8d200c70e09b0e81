/-
C115: constructing an analyzer warns exactly when something is wrong with the language.
-/
import Verif.Model.Warn
import Verif.Props.C49

set_option linter.unusedSectionVars false

namespace Verif

variable {S : Type} [Score S]

/-! ### Specification -/

/-- The language the analyzer is asked for: the argument, or Russian if neither a path nor a language is given. -/
def askedLang (a : MorphArgs S) : Option Str :=
  match a.path, a.lang with
  | none, none => some (c!"ru")
  | _, l => l

/-- The language of the analyzer: what it is asked for, else what the dictionary says, else Russian. -/
def Speaks (a : MorphArgs S) (declared : Option Str) (l : Str) : Prop :=
  askedLang a = some l ∨ (askedLang a = none ∧ declared = some l) ∨ (askedLang a = none ∧ declared = none ∧ l = c!"ru")

/-- The name under which the settings of a language are looked for. -/
def settingsName (l : Str) : Str := if l = c!"ru-old" then c!"ru" else l

/-- How many of the two settings (units, substitutes) are left to the language. -/
def leftOpen (a : MorphArgs S) : Nat := (if a.units = none then 1 else 0) + (if a.sub = none then 1 else 0)

/-- `declared` is what the dictionary that the arguments select says about its language. -/
def Declares (s : Sys) (cls : TagCls) (a : MorphArgs S) (declared : Option Str) : Prop :=
  ∃ path r, choosePath s a.path (askedLang a) = .ok path ∧ loadDict s.little (s.disk path) cls = .ok r ∧ dictLang r.1 = .ok declared

/-! ### The property -/

theorem askedLang_eq (a : MorphArgs S) : (if a.path = none ∧ a.lang = none then some (c!"ru") else a.lang) = askedLang a := by
  unfold askedLang
  cases a.path <;> cases a.lang <;> simp

theorem chooseLanguageW_snd (d l : Option Str) : (chooseLanguageW d l).2 = chooseLanguage d l := by
  unfold chooseLanguageW chooseLanguage
  cases l <;> cases d <;> rfl

/-- **Warnings change nothing.**  What the constructor returns or raises is what it returns or raises in the model without warnings. -/
theorem c115_same (attrs : List Str) (s : Sys) (cls : TagCls) (a : MorphArgs S) : (constructW attrs s cls a).2 = construct s cls a := by
  unfold constructW construct
  simp only
  rw [askedLang_eq]
  cases choosePath s a.path (askedLang a) with
  | error e => rfl
  | ok path =>
    simp only [ok_bind]
    cases loadDict s.little (s.disk path) cls with
    | error e => rfl
    | ok r =>
      simp only [ok_bind]
      cases dictLang r.1 with
      | error e => rfl
      | ok dl =>
        simp only [ok_bind, chooseLanguageW_snd]
        cases loadEst (s.disk path) r.1 a.est with
        | error e => rfl
        | ok est =>
          simp only [ok_bind]
          cases a.sub <;> cases a.units <;> simp only [Option.getD_some, Option.getD_none] <;>
            (generalize hm : mkMorph s.env r.2.2 r.2.1 _ _ est = x; cases x <;> rfl)

/-- **Exactly which warnings.**  A constructed analyzer has issued, in this order: a warning that the language is assumed to be Russian exactly if
the user does not say it and the dictionary does not either; a warning about a mismatch exactly if the user (or the default) says one thing and the
dictionary another, or nothing; and one about the unknown language for each setting that is left to it, exactly if the library has nothing of that name. -/
theorem c115_exact (attrs : List Str) (s : Sys) (cls : TagCls) (a : MorphArgs S) (x : Analyzer S) (h : construct s cls a = .ok x) :
    ∃ declared, Declares s cls a declared ∧ Speaks a declared x.lang ∧
      (constructW attrs s cls a).1 =
        (match askedLang a with
          | none => if declared = none then [.undeclared] else []
          | some l => if declared = some l then [] else [.mismatch declared l]) ++
        if settingsName x.lang ∈ attrs then [] else List.replicate (leftOpen a) (.unknownCode (settingsName x.lang)) := by
  have h' := h
  rw [← c115_same attrs] at h'
  unfold construct at h
  simp only at h
  unfold constructW at h' ⊢
  simp only at h' ⊢
  rw [askedLang_eq] at h h' ⊢
  cases hp : choosePath s a.path (askedLang a) with
  | error e => simp [hp, bind, Except.bind] at h
  | ok path =>
    simp only [hp, ok_bind] at h h' ⊢
    cases hd : loadDict s.little (s.disk path) cls with
    | error e => simp [hd, bind, Except.bind] at h
    | ok r =>
      simp only [hd, ok_bind] at h h' ⊢
      cases hl : dictLang r.1 with
      | error e => simp [hl, bind, Except.bind] at h
      | ok dl =>
        simp only [hl, ok_bind] at h h' ⊢
        cases he : loadEst (s.disk path) r.1 a.est with
        | error e => simp [he, bind, Except.bind] at h
        | ok est =>
          simp only [he, ok_bind] at h h' ⊢
          have hx : x.lang = chooseLanguage dl (askedLang a) := by
            cases hm : mkMorph s.env r.2.2 r.2.1 (a.sub.getD (defaultSubst (chooseLanguage dl (askedLang a))))
                (a.units.getD (defaultUnits (chooseLanguage dl (askedLang a)))) est with
            | error e => simp [hm, bind, Except.bind] at h
            | ok m =>
              simp only [hm, ok_bind, pure, Except.pure, Except.ok.injEq] at h
              rw [← h]
          refine ⟨dl, ⟨path, r, hp, hd, hl⟩, ?_, ?_⟩
          · rw [hx]
            unfold Speaks chooseLanguage
            cases askedLang a <;> cases dl <;> simp
          · have hw : (chooseLanguageW dl (askedLang a)).1 = (match askedLang a with
                | none => if dl = none then [.undeclared] else []
                | some l => if dl = some l then [] else [.mismatch dl l]) := by
              unfold chooseLanguageW
              cases askedLang a with
              | none => cases dl <;> simp
              | some l => by_cases e : dl = some l <;> simp [e]
            have hc : configWarnings attrs (chooseLanguage dl (askedLang a)) =
                if settingsName x.lang ∈ attrs then [] else [.unknownCode (settingsName x.lang)] := by
              rw [hx]; rfl
            rw [← hw]
            simp only [chooseLanguageW_snd] at h' ⊢
            rw [hc] at h' ⊢
            obtain ⟨pa, la, rt, us, es, sb⟩ := a
            cases sb <;> cases us <;> simp only at h' ⊢ <;>
              (generalize hm : mkMorph s.env r.2.2 r.2.1 _ _ est = y at h' ⊢
               cases y with
               | error e => simp at h'
               | ok m =>
                 by_cases hin : settingsName x.lang ∈ attrs
                 · simp [hin]
                 · simp [hin, leftOpen, List.replicate])

/-- **No false alarms.**  A dictionary that declares the language it is asked for, one the library has settings for, is loaded silently; so is one
that declares such a language when the user only gives the path. -/
theorem c115_silent (attrs : List Str) (hru : c!"ru" ∈ attrs) (huk : c!"uk" ∈ attrs) (s : Sys) (cls : TagCls) (a : MorphArgs S) (x : Analyzer S)
    (h : construct s cls a = .ok x) (l : Str) (hl : l = c!"ru" ∨ l = c!"uk" ∨ l = c!"ru-old") (hd : Declares s cls a (some l))
    (ha : askedLang a = none ∨ askedLang a = some l) : (constructW attrs s cls a).1 = [] := by
  obtain ⟨d, hd', hs, e⟩ := c115_exact attrs s cls a x h
  have hdl : d = some l := by
    obtain ⟨p, r, h1, h2, h3⟩ := hd
    obtain ⟨p', r', h1', h2', h3'⟩ := hd'
    rw [h1] at h1'; obtain rfl : p = p' := by simpa using h1'
    rw [h2] at h2'; obtain rfl : r = r' := by simpa using h2'
    rw [h3] at h3'; simpa using h3'.symm
  subst hdl
  have hx : x.lang = l := by
    rcases hs with hs | ⟨_, hs⟩ | ⟨_, hs, _⟩
    · rcases ha with ha | ha
      · rw [ha] at hs; simp at hs
      · rw [ha] at hs; simpa using hs.symm
    · simpa using hs.symm
    · simp at hs
  have hin : settingsName x.lang ∈ attrs := by
    rw [hx]
    rcases hl with rfl | rfl | rfl
    · exact hru
    · exact huk
    · exact hru
  rw [e, if_pos hin]
  rcases ha with ha | ha <;> simp [ha]

/-- **A failing constructor.**  When the constructor raises before a dictionary has been loaded, nothing has been warned about; and it never warns twice
about the choice of the language, nor more than twice about its settings. -/
theorem c115_failing (attrs : List Str) (s : Sys) (cls : TagCls) (a : MorphArgs S) :
    ((∀ d, ¬ Declares s cls a d) → (constructW attrs s cls a).1 = []) ∧
    ∀ d, Declares s cls a d → ∃ n, n ≤ leftOpen a ∧ ∃ l, Speaks a d l ∧
      (constructW attrs s cls a).1 =
        (match askedLang a with
          | none => if d = none then [.undeclared] else []
          | some l => if d = some l then [] else [.mismatch d l]) ++ List.replicate n (.unknownCode (settingsName l)) := by
  constructor
  · intro hno
    unfold constructW
    simp only
    rw [askedLang_eq]
    cases hp : choosePath s a.path (askedLang a) with
    | error e => rfl
    | ok path =>
      simp only
      cases hd : loadDict s.little (s.disk path) cls with
      | error e => rfl
      | ok r =>
        simp only
        cases hl : dictLang r.1 with
        | error e => rfl
        | ok dl => exact absurd ⟨path, r, hp, hd, hl⟩ (hno dl)
  · rintro dl ⟨path, r, hp, hd, hl⟩
    have hw : (chooseLanguageW dl (askedLang a)).1 = (match askedLang a with
        | none => if dl = none then [.undeclared] else []
        | some l => if dl = some l then [] else [.mismatch dl l]) := by
      unfold chooseLanguageW
      cases askedLang a with
      | none => cases dl <;> simp
      | some l => by_cases e : dl = some l <;> simp [e]
    have hsp : Speaks a dl (chooseLanguage dl (askedLang a)) := by
      unfold Speaks chooseLanguage
      cases askedLang a <;> cases dl <;> simp
    rw [← hw]
    unfold constructW
    simp only
    rw [askedLang_eq]
    simp only [hp, hd, hl, chooseLanguageW_snd]
    cases he : loadEst (s.disk path) r.1 a.est with
    | error e => exact ⟨0, Nat.zero_le _, _, hsp, by simp⟩
    | ok est =>
      simp only
      have hc : configWarnings attrs (chooseLanguage dl (askedLang a)) =
          if settingsName (chooseLanguage dl (askedLang a)) ∈ attrs then [] else [.unknownCode (settingsName (chooseLanguage dl (askedLang a)))] := rfl
      rw [hc]
      by_cases hin : settingsName (chooseLanguage dl (askedLang a)) ∈ attrs
      · refine ⟨0, Nat.zero_le _, _, hsp, ?_⟩
        obtain ⟨pa, la, rt, us, es, sb⟩ := a
        cases sb <;> cases us <;> simp only <;> (generalize hm : mkMorph s.env r.2.2 r.2.1 _ _ est = y; cases y <;> simp [hin])
      · refine ⟨leftOpen a, le_refl _, _, hsp, ?_⟩
        obtain ⟨pa, la, rt, us, es, sb⟩ := a
        cases sb <;> cases us <;> simp only <;>
          (generalize hm : mkMorph s.env r.2.2 r.2.1 _ _ est = y; cases y <;> simp [hin, leftOpen, List.replicate])

/-- **A dictionary without a declared language** (one made before version 0.9) is never loaded silently. -/
theorem c115_old (attrs : List Str) (s : Sys) (cls : TagCls) (a : MorphArgs S) (h : Declares s cls a none) :
    (askedLang a = none → .undeclared ∈ (constructW attrs s cls a).1) ∧
    ∀ l, askedLang a = some l → .mismatch none l ∈ (constructW attrs s cls a).1 := by
  obtain ⟨n, _, l, _, e⟩ := (c115_failing attrs s cls a).2 none h
  rw [e]
  refine ⟨fun ha => by simp [ha], fun l ha => by simp [ha]⟩

/-- The names that `pymorphy2.lang` has (some of them). -/
def Demo.langAttrs : List Str := [c!"__doc__", c!"__file__", c!"__name__", c!"__path__", c!"absolute_import", c!"ru", c!"uk"]

/-- Silent: the installed Russian dictionary; the Ukrainian one by path.  With warnings: the environment variable sends `MorphAnalyzer()` to a Ukrainian
dictionary; an unknown language, with everything left to it, and with the units given. -/
example : (constructW (S := Rat) Demo.langAttrs Demo.sys TagCls.initial {}).1 = [] ∧
    (constructW (S := Rat) Demo.langAttrs Demo.sys TagCls.initial { path := some (c!"/uk") }).1 = [] ∧
    (constructW (S := Rat) Demo.langAttrs Demo.sysUk TagCls.initial {}).1 = [.mismatch (some (c!"uk")) (c!"ru")] ∧
    (constructW (S := Rat) Demo.langAttrs Demo.sys TagCls.initial { path := some (c!"/uk"), lang := some (c!"xx") }).1 =
      [.mismatch (some (c!"uk")) (c!"xx"), .unknownCode (c!"xx"), .unknownCode (c!"xx")] ∧
    (constructW (S := Rat) Demo.langAttrs Demo.sys TagCls.initial { path := some (c!"/uk"), lang := some (c!"xx"), units := some [] }).1 =
      [.mismatch (some (c!"uk")) (c!"xx"), .unknownCode (c!"xx")] ∧
    (constructW (S := Rat) Demo.langAttrs Demo.sys TagCls.initial { lang := some (c!"uk") }).1 = [] := by
  decide +kernel

/-- **C115 (defect).**  A name of `pymorphy2.lang` that is no language passes for a known one: the Russian settings are used and nothing is said
about the language being unknown. -/
theorem c115_not_a_language :
    (constructW (S := Rat) Demo.langAttrs Demo.sys TagCls.initial { path := some (c!"/uk"), lang := some (c!"absolute_import") }).1 =
      [.mismatch (some (c!"uk")) (c!"absolute_import")] ∧ configLang (c!"absolute_import") = none := by
  decide +kernel

end Verif
