/-
C68 — the command line: `pymorphy parse` and `pymorphy dict meta`.
-/
import Verif.Props.C49
import Verif.Props.C58
import Verif.Props.C01
import Verif.Model.Main

set_option linter.unusedSectionVars false

namespace Verif

/-- What `pymorphy parse` needs before it reads the first token: the analyzer, the lines, the columns and the threshold.  Columns that are not
mentioned are left out; if none is mentioned, all are printed; `--cache` is a whole number or `unlim`. -/
structure Ready (k : Conv Rat) (s : Sys) (cls : TagCls) (io : Inputs) (a : ParseArgs) (x : Analyzer Rat) (lines : List Str) (o : CliOpts Rat) : Prop where
  analyzer : construct s cls { path := a.dict, lang := some a.lang } = .ok x
  stdin : (a.input = none ∨ a.input = some [] ∨ a.input = some (c!"-")) → lines = io.stdin
  file : ∀ f, a.input = some f → f ≠ [] → f ≠ c!"-" → io.file f = some lines
  thresh : k.float a.thresh = some o.thresh
  cache : a.cache = c!"unlim" ∨ ∃ n, k.int a.cache = some n
  all : a.score = false → a.lemmatize = false → a.tag = false → o.score = true ∧ o.normalForm = true ∧ o.tag = true
  some_ : (a.score = true ∨ a.lemmatize = true ∨ a.tag = true) → o.score = a.score ∧ o.normalForm = a.lemmatize ∧ o.tag = a.tag
  useful : o.normalForm = true ∨ o.tag = true
  newlines : o.newlines = true

/-- The chunk written for a token. -/
def ChunkOf (k : Conv Rat) (m : Morph Rat) (o : CliOpts Rat) (tok chunk : Str) : Prop :=
  ∃ items, Printed k.fmt m o tok items ∧ chunk = tok ++ c!"{" ++ joinC '|' items ++ c!"}\n"

theorem openForRead_ok (io : Inputs) (fn : Option Str) (lines : List Str) : openForRead io fn = .ok lines ↔
    ((fn = none ∨ fn = some [] ∨ fn = some (c!"-")) → lines = io.stdin) ∧ (∀ f, fn = some f → f ≠ [] → f ≠ c!"-" → io.file f = some lines) := by
  unfold openForRead
  split
  · next h =>
    simp only [Except.ok.injEq]
    constructor
    · rintro rfl
      refine ⟨fun _ => rfl, ?_⟩
      rintro f rfl h1 h2
      rcases h with h | h | h
      · simp only [Option.some.injEq] at h; exact absurd h h2
      · simp only [Option.some.injEq] at h; exact absurd h h1
      · cases h
    · rintro ⟨h1, -⟩
      exact (h1 (by tauto)).symm
  · next h =>
    cases fn with
    | none => simp at h
    | some f =>
      simp only [Option.some.injEq, reduceCtorEq, or_false, not_or] at h
      simp only [Option.getD_some]
      cases hf : io.file f with
      | none =>
        simp only [reduceCtorEq, false_iff, not_and, Option.some.injEq, false_or, forall_eq', hf]
        intro _ hh
        exact absurd (hh h.2 h.1) (by simp)
      | some ls =>
        simp only [Except.ok.injEq, Option.some.injEq, reduceCtorEq, false_or, forall_eq', hf]
        constructor
        · rintro rfl
          exact ⟨fun hh => by rcases hh with hh | hh; exacts [absurd hh h.2, absurd hh h.1], fun _ _ => rfl⟩
        · rintro ⟨-, hh⟩; exact hh h.2 h.1

/-- The command after the preparations. -/
theorem ready_iff (k : Conv Rat) (s : Sys) (cls : TagCls) (io : Inputs) (a : ParseArgs) (r : List Str × Option PyErr) :
    cliMain k s cls io a = r ↔
      (∃ x lines o c, Ready k s cls io a x lines o ∧ r = cliParse k.isWord k.fmt x.morph o (!a.tokenized) c lines) ∨
      ((¬ ∃ x lines o, Ready k s cls io a x lines o) ∧ ∃ e, cliMain k s cls io a = ([], some e) ∧ r = ([], some e)) := by
  have hcols : a.columns = if a.score || a.lemmatize || a.tag then (a.score, a.lemmatize, a.tag) else (true, true, true) := rfl
  have opts : ∀ x lines o, Ready k s cls io a x lines o → o.score = a.columns.1 ∧ o.normalForm = a.columns.2.1 ∧ o.tag = a.columns.2.2 := by
    intro x lines o R
    rw [hcols]
    cases h1 : a.score <;> cases h2 : a.lemmatize <;> cases h3 : a.tag <;>
      simp only [Bool.or_false, Bool.or_true, Bool.false_eq_true, if_false, if_true, Bool.or_self]
    · exact R.all h1 h2 h3
    all_goals
      have := R.some_ (by simp [h1, h2, h3])
      simpa [h1, h2, h3] using this
  have main : ∀ x lines o, Ready k s cls io a x lines o →
      ∃ c, cliMain k s cls io a = cliParse k.isWord k.fmt x.morph o (!a.tokenized) c lines := by
    intro x lines o R
    obtain ⟨o1, o2, o3⟩ := opts x lines o R
    have hc : ∃ c, cacheArg k a.cache = .ok c := by
      unfold cacheArg
      rcases R.cache with h | ⟨n, h⟩
      · exact ⟨_, by rw [if_pos h]⟩
      · by_cases hu : a.cache = c!"unlim"
        · exact ⟨_, by rw [if_pos hu]⟩
        · exact ⟨_, by rw [if_neg hu, h]⟩
    obtain ⟨c, hc⟩ := hc
    refine ⟨c, ?_⟩
    unfold cliMain
    rw [R.analyzer]
    simp only [(openForRead_ok io a.input lines).2 ⟨R.stdin, R.file⟩, R.thresh, hc]
    rw [if_neg (by rw [← o2, ← o3]; rcases R.useful with h | h <;> simp [h])]
    congr 1
    cases o
    simp only at o1 o2 o3
    simp only [CliOpts.mk.injEq]
    exact ⟨o1.symm, o2.symm, o3.symm, R.newlines.symm, trivial⟩
  have fails : (∃ x lines o, Ready k s cls io a x lines o) ∨ ∃ e, cliMain k s cls io a = ([], some e) := by
    cases h1 : construct (S := Rat) s cls { path := a.dict, lang := some a.lang } with
    | error e => right; exact ⟨e, by unfold cliMain; rw [h1]⟩
    | ok x =>
      cases h2 : openForRead io a.input with
      | error e => right; exact ⟨e, by unfold cliMain; rw [h1]; simp only [h2]⟩
      | ok lines =>
        cases h3 : k.float a.thresh with
        | none => right; exact ⟨.valueError, by unfold cliMain; rw [h1]; simp only [h2, h3]⟩
        | some th =>
          by_cases h4 : (!a.columns.2.1 && !a.columns.2.2) = true
          · right; exact ⟨.valueError, by unfold cliMain; rw [h1]; simp only [h2, h3]; rw [if_pos h4]⟩
          · cases h5 : cacheArg k a.cache with
            | error e => right; exact ⟨e, by unfold cliMain; rw [h1]; simp only [h2, h3]; rw [if_neg h4]; simp only [h5]⟩
            | ok c =>
              left
              obtain ⟨g1, g2⟩ := (openForRead_ok io a.input lines).1 h2
              refine ⟨x, lines, ⟨a.columns.1, a.columns.2.1, a.columns.2.2, true, th⟩, h1, g1, g2, h3, ?_, ?_, ?_, ?_, rfl⟩
              · unfold cacheArg at h5
                split at h5
                · next hu => exact .inl hu
                · split at h5
                  · cases h5
                  · next n hn => exact .inr ⟨n, hn⟩
              · intro e1 e2 e3; rw [hcols]; simp [e1, e2, e3]
              · intro h; rw [hcols, if_pos (by rcases h with h | h | h <;> simp [h])]; exact ⟨rfl, rfl, rfl⟩
              · simp only [Bool.and_eq_true, Bool.not_eq_true', not_and_or, Bool.not_eq_false] at h4; exact h4
  constructor
  · rintro rfl
    by_cases hR : ∃ x lines o, Ready k s cls io a x lines o
    · obtain ⟨x, lines, o, R⟩ := hR
      obtain ⟨c, hc⟩ := main x lines o R
      exact .inl ⟨x, lines, o, c, R, hc⟩
    · obtain ⟨e, he⟩ := fails.resolve_left hR
      exact .inr ⟨hR, e, he, he⟩
  · rintro (⟨x, lines, o, c, R, rfl⟩ | ⟨-, e, h1, rfl⟩)
    · obtain ⟨c', hc'⟩ := main x lines o R
      rw [hc', c44_cli]
    · exact h1

theorem chunkOf_iff {k : Conv Rat} {m : Morph Rat} {o : CliOpts Rat} (hn : o.newlines = true) (tok chunk : Str) :
    formatToken k.fmt m o tok = .ok chunk ↔ ChunkOf k m o tok chunk := by
  rw [c58_items, hn]
  unfold ChunkOf
  simp

/-- **C68.** `pymorphy parse` succeeds exactly if it can start and all tokens of its input can be analyzed; it then has written one line for
each token, in order, with what the specification says. -/
theorem c68_success (k : Conv Rat) (s : Sys) (cls : TagCls) (io : Inputs) (a : ParseArgs) (cs : List Str) : cliMain k s cls io a = (cs, none) ↔
    ∃ x lines o, Ready k s cls io a x lines o ∧ List.Forall₂ (ChunkOf k x.morph o) (iterTokens k.isWord x.morph.env (!a.tokenized) lines) cs := by
  rw [ready_iff]
  constructor
  · rintro (⟨x, lines, o, c, R, h⟩ | ⟨-, e, -, h⟩)
    · refine ⟨x, lines, o, R, ?_⟩
      exact ((c58_chunks k.isWord k.fmt x.morph o (!a.tokenized) c lines R.useful cs).1.1 h.symm).imp fun t ch => (chunkOf_iff R.newlines t ch).1
    · cases h
  · rintro ⟨x, lines, o, R, h⟩
    refine .inl ⟨x, lines, o, .unlim, R, ?_⟩
    exact ((c58_chunks k.isWord k.fmt x.morph o (!a.tokenized) .unlim lines R.useful cs).1.2 (h.imp fun t ch => (chunkOf_iff R.newlines t ch).2)).symm

/-- **C68.** If it fails, then either before anything was written, because it could not start, or at a token, after the lines of all tokens before it. -/
theorem c68_failure (k : Conv Rat) (s : Sys) (cls : TagCls) (io : Inputs) (a : ParseArgs) (cs : List Str) (e : PyErr)
    (h : cliMain k s cls io a = (cs, some e)) :
    (cs = [] ∧ ¬ ∃ x lines o, Ready k s cls io a x lines o) ∨
    ∃ x lines o pre t post, Ready k s cls io a x lines o ∧ iterTokens k.isWord x.morph.env (!a.tokenized) lines = pre ++ t :: post ∧
      List.Forall₂ (ChunkOf k x.morph o) pre cs ∧ ∀ chunk, ¬ ChunkOf k x.morph o t chunk := by
  rcases (ready_iff k s cls io a _).1 h with ⟨x, lines, o, c, R, h⟩ | ⟨hR, e', -, h⟩
  · obtain ⟨pre, t, post, h1, h2, h3⟩ := ((c58_chunks k.isWord k.fmt x.morph o (!a.tokenized) c lines R.useful cs).2 e).1 h.symm
    refine .inr ⟨x, lines, o, pre, t, post, R, h1, h2.imp fun t ch => (chunkOf_iff R.newlines t ch).1, fun ch hch => ?_⟩
    rw [(chunkOf_iff R.newlines t ch).2 hch] at h3
    cases h3
  · simp only [Prod.mk.injEq] at h
    exact .inl ⟨h.1, hR⟩

/-- **C68.** With a sound dictionary, no text makes the command fail whose words consist of letters with Unicode names. -/
theorem c68_no_token_fails (k : Conv Rat) (s : Sys) (cls : TagCls) (io : Inputs) (a : ParseArgs) (x : Analyzer Rat) (lines : List Str) (o : CliOpts Rat)
    (R : Ready k s cls io a x lines o) (hh : Healthy x.morph)
    (hw : ∀ t ∈ iterTokens k.isWord x.morph.env (!a.tokenized) lines, x.morph.env.Named t ∧ x.morph.env.Named (x.morph.env.lower t)) :
    ∃ cs, cliMain k s cls io a = (cs, none) := by
  have hm : IsRu x.morph ∨ IsUk x.morph := by
    obtain ⟨h1, h2, -⟩ := c49_config s cls _ x R.analyzer
    by_cases hl : x.lang = c!"uk"
    · exact .inr (h1 rfl hl)
    · exact .inl (h2 rfl hl)
  have : ∀ t ∈ iterTokens k.isWord x.morph.env (!a.tokenized) lines, ∃ ch, ChunkOf k x.morph o t ch := by
    intro t ht
    obtain ⟨⟨ps, hps, -⟩, ts, hts, -⟩ := c01_total x.morph hm hh t (hw t ht).1 (hw t ht).2
    cases hn : o.normalForm with
    | true =>
      cases htg : o.tag with
      | true => exact ⟨_, _, .analyses ps htg (.inl hn) hps, rfl⟩
      | false => exact ⟨_, _, .lemmas ps _ hn htg hps ((c58_lemma_table _ _ _).2 rfl), rfl⟩
    | false =>
      have htg : o.tag = true := R.useful.resolve_left (by simp [hn])
      by_cases hc : o.score = true ∨ o.thresh ≠ 0
      · exact ⟨_, _, .analyses ps htg (.inr hc) hps, rfl⟩
      · simp only [not_or, not_not, Bool.not_eq_true] at hc
        exact ⟨_, _, .tags ts hn htg hc.1 hc.2 hts, rfl⟩
  have hex : ∃ cs, List.Forall₂ (ChunkOf k x.morph o) (iterTokens k.isWord x.morph.env (!a.tokenized) lines) cs := by
    generalize iterTokens k.isWord x.morph.env (!a.tokenized) lines = ts at this
    induction ts with
    | nil => exact ⟨[], .nil⟩
    | cons t ts ih =>
      obtain ⟨ch, hch⟩ := this t (by simp)
      obtain ⟨cs, hcs⟩ := ih fun t ht => this t (by simp [ht])
      exact ⟨ch :: cs, .cons hch hcs⟩
  obtain ⟨cs, hcs⟩ := hex
  exact ⟨cs, (c68_success k s cls io a cs).2 ⟨x, lines, o, R, hcs⟩⟩

/-- **C68.** (A defect.) `--score` alone, which the usage text allows, always fails. -/
theorem c68_score_alone (k : Conv Rat) (s : Sys) (cls : TagCls) (io : Inputs) (a : ParseArgs) (hs : a.score = true) (hl : a.lemmatize = false)
    (ht : a.tag = false) : ∃ e, cliMain k s cls io a = ([], some e) := by
  rcases (ready_iff k s cls io a _).1 rfl with ⟨x, lines, o, c, R, -⟩ | ⟨-, e, h, -⟩
  · obtain ⟨-, h1, h2⟩ := R.some_ (.inl hs)
    rcases R.useful with h | h
    · rw [h1, hl] at h; cases h
    · rw [h2, ht] at h; cases h
  · exact ⟨e, h⟩

/-- **C68.** The language is that of `--lang`, Russian by default, and never that of the dictionary; `--dict` goes before the environment
variable, and that before the installed package. -/
theorem c68_language (k : Conv Rat) (s : Sys) (cls : TagCls) (io : Inputs) (a : ParseArgs) (x : Analyzer Rat) (lines : List Str) (o : CliOpts Rat)
    (R : Ready k s cls io a x lines o) : x.lang = a.lang ∧ (a.lang = c!"uk" → IsUk x.morph) ∧ (a.lang ≠ c!"uk" → IsRu x.morph) ∧
      ∃ p m c, loadDict s.little (s.disk p) cls = .ok (m, c, x.morph.dict) ∧ (∀ d, a.dict = some d → p = d) ∧
        (a.dict = none → ∀ d, s.envVar = some d → p = d) ∧ (a.dict = none → s.envVar = none → dictGet a.lang s.installed = some p) := by
  have hl := (c49_language s cls _ x R.analyzer).1 a.lang rfl
  obtain ⟨h1, h2, -⟩ := c49_config s cls _ x R.analyzer
  refine ⟨hl, fun h => h1 rfl (hl.trans h), fun h => h2 rfl (by rw [hl]; exact h), ?_⟩
  obtain ⟨p, m, c, hp, hld⟩ := (c49_dictionary s cls _).2.1 x R.analyzer
  refine ⟨p, m, c, hld, ?_, ?_, ?_⟩
  · intro d hd
    rcases hp with h | ⟨h, _⟩ | ⟨h, _, _⟩
    · simp only [hd, Option.some.injEq] at h; exact h.symm
    · simp only [hd, reduceCtorEq] at h
    · simp only [hd, reduceCtorEq] at h
  · intro hd d he
    rcases hp with h | ⟨_, h⟩ | ⟨_, h, _⟩
    · simp only [hd, reduceCtorEq] at h
    · rw [he] at h; cases h; rfl
    · rw [he] at h; cases h
  · intro hd he
    rcases hp with h | ⟨_, h⟩ | ⟨_, _, h⟩
    · simp only [hd, reduceCtorEq] at h
    · rw [he] at h; cases h
    · exact h

/-- **C68.** `dict meta` prints the metadata of the dictionary in the order of its file, a line for each entry, if an analyzer can be constructed
with it. -/
theorem c68_meta (text : Json → Str) (s : Sys) (cls : TagCls) (lang : Str) (dict : Option Str) (out : List Str) :
    showMeta (S := Rat) text s cls lang dict = .ok out ↔ ∃ x p m, construct (S := Rat) s cls { path := dict, lang := some lang } = .ok x ∧
      Selected (S := Rat) s { path := dict, lang := some lang } p ∧ loadMeta (s.disk p) = .ok m ∧ out = m.map fun e => e.1 ++ c!": " ++ text e.2 := by
  have hl : ({ path := dict, lang := some lang } : MorphArgs Rat).lang' = some lang := by unfold MorphArgs.lang'; simp
  unfold showMeta
  simp only [bind_ok_iff, pure_eq_ok, Except.ok.injEq]
  constructor
  · rintro ⟨x, hx, p, hp, r, hr, rfl⟩
    exact ⟨x, p, r.1, hx, (choosePath_iff s _ p).1 (by rw [hl]; exact hp), loadDict_meta hr, rfl⟩
  · rintro ⟨x, p, m, hx, hp, hm, rfl⟩
    have hcp := (choosePath_iff s _ p).2 hp
    rw [hl] at hcp
    obtain ⟨path, r, dl, est, mm, h1, h2, -⟩ := construct_ok hx
    rw [hl] at h1
    have : path = p := by
      have := h1.symm.trans hcp
      simpa using this
    subst this
    refine ⟨x, hx, path, hcp, r, h2, ?_⟩
    rw [loadDict_meta h2] at hm
    cases hm; rfl

/-! ### Concrete runs -/

/-- Numbers are written as in the tests below; the score is rounded to nothing. -/
def Demo.conv : Conv Rat where
  float := fun s => if s = c!"0.0" then some 0 else if s = c!"0.5" then some (1/2) else none
  int := fun s => if s = c!"20000" then some 20000 else none
  fmt := fun q => if q = 1 then c!"1.000" else c!"?"
  isWord := Demo.isWord

def Demo.inputs : Inputs := { stdin := [c!"Ежи и ёж\n"], file := fun f => if f = c!"a.txt" then some [c!" ежи \n", c!"\n"] else none }

/-- The command on the demonstration machine: all columns by default, a tokenized file with tags only, a missing file. -/
example : cliMain Demo.conv Demo.sys TagCls.initial Demo.inputs { lemmatize := true } = ([c!"Ежи{ёж}\n", c!"и{и}\n", c!"ёж{ёж}\n"], none) ∧
    cliMain Demo.conv Demo.sys TagCls.initial Demo.inputs { tag := true, tokenized := true, input := some (c!"a.txt") } =
      ([c!"ежи{NOUN,anim,masc plur,nomn}\n"], none) ∧
    cliMain Demo.conv Demo.sys TagCls.initial Demo.inputs { tag := true, input := some (c!"b.txt") } = ([], some .ioError) ∧
    cliMain Demo.conv Demo.sys TagCls.initial Demo.inputs { tag := true, cache := c!"x" } = ([], some .valueError) := by
  decide +kernel

/-- **C68.** (A defect.) `--dict` with a Ukrainian dictionary: the command uses the Russian configuration, the library the Ukrainian one. -/
theorem c68_dictionary_language :
    (construct (S := Rat) Demo.sys TagCls.initial { path := some (c!"/uk"), lang := some ({} : ParseArgs).lang }).map Analyzer.lang = .ok (c!"ru") ∧
    (construct (S := Rat) Demo.sys TagCls.initial { path := some (c!"/uk") }).map Analyzer.lang = .ok (c!"uk") := by
  decide +kernel

end Verif
