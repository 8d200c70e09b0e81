/-
C113: which exception is raised for wrong arguments, wrong options of the command and wrong documents.
-/
import Verif.Props.C55
import Verif.Props.C67
import Verif.Props.C68
import Verif.Props.C69

namespace Verif

/-- A loop that raises, raises at its first bad item. -/
theorem mapE_error_iff {α β : Type} (f : α → Except PyErr β) (l : List α) (e : PyErr) :
    mapE f l = .error e ↔ ∃ pre a post, l = pre ++ a :: post ∧ (∀ b ∈ pre, ∃ r, f b = .ok r) ∧ f a = .error e := by
  induction l with
  | nil => simp [mapE]
  | cons a l ih =>
    rw [mapE]
    cases ha : f a with
    | error x =>
      constructor
      · intro h
        cases h
        exact ⟨[], a, l, rfl, by simp, ha⟩
      · rintro ⟨pre, b, post, hl, hp, hb⟩
        cases pre with
        | nil => cases hl; rw [ha] at hb; cases hb; rfl
        | cons c pre => cases hl; obtain ⟨r, hr⟩ := hp a (by simp); rw [ha] at hr; cases hr
    | ok r =>
      have : (do let y ← mapE f l; pure (r :: y) : Except PyErr (List β)) = .error e ↔ mapE f l = .error e := by
        cases mapE f l with
        | error x => exact Iff.rfl
        | ok y => constructor <;> intro h <;> cases h
      refine Iff.trans this (ih.trans ?_)
      constructor
      · rintro ⟨pre, b, post, rfl, hp, hb⟩
        refine ⟨a :: pre, b, post, rfl, fun c hc => ?_, hb⟩
        rcases List.mem_cons.mp hc with rfl | hc
        · exact ⟨r, ha⟩
        · exact hp c hc
      · rintro ⟨pre, b, post, hl, hp, hb⟩
        cases pre with
        | nil => cases hl; rw [ha] at hb; cases hb
        | cons c pre => cases hl; exact ⟨pre, b, post, rfl, fun c hc => hp c (by simp [hc]), hb⟩

/-! ### Constructing units -/

section
variable {S : Type} [Score S]

/-- Python has no dangling references. -/
def Alive (lists : List (List Str)) (kwargs : List (Str × Val S)) : Prop := ∀ e ∈ kwargs, ∀ a, e.2 = .strs a → a < lists.length

theorem bindArgs_error {ps : List (Str × Option (Val S))} {kwargs : List (Str × Val S)} {e : PyErr} (h : bindArgs ps kwargs = .error e) : e = .typeError := by
  unfold bindArgs at h
  split at h
  · obtain ⟨_, p, _, _, _, hp⟩ := (mapE_error_iff _ _ _).mp h
    split at hp
    · cases hp
    · split at hp
      · cases hp
      · cases hp; rfl
  · cases h; rfl

theorem arg_alive {lists : List (List Str)} {c : UClass} {kwargs a : List (Str × Val S)} (hl : Alive lists kwargs) (h : bindArgs c.params kwargs = .ok a) (k : Str)
    (n : Nat) (hk : arg a k = .strs n) : n < lists.length := by
  obtain ⟨h1, h2⟩ := (bindArgs_ok _ _ _).1 h
  unfold arg at hk
  cases hd : dictGet k a with
  | none => rw [hd] at hk; cases hk
  | some v =>
    rw [hd] at hk
    simp only [Option.getD_some] at hk
    subst hk
    have hm := dictGet_mem' _ _ _ hd
    obtain ⟨p, hp, -, hv⟩ := forall₂_mem_right h2 hm
    rcases hv with hv | ⟨-, hv⟩
    · exact hl _ (dictGet_mem' _ _ _ hv) n rfl
    · exfalso
      obtain ⟨pk, pd⟩ := p
      simp only at hv
      subst hv
      cases c <;> simp [UClass.params] at hp

/-- A constructor raises nothing but `TypeError`: for a name it does not know, a missing argument, letters that cannot be iterated over. -/
theorem c113_new (lists : List (List Str)) (c : UClass) (kwargs : List (Str × Val S)) (hl : Alive lists kwargs) (e : PyErr) (h : c.new lists kwargs = .error e) :
    e = .typeError := by
  unfold UClass.new at h
  cases hb : bindArgs c.params kwargs with
  | error x => rw [hb] at h; cases h; exact bindArgs_error hb
  | ok a =>
    rw [hb] at h
    have it : ∀ x, iterated lists (arg a (c!"letters")) = .error x → x = .typeError := by
      intro x hx
      cases hv : arg a (c!"letters") with
      | strs n =>
        rw [hv] at hx
        have := arg_alive hl hb _ n hv
        simp [iterated, pyGet, this] at hx
      | _ => rw [hv] at hx; cases hx; rfl
    have hp : ∀ v : Val S, (∃ p, patternArg .firstName v = .ok p) ∧ ∃ p, patternArg .patronymic v = .ok p := by
      intro v; cases v <;> exact ⟨⟨_, rfl⟩, ⟨_, rfl⟩⟩
    have key : ∀ c, (c = .firstName ∨ c = .patronymic) → runInit lists c a = .error e → e = .typeError := by
      intro c hc h
      obtain ⟨p, hp⟩ : ∃ p, patternArg c (arg a (c!"tag_pattern")) = .ok p := by
        rcases hc with rfl | rfl
        · exact (hp _).1
        · exact (hp _).2
      have h' : (patternArg c (arg a (c!"tag_pattern")) >>= fun p => iterated lists (arg a (c!"letters")) >>= fun ls =>
          pure (((((⟨c, []⟩ : Obj S).set (c!"tag_pattern") p).set (c!"score") (arg a (c!"score"))).set (c!"letters") (arg a (c!"letters"))).set (c!"_letters_set")
            (.frozen ls))) = .error e := by
        rcases hc with rfl | rfl <;> exact h
      rw [hp] at h'
      cases hi : iterated lists (arg a (c!"letters")) with
      | error x =>
        rw [hi] at h'
        cases h'
        exact it _ hi
      | ok ls => rw [hi] at h'; cases h'
    cases c
    case firstName => exact key _ (.inl rfl) h
    case patronymic => exact key _ (.inr rfl) h
    all_goals cases h

/-- Letters that are no list of strings. -/
theorem c113_letters (lists : List (List Str)) (c : UClass) (hc : c = .firstName ∨ c = .patronymic) (kwargs : List (Str × Val S)) (hl : Alive lists kwargs) (v : Val S)
    (hv : dictGet (c!"letters") kwargs = some v) (hn : ∀ n, v ≠ .strs n) : c.new lists kwargs = .error .typeError := by
  cases h : c.new lists kwargs with
  | error e => rw [c113_new lists c kwargs hl e h]
  | ok o =>
    exfalso
    unfold UClass.new at h
    obtain ⟨a, ha, hr⟩ := (bind_ok_iff _ _ _).1 h
    obtain ⟨-, h2⟩ := (bindArgs_ok _ _ _).1 ha
    have harg : arg a (c!"letters") = v := by
      have hps : c.params (S := S) = [(c!"letters", none), (c!"score", some (.score (dec 1 10))), (c!"tag_pattern", some .none)] := by
        rcases hc with rfl | rfl <;> rfl
      rw [hps] at h2
      cases h2 with
      | cons hx _ =>
        rename_i b _ _
        obtain ⟨bk, bv⟩ := b
        simp only at hx
        obtain ⟨rfl, hx⟩ := hx
        rcases hx with hx | ⟨-, hx⟩
        · rw [hv] at hx
          cases hx
          simp [arg, dictGet]
        · cases hx
    have hit : iterated lists (arg a (c!"letters")) = .error .typeError := by
      rw [harg]
      cases v
      case strs n => exact absurd rfl (hn n)
      all_goals rfl
    have hr' : (patternArg c (arg a (c!"tag_pattern")) >>= fun p => iterated lists (arg a (c!"letters")) >>= fun ls =>
        pure (((((⟨c, []⟩ : Obj S).set (c!"tag_pattern") p).set (c!"score") (arg a (c!"score"))).set (c!"letters") (arg a (c!"letters"))).set (c!"_letters_set")
          (.frozen ls))) = .ok o := by
      rcases hc with rfl | rfl <;> exact hr
    rw [hit] at hr'
    cases hp : patternArg c (arg a (c!"tag_pattern")) <;> rw [hp] at hr' <;> cases hr'

/-- Wrong values the constructor takes are found when the analyzer is made: a tag pattern that is no string. -/
theorem c113_pattern (lists : List (List Str)) (o : Obj S) (hc : o.cls = .firstName ∨ o.cls = .patronymic) (hp : ∀ p, o.get (c!"tag_pattern") ≠ .pattern p)
    (m inner : Nat) (cls : TagCls) : o.init lists m inner cls = .error .typeError := by
  have h : asPattern (o.get (c!"tag_pattern")) = .error .typeError := by
    cases hv : o.get (c!"tag_pattern")
    case pattern p => exact absurd hv (hp p)
    all_goals rfl
  unfold Obj.init
  rcases hc with hc | hc <;> rw [hc] <;> dsimp only <;> rw [h] <;> rfl

/-- Prefixes that cannot be iterated over. -/
theorem c113_prefixes (lists : List (List Str)) (o : Obj S) (k : Str) (hc : (o.cls = .hyphenated ∧ k = c!"skip_prefixes") ∨ (o.cls = .knownPrefix ∧ k = c!"known_prefixes"))
    (hp : ∀ n, o.get k ≠ .strs n) (m inner : Nat) (cls : TagCls) : o.init lists m inner cls = .error .typeError := by
  have h : iterated lists (o.get k) = .error .typeError := by
    cases hv : o.get k
    case strs n => exact absurd hv (hp n)
    all_goals rfl
  unfold Obj.init
  rcases hc with ⟨hc, rfl⟩ | ⟨hc, rfl⟩ <;> rw [hc] <;> dsimp only <;> rw [h] <;> rfl

end

/-! ### The command -/

/-- `pymorphy parse` that cannot make its analyzer writes nothing and ends with the exception of `MorphAnalyzer(…)`. -/
theorem c113_cli_analyzer (k : Conv Rat) (s : Sys) (cls : TagCls) (io : Inputs) (a : ParseArgs) (e : PyErr)
    (h : construct (S := Rat) s cls { path := a.dict, lang := some a.lang } = .error e) : cliMain k s cls io a = ([], some e) := by
  unfold cliMain; rw [h]

/-- An input file that is not there: `IOError`, nothing is written. -/
theorem c113_cli_input (k : Conv Rat) (s : Sys) (cls : TagCls) (io : Inputs) (a : ParseArgs) (x : Analyzer Rat) (f : Str)
    (h : construct (S := Rat) s cls { path := a.dict, lang := some a.lang } = .ok x) (hf : a.input = some f) (h1 : f ≠ []) (h2 : f ≠ c!"-") (h3 : io.file f = none) :
    cliMain k s cls io a = ([], some .ioError) := by
  have : openForRead io a.input = .error .ioError := by
    unfold openForRead
    rw [hf, if_neg (by simpa using ⟨h2, h1⟩), Option.getD_some, h3]
  unfold cliMain
  rw [h]
  simp only [this]

/-- With an analyzer and an input, the options may be wrong (a threshold that is no number, a cache size that is neither a number nor `unlim`, only scores
wanted): `ValueError`, nothing is written. -/
theorem c113_cli_options (k : Conv Rat) (s : Sys) (cls : TagCls) (io : Inputs) (a : ParseArgs) (x : Analyzer Rat)
    (h : construct (S := Rat) s cls { path := a.dict, lang := some a.lang } = .ok x)
    (hi : a.input = none ∨ a.input = some [] ∨ a.input = some (c!"-") ∨ ∃ f l, a.input = some f ∧ io.file f = some l)
    (hw : k.float a.thresh = none ∨ (a.cache ≠ c!"unlim" ∧ k.int a.cache = none) ∨ (a.score = true ∧ a.lemmatize = false ∧ a.tag = false)) :
    cliMain k s cls io a = ([], some .valueError) := by
  have ho : ∃ lines, openForRead io a.input = .ok lines := by
    unfold openForRead
    split
    · exact ⟨_, rfl⟩
    · rename_i hn
      rcases hi with hi | hi | hi | ⟨f, l, hf, hl⟩
      · exact absurd (.inr (.inr hi)) hn
      · exact absurd (.inr (.inl hi)) hn
      · exact absurd (.inl hi) hn
      · rw [hf, Option.getD_some, hl]; exact ⟨_, rfl⟩
  obtain ⟨lines, ho⟩ := ho
  unfold cliMain
  rw [h]
  simp only [ho]
  cases ht : k.float a.thresh with
  | none => rfl
  | some th =>
    simp only
    split
    · rfl
    · rename_i hcol
      have hc : cacheArg k a.cache = .error .valueError := by
        rcases hw with hw | ⟨hu, hn⟩ | ⟨h1, h2, h3⟩
        · rw [ht] at hw; cases hw
        · unfold cacheArg; rw [if_neg hu, hn]
        · exfalso
          apply hcol
          simp [ParseArgs.columns, h1, h2, h3]
      rw [hc]

/-! ### Documents -/

/-- A grammeme without a name is in the element. -/
def NoValue (x : Elem) : Prop := ∃ g ∈ x.iter (c!"g"), g.get (c!"v") = none

theorem grammemes_cases (x : Elem) : (NoValue x ∧ grammemesFromElem x = .error .typeError) ∨ (¬ NoValue x ∧ ∃ vs, GramsOf x vs ∧ grammemesFromElem x = .ok (joinC ',' vs)) := by
  by_cases h : NoValue x
  · left
    refine ⟨h, ?_⟩
    unfold grammemesFromElem
    cases hm : mapE (fun g : Elem => orType (g.get (c!"v"))) (x.iter (c!"g")) with
    | error e =>
      obtain ⟨_, g, _, _, _, hg⟩ := (mapE_error_iff _ _ _).mp hm
      unfold orType at hg
      split at hg
      · cases hg
      · cases hg; rfl
    | ok vs =>
      exfalso
      obtain ⟨g, hg, hv⟩ := h
      obtain ⟨v, -, hgv⟩ := mapE_mem' hm hg
      rw [hv] at hgv
      cases hgv
  · right
    refine ⟨h, ?_⟩
    obtain ⟨vs, hvs⟩ := mapE_total (fun g : Elem => orType (g.get (c!"v"))) (x.iter (c!"g")) (by
      intro g hg
      cases hv : g.get (c!"v") with
      | none => exact absurd ⟨g, hg, hv⟩ h
      | some v => exact ⟨v, rfl⟩)
    have hok : grammemesFromElem x = .ok (joinC ',' vs) := by unfold grammemesFromElem; rw [hvs]; rfl
    obtain ⟨vs', h1, h2⟩ := grammemesFromElem_of_ok x _ hok
    exact ⟨vs', h1, by rw [hok, h2]⟩

/-- A form that is read and after which reading goes on: all grammemes have names, it has a text, and it or the lexeme has a grammeme. -/
def FormRead (base : Str) (f : Elem) : Prop := (∃ t, f.get (c!"t") = some t) ∧ ∃ vs, GramsOf f vs ∧ base ++ joinC ',' vs ≠ []

/-- What is wrong with a form, and what is raised. -/
def FormBad (f : Elem) (e : PyErr) : Prop := (NoValue f ∧ e = .typeError) ∨ (¬ NoValue f ∧ f.get (c!"t") = none ∧ e = .attributeError)

theorem formsLoop_error (env : Env) (base : Str) (fs : List Elem) (e : PyErr) : formsLoop env base fs = .error e ↔
    ∃ pre f post, fs = pre ++ f :: post ∧ (∀ p ∈ pre, FormRead base p) ∧ FormBad f e := by
  induction fs with
  | nil => simp [formsLoop]
  | cons f fs ih =>
    have good : ∀ x, FormBad f x → ¬ FormRead base f := by
      rintro x (⟨⟨g, hg, hn⟩, -⟩ | ⟨-, hn, -⟩) ⟨⟨t, ht⟩, vs, hvs, -⟩
      · have : g.get (c!"v") ∈ (f.iter (c!"g")).map (fun g => g.get (c!"v")) := List.mem_map.mpr ⟨g, hg, rfl⟩
        rw [GramsOf] at hvs
        rw [hvs, hn] at this
        simp at this
      · rw [ht] at hn; cases hn
    have here : (∃ x, FormBad f x) → ((∃ pre f' post, f :: fs = pre ++ f' :: post ∧ (∀ p ∈ pre, FormRead base p) ∧ FormBad f' e) ↔ FormBad f e) := by
      rintro ⟨x, hx⟩
      constructor
      · rintro ⟨pre, f', post, hl, hp, hb⟩
        cases pre with
        | nil => cases hl; exact hb
        | cons c pre => cases hl; exact absurd (hp f (by simp)) (good x hx)
      · intro h; exact ⟨[], f, fs, rfl, by simp, h⟩
    have later : FormRead base f → ((∃ pre f' post, f :: fs = pre ++ f' :: post ∧ (∀ p ∈ pre, FormRead base p) ∧ FormBad f' e) ↔
        ∃ pre f' post, fs = pre ++ f' :: post ∧ (∀ p ∈ pre, FormRead base p) ∧ FormBad f' e) := by
      intro hr
      constructor
      · rintro ⟨pre, f', post, hl, hp, hb⟩
        cases pre with
        | nil => cases hl; exact absurd hr (good _ hb)
        | cons c pre => cases hl; exact ⟨pre, f', post, rfl, fun p h => hp p (by simp [h]), hb⟩
      · rintro ⟨pre, f', post, rfl, hp, hb⟩
        refine ⟨f :: pre, f', post, rfl, fun p h => ?_, hb⟩
        rcases List.mem_cons.mp h with rfl | h
        · exact hr
        · exact hp p h
    rw [formsLoop]
    rcases grammemes_cases f with ⟨hn, hg⟩ | ⟨hn, vs, hvs, hg⟩
    · rw [hg, here ⟨_, .inl ⟨hn, rfl⟩⟩]
      constructor
      · intro h; cases h; exact .inl ⟨hn, rfl⟩
      · rintro (⟨-, rfl⟩ | ⟨h, -⟩)
        · rfl
        · exact absurd hn h
    · rw [hg]
      cases ht : f.get (c!"t") with
      | none =>
        rw [here ⟨_, .inr ⟨hn, ht, rfl⟩⟩]
        constructor
        · intro h; cases h; exact .inr ⟨hn, ht, rfl⟩
        · rintro (⟨h, -⟩ | ⟨-, -, rfl⟩)
          · exact absurd h hn
          · rfl
      | some t =>
        show (if base ++ joinC ',' vs = [] then pure none else (formsLoop env base fs >>= fun rest => pure _)) = _ ↔ _
        split
        · rename_i hb
          constructor
          · intro h; cases h
          · rintro ⟨pre, f', post, hl, hp, hx⟩
            exfalso
            cases pre with
            | nil =>
              cases hl
              rcases hx with ⟨h, -⟩ | ⟨-, h, -⟩
              · exact hn h
              · rw [ht] at h; cases h
            | cons c pre =>
              cases hl
              obtain ⟨-, vs', hvs', hne⟩ := hp f (by simp)
              have : vs' = vs := by
                have e : vs'.map some = vs.map some := by rw [← hvs', ← hvs]
                exact List.map_injective_iff.mpr (Option.some_injective _) e
              rw [this] at hne
              exact hne hb
        · rename_i hb
          rw [later ⟨⟨t, ht⟩, vs, hvs, hb⟩, ← ih]
          cases formsLoop env base fs with
          | error x => exact Iff.rfl
          | ok y => constructor <;> intro h <;> cases h

/-- A lemma is refused exactly for the first thing wrong with it: `AssertionError` if it has not one `l`, `TypeError` for a grammeme without a name,
`AttributeError` for a form without a text; what follows a form without any grammemes is not looked at. -/
theorem c113_lemma (env : Env) (e : Elem) (x : PyErr) : wordForms env e = .error x ↔ e.children ≠ [] ∧
    (((e.iter (c!"l")).length ≠ 1 ∧ x = .assertionError) ∨
     ∃ l, e.iter (c!"l") = [l] ∧ ((NoValue l ∧ x = .typeError) ∨
       ∃ vs pre f post, GramsOf l vs ∧ e.iter (c!"f") = pre ++ f :: post ∧ (∀ p ∈ pre, FormRead (joinC ',' vs) p) ∧ FormBad f x)) := by
  unfold wordForms
  by_cases hc : e.children = []
  · simp [hc]
  rw [if_neg (by simpa using hc)]
  simp only [ne_eq, hc, not_false_eq_true, true_and]
  split
  · rename_i l hl
    rw [hl]
    have one : ¬ (([l] : List Elem).length ≠ 1 ∧ x = PyErr.assertionError) := by simp
    rw [or_iff_right (by simpa using one)]
    have single : ∀ P : Elem → Prop, (∃ l', [l] = [l'] ∧ P l') ↔ P l := by
      intro P
      constructor
      · rintro ⟨l', h, hp⟩; cases h; exact hp
      · intro h; exact ⟨l, rfl, h⟩
    rw [single]
    rcases grammemes_cases l with ⟨hn, hg⟩ | ⟨hn, vs, hvs, hg⟩
    · rw [hg]
      constructor
      · intro h; cases h; exact .inl ⟨hn, rfl⟩
      · rintro (⟨-, rfl⟩ | ⟨vs, _, _, _, hvs, -⟩)
        · rfl
        · exfalso
          rw [grammemesFromElem_ok l vs hvs] at hg
          cases hg
    · rw [hg]
      have step : (formsLoop env (joinC ',' vs) (e.iter (c!"f")) >>= fun forms => (pure (e.get (c!"id"), forms.getD []) : Except PyErr _)) = .error x ↔
          formsLoop env (joinC ',' vs) (e.iter (c!"f")) = .error x := by
        cases formsLoop env (joinC ',' vs) (e.iter (c!"f")) with
        | error y => constructor <;> intro h <;> cases h <;> rfl
        | ok y => constructor <;> intro h <;> cases h
      refine Iff.trans step ?_
      rw [formsLoop_error]
      constructor
      · rintro ⟨pre, f, post, h⟩; exact .inr ⟨vs, pre, f, post, hvs, h⟩
      · rintro (⟨h, -⟩ | ⟨vs', pre, f, post, hvs', h⟩)
        · exact absurd h hn
        · have : vs' = vs := by
            have e : vs'.map some = vs.map some := by rw [← hvs', ← hvs]
            exact List.map_injective_iff.mpr (Option.some_injective _) e
          rw [this] at h
          exact ⟨pre, f, post, h⟩
  · rename_i hne
    have hlen : (e.iter (c!"l")).length ≠ 1 := by
      intro h
      obtain ⟨l, hl⟩ := List.length_eq_one_iff.mp h
      exact hne l hl
    constructor
    · intro h; cases h; exact .inl ⟨hlen, rfl⟩
    · rintro (⟨-, rfl⟩ | ⟨l, hl, -⟩)
      · rfl
      · exact absurd hl (hne l)

/-- The ids of the lexemes must be numbers, which is found out after the links have been processed: for the first that is not, `TypeError` if it is missing and
`ValueError` if it is something else; the folder is there and nothing was written into it. -/
theorem c113_ids (a : ConvArgs) (doc : Elem) (overwrite : Bool) (reg : Registry) (folder : Option Disk) (hrun : folder = none ∨ overwrite = true)
    (x : XmlParsed) (v : Option Str × Option Str) (hx : parseXml a.env a.lx doc = .ok (x, v)) (ls : List Lexeme)
    (hls : joinLexemes (fun i => (i.bind a.int).getD 0) (dropUnsupported (simplifyTags x.toParsed)) = .ok ls)
    (pre post : List (Option Str × Lexeme)) (bad : Option Str × Lexeme) (hl : x.lexemes = pre ++ bad :: post)
    (hpre : ∀ l ∈ pre, ∃ s n, l.1 = some s ∧ a.int s = some n) :
    (bad.1 = none → a.convert doc overwrite reg folder = ⟨reg, some (folder.getD Disk.fresh), .error (.raised .typeError)⟩) ∧
    ∀ s, bad.1 = some s → a.int s = none → a.convert doc overwrite reg folder = ⟨reg, some (folder.getD Disk.fresh), .error (.raised .valueError)⟩ := by
  have hfst : (dropUnsupported (simplifyTags x.toParsed)).lexemes.map Prod.fst = x.lexemes.map Prod.fst := by
    show ((x.lexemes.map _).map _).map Prod.fst = _
    rw [List.map_map, List.map_map]
    rfl
  have key : ∀ e, idNum a.int bad.1 = .error e → a.convert doc overwrite reg folder = ⟨reg, some (folder.getD Disk.fresh), .error (.raised e)⟩ := by
    intro e he
    have hm : mapE (idNum a.int) (x.lexemes.map Prod.fst) = .error e := by
      rw [mapE_error_iff]
      refine ⟨pre.map Prod.fst, bad.1, post.map Prod.fst, by rw [hl]; simp, fun i hi => ?_, he⟩
      obtain ⟨l, hlm, rfl⟩ := List.mem_map.mp hi
      obtain ⟨s, n, h1, h2⟩ := hpre l hlm
      exact ⟨n, by rw [h1]; simp [idNum, h2]⟩
    have hc : compileXml a.int a.bw a.bp a.opts (dropUnsupported (simplifyTags x.toParsed)) = .error (.raised e) := by
      unfold compileXml
      unfold joinLexemes at hls
      split at hls
      · cases hls
      · rename_i st hst
        rw [hst, hfst, hm]
    have hcomp : a.compile doc = .error (.raised e) := by
      unfold ConvArgs.compile
      rw [hx]
      simp only [hc]
    unfold ConvArgs.convert
    rw [if_neg (by rcases hrun with rfl | rfl <;> simp)]
    simp only [hcomp]
  refine ⟨fun hb => key _ (by rw [hb]; rfl), fun s hb hs => key _ ?_⟩
  rw [hb]
  simp [idNum, hs]

/-- A link without an end is treated as one whose end is called `None`. -/
theorem c113_link_end (x : XmlParsed) :
    ({ x with links := x.links.map fun l => (some (l.1.getD (c!"None")), some (l.2.1.getD (c!"None")), l.2.2) } : XmlParsed).toParsed = x.toParsed := by
  simp [XmlParsed.toParsed, strId]

/-! ### Cases -/

example : (UClass.firstName.new (S := Rat) [[c!"а"]] [(c!"letters", .nat 3)]).isOk = false ∧ (UClass.firstName.new (S := Rat) [[c!"а"]] [(c!"letters", .strs 0)]).isOk = true ∧
    Alive (S := Rat) [[c!"а"]] [(c!"letters", .nat 3)] ∧ (UClass.number.new (S := Rat) [] [(c!"scores", .nat 1)]).isOk = false := by
  refine ⟨rfl, rfl, ?_, rfl⟩
  intro e he a ha
  simp only [List.mem_cons, List.not_mem_nil, or_false] at he
  subst he
  cases ha

/-- Options: each of the three. -/
example : (∃ x, construct (S := Rat) Demo.sys TagCls.initial { path := ({} : ParseArgs).dict, lang := some ({} : ParseArgs).lang } = .ok x) ∧
    Demo.conv.float (c!"many") = none ∧ Demo.conv.int (c!"x") = none := by
  refine ⟨?_, by decide +kernel, by decide +kernel⟩
  have h : (construct (S := Rat) Demo.sys TagCls.initial { path := ({} : ParseArgs).dict, lang := some ({} : ParseArgs).lang }).isOk = true := by decide +kernel
  cases hx : construct (S := Rat) Demo.sys TagCls.initial { path := ({} : ParseArgs).dict, lang := some ({} : ParseArgs).lang } with
  | ok x => exact ⟨x, rfl⟩
  | error e => rw [hx] at h; cases h

/-- A lemma whose second form has no text: the first is read, the second is refused; with an unnamed grammeme in it, it is refused for that. -/
def Demo.badForm (g : List (Str × Str)) : Elem := .mk (c!"f") [] none [.mk (c!"g") g none []]

def Demo.badLemma (g : List (Str × Str)) : Elem := .mk (c!"lemma") [(c!"id", c!"x1")] none
  [.mk (c!"l") [] none [.mk (c!"g") [(c!"v", c!"NOUN")] none []], .mk (c!"f") [(c!"t", c!"ёж")] none [.mk (c!"g") [(c!"v", c!"sing")] none []], Demo.badForm g]

example : wordForms demoEnv (Demo.badLemma [(c!"v", c!"plur")]) = .error .attributeError ∧ wordForms demoEnv (Demo.badLemma []) = .error .typeError := by decide +kernel

example : NoValue (Demo.badForm []) ∧ FormRead (c!"NOUN") (.mk (c!"f") [(c!"t", c!"ёж")] none [.mk (c!"g") [(c!"v", c!"sing")] none []]) :=
  ⟨⟨.mk (c!"g") [] none [], by simp [Demo.badForm, Elem.iter, Elem.all, Elem.allList, Elem.tag], rfl⟩, ⟨c!"ёж", rfl⟩, [c!"sing"], rfl, by decide⟩

/-- A document with an id that is no number. -/
def Demo.idDoc : Elem := .mk (c!"dictionary") [] none [.mk (c!"lemmata") [] none
  [Demo.lemmaElem (c!"2") [c!"NOUN"] [(c!"кот", [c!"sing"])], Demo.lemmaElem (c!"x1") [c!"NOUN"] [(c!"ёж", [c!"sing"])]]]

def idDocCheck : Bool := match parseXml demoEnv false Demo.idDoc with
  | .error _ => false
  | .ok (x, _) => decide (x.lexemes.map Prod.fst = [some (c!"2"), some (c!"x1")]) && decide (Demo.int (c!"2") = some 2) && decide (Demo.int (c!"x1") = none) &&
    (joinLexemes (fun i : Option Str => (i.bind Demo.int).getD 0) (dropUnsupported (simplifyTags x.toParsed))).isOk

example : idDocCheck = true := by decide +kernel

end Verif
