/-
C13: the lexeme is the same from each of its forms.  C14: a form belongs to its lexeme.
C15: `normalized`.  C16: all forms share the normal form.
-/
import Verif.Lemmas.LexTotal
import Verif.Lemmas.AnswerTags
import Verif.Props.C21
import Verif.Props.C01

set_option linter.unusedSectionVars false

namespace Verif

variable {S : Type} [Score S]

/-- The letters used as initials are capital letters: lower-casing changes them. -/
def Env.CapitalInitials (e : Env) : Prop := ∀ l ∈ ruInitialLetters ++ ukInitialLetters, e.lower l ≠ l

/-! ### Facts about the default analyzers -/

theorem default_gendersApart (m : Morph S) (hm : IsRu m ∨ IsUk m) : m.GendersApart := by
  rintro ⟨u, t⟩ hu letters masc femn score hk
  have key : ∀ sp : UnitSpec S, (∀ l p s, sp = .firstName l p s → p = firstNamePattern) → u.cfg = sp.bound →
      (∀ t ∈ masc, c!"masc" ∈ t.grammemes) ∧ ∀ t ∈ femn, c!"masc" ∉ t.grammemes := by
    intro sp hsp he
    rw [show u.cfg = _ from hk] at he
    cases sp with
    | firstName l p s =>
      rw [hsp l p s rfl, firstName_bound] at he
      simp only [UnitCfg.firstName.injEq] at he
      obtain ⟨_, rfl, rfl, _⟩ := he
      decide +kernel
    | _ => simp [UnitSpec.bound] at he
  rcases hm with ⟨cls, hm⟩ | ⟨cls, hm⟩
  all_goals
    obtain ⟨_, _, _, _, hgr⟩ := mkMorph_units hm
    obtain ⟨g, hg, hug⟩ := (mem_of_isGroups hgr u).1 ⟨t, hu⟩
    obtain ⟨g', hg', sp, hsp, he⟩ := mem_boundGroups _ _ g hg u hug
    refine key sp ?_ he
    clear he
    revert hsp
    revert sp hg' g'
  · simp [ruUnits]
  · simp [ukUnits]

theorem default_gendersKnown (m : Morph S) (hm : IsRu m ∨ IsUk m) : m.GendersKnown :=
  fun _ _ _ _ _ _ _ _ _ => .inr (masc_known m hm)

def UnitSpec.initialsOf : UnitSpec S → Prop
  | .firstName l _ _ | .patronymic l _ _ => l = ruInitialLetters ∨ l = ukInitialLetters
  | _ => True

theorem default_upperInitials (m : Morph S) (hm : IsRu m ∨ IsUk m) (hc : m.env.CapitalInitials) : m.UpperInitials := by
  rintro ⟨u, t⟩ hu l hl
  apply hc
  have key : ∀ sp : UnitSpec S, sp.initialsOf →
      u.cfg = sp.bound → l ∈ ruInitialLetters ++ ukInitialLetters := by
    intro sp hsp he
    rw [List.mem_append]
    rcases hl with ⟨masc, femn, score, letters, hk, hl⟩ | ⟨tags, score, letters, hk, hl⟩
    · rw [show u.cfg = _ from hk] at he
      cases sp with
      | firstName l p s =>
        simp only [UnitSpec.bound, UnitCfg.firstName.injEq] at he
        obtain ⟨rfl, _⟩ := he
        rcases hsp with h | h <;> rw [h] at hl <;> simp [hl]
      | _ => simp [UnitSpec.bound] at he
    · rw [show u.cfg = _ from hk] at he
      cases sp with
      | patronymic l p s =>
        simp only [UnitSpec.bound, UnitCfg.patronymic.injEq] at he
        obtain ⟨rfl, _⟩ := he
        rcases hsp with h | h <;> rw [h] at hl <;> simp [hl]
      | _ => simp [UnitSpec.bound] at he
  rcases hm with ⟨cls, hm⟩ | ⟨cls, hm⟩
  all_goals
    obtain ⟨_, _, _, _, hgr⟩ := mkMorph_units hm
    obtain ⟨g, hg, hug⟩ := (mem_of_isGroups hgr u).1 ⟨t, hu⟩
    obtain ⟨g', hg', sp, hsp, he⟩ := mem_boundGroups _ _ g hg u hug
    refine key sp ?_ he
    clear he hug hu hl key
    revert hsp
    revert sp hg' g'
  · simp [ruUnits, UnitSpec.initialsOf]
  · simp [ukUnits, UnitSpec.initialsOf]

/-- Words without a hyphen are never compounds. -/
theorem deriv_noBoth {m : Morph S} {wl w nf : Str} {tag : Tag} {st : Stack} (h : Deriv m wl w tag nf st) (hh : '-' ∉ wl) : st.noBoth := by
  induction h with
  | dict | plain | firstName | patronymic => exact ⟨trivial, trivial⟩
  | particle _ _ _ _ _ _ ih => exact ⟨ih (by simp at hh; exact hh.1), trivial⟩
  | fixed => simp at hh
  | both => simp at hh
  | pref _ _ _ _ _ _ ih => exact ⟨ih (by simp at hh; exact hh.2), trivial⟩
  | upref => exact ⟨⟨trivial, trivial⟩, trivial⟩
  | suff => exact ⟨⟨trivial, trivial⟩, trivial⟩

/-- If no paradigm prefix reaches into a predicted ending, the analysis fits its paradigm. -/
theorem deriv_fits {m : Morph S} (hd : m.dict.WF) {wl w nf : Str} {tag : Tag} {st : Stack} (h : Deriv m wl w tag nf st)
    (hr : st.roomy m.dict) : st.fits m.dict := by
  induction h with
  | dict hsp hw hnf ht => exact ⟨trivial, hd.words _ hw⟩
  | plain | firstName | patronymic => exact ⟨trivial, trivial⟩
  | particle _ _ _ _ _ _ ih => exact ⟨ih hr.1, trivial⟩
  | fixed _ _ _ _ _ _ _ _ _ ih => exact ⟨trivial, ih hr.2.1⟩
  | both => exact ⟨trivial, trivial⟩
  | pref _ _ _ _ _ _ ih => exact ⟨ih hr.1, trivial⟩
  | upref _ _ _ _ _ _ _ hw => exact ⟨⟨trivial, hd.words _ hw⟩, trivial⟩
  | @suff wl start en e nf tag para idx cnt k t pre u mult minLen hu hk hsplit hprod hsp ht hpre hpw he hnf htag =>
    obtain ⟨_, p, pre', tag', suf, hf, hpre', hsuf⟩ := hd.pred k t ht _ he
    rw [hpre] at hpre'
    simp only [Option.some.injEq] at hpre'
    subst hpre'
    refine ⟨⟨trivial, p, pre, tag', suf, ?_⟩, trivial⟩
    have hlen := hr.2.2 (by simp [BUnit.obj, hk, UnitCfg.kind]) _ _ _ _ hf
    simp only [List.length_append] at hlen
    rw [hsplit] at hpw
    have h1 : pre <+: start := List.prefix_of_prefix_length_le hpw (List.prefix_append _ _) (by omega)
    obtain ⟨a, rfl⟩ := h1
    obtain ⟨b, rfl⟩ := hsuf
    exact ⟨a ++ b, hf, by simp⟩

/-- A result of `parse` is derived. -/
theorem parse_deriv (m : Morph S) (hlow : m.env.LowerStable) (w : Str) (ps : List (Parse S)) (h : m.parse w = .ok ps) (p : Parse S)
    (hp : p ∈ ps) : Deriv m (m.env.lower w) p.word p.tag p.nf p.stack := analyze_deriv m hlow _ w ps h p hp

/-! ### C13 -/

/-- **C13, analyses that are not compounds with both parts inflected.** Every form of the lexeme has that very lexeme. -/
theorem c13_same_lexeme (m : Morph S) (hm : IsRu m ∨ IsUk m) (hlow : m.env.LowerStable) (hd : m.dict.WF)
    (w : Str) (ps : List (Parse S)) (h : m.parse w = .ok ps) (p : Parse S) (hp : p ∈ ps) (hnb : p.stack.noBoth)
    (fs : List (Parse S)) (hfs : m.lexeme p = .ok fs) (f : Parse S) (hf : f ∈ fs) : m.lexeme f = .ok fs := by
  obtain ⟨_, fs', h1, _, h3⟩ := deriv_reprod m hd (default_gendersApart m hm) (parse_deriv m hlow w ps h p hp) (.inl hnb) p.score p.stack
    fs hfs f hf
  rw [h3 hnb] at h1
  exact h1 f.stack

/-- **C13 for words without a hyphen**: no further condition. -/
theorem c13_same_lexeme_no_hyphen (m : Morph S) (hm : IsRu m ∨ IsUk m) (hlow : m.env.LowerStable) (hd : m.dict.WF)
    (w : Str) (hw : '-' ∉ m.env.lower w) (ps : List (Parse S)) (h : m.parse w = .ok ps) (p : Parse S) (hp : p ∈ ps)
    (fs : List (Parse S)) (hfs : m.lexeme p = .ok fs) (f : Parse S) (hf : f ∈ fs) : m.lexeme f = .ok fs :=
  c13_same_lexeme m hm hlow hd w ps h p hp (deriv_noBoth (parse_deriv m hlow w ps h p hp) hw) fs hfs f hf

/-- What compounds with both parts inflected need: hyphens do not come and go inside lexemes, no character is replaced by
a hyphen, and initials are capital letters. -/
structure CompoundsOK (m : Morph S) : Prop where
  uniform : m.dict.HyphenUniform
  subst : ∀ c, '-' ∉ m.sub c
  capital : m.env.CapitalInitials

theorem parse_bothCond (m : Morph S) (hm : IsRu m ∨ IsUk m) (hlow : m.env.LowerStable) (hc : CompoundsOK m) (w : Str)
    (ps : List (Parse S)) (h : m.parse w = .ok ps) (p : Parse S) (hp : p ∈ ps) : BothCond m p.stack :=
  .inr ⟨hc.uniform, hc.subst, (analyze_bothNoInit m hlow (default_upperInitials m hm hc.capital) _ w ps h p hp).1⟩

/-- **C13, all analyses.** Every form of the lexeme has a lexeme with the same words, tags, normal forms and methods. -/
theorem c13_same_lexeme_compounds (m : Morph S) (hm : IsRu m ∨ IsUk m) (hlow : m.env.LowerStable) (hd : m.dict.WF) (hc : CompoundsOK m)
    (w : Str) (ps : List (Parse S)) (h : m.parse w = .ok ps) (p : Parse S) (hp : p ∈ ps)
    (fs : List (Parse S)) (hfs : m.lexeme p = .ok fs) (f : Parse S) (hf : f ∈ fs) :
    ∃ fs', m.lexeme f = .ok fs' ∧ fs'.map Parse.core = fs.map Parse.core := by
  obtain ⟨_, fs', h1, h2, _⟩ := deriv_reprod m hd (default_gendersApart m hm) (parse_deriv m hlow w ps h p hp)
    (parse_bothCond m hm hlow hc w ps h p hp) p.score p.stack fs hfs f hf
  exact ⟨fs', h1 f.stack, h2⟩

/-- **C13: the lexeme exists** and is not empty (dictionaries with tags of half a million grammemes excluded). -/
theorem c13_lexeme_exists (m : Morph S) (hm : IsRu m ∨ IsUk m) (hlow : m.env.LowerStable) (hd : m.dict.WF) (hsm : m.SmallTags)
    (w : Str) (ps : List (Parse S)) (h : m.parse w = .ok ps) (p : Parse S) (hp : p ∈ ps)
    (hc : p.stack.noBoth ∨ CompoundsOK m) : ∃ fs, m.lexeme p = .ok fs ∧ fs ≠ [] := by
  have hdv := parse_deriv m hlow w ps h p hp
  have hb : BothCond m p.stack := hc.elim .inl fun hc => parse_bothCond m hm hlow hc w ps h p hp
  obtain ⟨fs, hfs⟩ := deriv_lexeme_ok m hd (default_gendersKnown m hm) hsm hdv (default_small m hm hsm hdv) hb p.score p.stack
  exact ⟨fs, hfs, fun e => deriv_lexeme_ne m hd (default_gendersApart m hm) hdv hb p.score p.stack (e ▸ hfs)⟩

/-! ### C14 -/

/-- **C14.** The lexeme of an analysis that is not a compound with both parts inflected contains that very form. -/
theorem c14_member (m : Morph S) (hm : IsRu m ∨ IsUk m) (hlow : m.env.LowerStable) (hd : m.dict.WF)
    (w : Str) (ps : List (Parse S)) (h : m.parse w = .ok ps) (p : Parse S) (hp : p ∈ ps) (hnb : p.stack.noBoth)
    (hroom : p.stack.roomy m.dict) (fs : List (Parse S)) (hfs : m.lexeme p = .ok fs) : ∃ f ∈ fs, f.core = p.core := by
  have hdv := parse_deriv m hlow w ps h p hp
  obtain ⟨f, hf, e1, e2, e3, e4⟩ := deriv_member m hd (default_gendersApart m hm) hdv hnb (deriv_fits hd hdv hroom) p.score p.stack fs hfs
  exact ⟨f, hf, by simp [Parse.core, e1, e2, e3, e4]⟩

/-- Dictionary words: no condition at all. -/
theorem c14_member_known (m : Morph S) (hm : IsRu m ∨ IsUk m) (hlow : m.env.LowerStable) (hd : m.dict.WF)
    (w : Str) (ps : List (Parse S)) (h : m.parse w = .ok ps) (p : Parse S) (hp : p ∈ ps) (u : UObj) (v : Str) (para idx : Nat)
    (hk : p.stack = .single (.dict u v para idx)) :
    ∃ fs, m.lexeme p = .ok fs ∧ ∃ f ∈ fs, f.core = p.core := by
  have hdv := parse_deriv m hlow w ps h p hp
  have hnb : p.stack.noBoth := by rw [hk]; exact ⟨trivial, trivial⟩
  have : ∃ fs, m.lexeme p = .ok fs := by
    have hdv' := hdv
    unfold Morph.lexeme
    obtain ⟨word, tag, nf, s, st⟩ := p
    dsimp only at *
    subst hk
    generalize hst : Stack.single (.dict u v para idx) = st at hdv'
    generalize m.env.lower w = wl at hdv'
    cases hdv' with
    | dict hsp hw hnf ht =>
      obtain ⟨p', pre, tag', suf, stem, hf, _⟩ := hd.words _ hw
      obtain ⟨stem', fs0, _, _, _, _, h5, _⟩ := dictBase (S := S) m hd ⟨_, .dict⟩ rfl hf word word nf
      exact ⟨fs0, h5 _ _ _⟩
    | _ => simp [Stack.single] at hst
  obtain ⟨fs, hfs⟩ := this
  exact ⟨fs, hfs, c14_member m hm hlow hd w ps h p hp hnb (by rw [hk]; exact ⟨trivial, trivial, trivial⟩) fs hfs⟩

/-! ### C15 -/

/-- **C15.** `normalized` succeeds whenever the lexeme can be computed; it has the word, tag, normal form and methods of the first
form of the lexeme; and normalizing it again gives the same word, tag, normal form and methods. -/
theorem c15_first_form (m : Morph S) (hm : IsRu m ∨ IsUk m) (hlow : m.env.LowerStable) (hd : m.dict.WF)
    (w : Str) (ps : List (Parse S)) (h : m.parse w = .ok ps) (p : Parse S) (hp : p ∈ ps) (hc : p.stack.noBoth ∨ CompoundsOK m)
    (hroom : p.stack.roomy m.dict) (fs : List (Parse S)) (hfs : m.lexeme p = .ok fs) :
    ∃ q f, m.normalized p = .ok q ∧ fs.head? = some f ∧ q.core = f.core ∧ q.nf = p.nf ∧
      (∃ q', m.normalized q = .ok q' ∧ q'.core = q.core) := by
  have hdv := parse_deriv m hlow w ps h p hp
  have hb : BothCond m p.stack := hc.elim .inl fun hc => parse_bothCond m hm hlow hc w ps h p hp
  obtain ⟨q, h1, h2, h3, _, q', h5, h6, _⟩ := deriv_normOK m hd (default_gendersApart m hm) hdv hb p.score p.stack fs hfs
  have h2 := h2 (deriv_fits hd hdv hroom)
  rw [Option.map_eq_some_iff] at h2
  obtain ⟨f, hf, he⟩ := h2
  exact ⟨q, f, h1, hf, he.symm, h3, q', h5 q.stack, h6⟩

/-- **C15, the spelling.** For analyses that are not compounds with both parts inflected, `normalized` is spelled like the normal
form and normalizing again changes nothing at all. -/
theorem c15_spelling (m : Morph S) (hm : IsRu m ∨ IsUk m) (hlow : m.env.LowerStable) (hd : m.dict.WF)
    (w : Str) (ps : List (Parse S)) (h : m.parse w = .ok ps) (p : Parse S) (hp : p ∈ ps) (hnb : p.stack.noBoth)
    (hroom : p.stack.roomy m.dict) (fs : List (Parse S)) (hfs : m.lexeme p = .ok fs) :
    ∃ q, m.normalized p = .ok q ∧ q.word = p.nf ∧ q.nf = p.nf ∧ m.normalized q = .ok q := by
  have hdv := parse_deriv m hlow w ps h p hp
  obtain ⟨q, h1, _, h3, h4, q', h5, _, h7⟩ := deriv_normOK m hd (default_gendersApart m hm) hdv (.inl hnb) p.score p.stack fs hfs
  refine ⟨q, h1, h4 (deriv_fits hd hdv hroom) hnb, h3, ?_⟩
  rw [h7 hnb] at h5
  exact h5 q.stack

/-! ### C16 -/

/-- **C16.** All forms of the lexeme have the normal form of the analysis. -/
theorem c16_same_normal_form (m : Morph S) (hm : IsRu m ∨ IsUk m) (hlow : m.env.LowerStable) (hd : m.dict.WF)
    (w : Str) (ps : List (Parse S)) (h : m.parse w = .ok ps) (p : Parse S) (hp : p ∈ ps) (hc : p.stack.noBoth ∨ CompoundsOK m)
    (fs : List (Parse S)) (hfs : m.lexeme p = .ok fs) (f : Parse S) (hf : f ∈ fs) : f.nf = p.nf := by
  have hb : BothCond m p.stack := hc.elim .inl fun hc => parse_bothCond m hm hlow hc w ps h p hp
  exact (deriv_reprod m hd (default_gendersApart m hm) (parse_deriv m hlow w ps h p hp) hb p.score p.stack fs hfs f hf).1

/-! ### Where the conditions are needed -/

/-- A dictionary with a superlative: the paradigm of наилучший/… has prefix наи and ending иба in its second form, and the
prediction data of the prefix наи offers it for the ending иба. -/
def Demo.dictO : Dict :=
  { Demo.dict with
    paradigms := Demo.dict.paradigms ++ [[4, 7, 2, 3, 0, 2]]
    suffixes := Demo.dict.suffixes ++ [c!"иба"]
    words := [(c!"наирыбаиба", (4, 1))]
    pred := [[], [], [(c!"иба", (1, 4, 1))]] }

def Demo.morphO : Morph Rat := { Demo.morph with dict := Demo.dictO }

theorem Demo.isRu_of (d : Dict) (est : Option (List (Str × Nat))) : IsRu { Demo.morph with dict := d, est := est } := by
  refine ⟨Demo.cls, ?_⟩
  unfold mkMorph
  show (initUnits (ruUnits (S := Rat)) Demo.cls >>= fun r =>
    pure (⟨Demo.morph.env, d, r.1, Demo.morph.sub, r.2, est⟩ : Morph Rat)) = _
  rw [Demo.bound_ok]; rfl

/-- The words of the lexeme of the first analysis of a word. -/
def Demo.firstLexeme (m : Morph Rat) (w : Str) : Option (List Str) :=
  ((m.parse w).toOption.bind List.head?).bind fun p => (m.lexeme p).toOption.map (List.map Parse.word)

/-- **C14, defect.** A short word in which the predicted paradigm prefix and suffix overlap is missing from its own lexeme:
наиба is analysed with prefix наи and suffix иба, and its lexeme consists of the empty string and наииба. -/
theorem c14_overlap_defect :
    IsRu Demo.morphO ∧ Demo.morphO.dict.WF ∧
    (Demo.morphO.parse (c!"наиба")).toOption.map (List.map Parse.word) = some [c!"наиба"] ∧
    Demo.firstLexeme Demo.morphO (c!"наиба") = some [c!"", c!"наииба"] :=
  ⟨Demo.isRu_of _ _, Dict.check_wf _ (by decide +kernel), by decide +kernel, by decide +kernel⟩

/-- A dictionary with the adjectives белый/белая and черный, and the noun брюк (only a genitive plural). -/
def Demo.dictH : Dict :=
  { Demo.dict with
    gramtab := Demo.dict.gramtab ++ [⟨c!"ADJF,Qual femn,sing,nomn"⟩]
    paradigms := Demo.dict.paradigms ++ [[2, 7, 2, 7, 0, 0], [2, 2, 0], [4, 1, 0]]
    suffixes := Demo.dict.suffixes ++ [c!"ая"]
    words := [(c!"белая", (4, 1)), (c!"белый", (4, 0)), (c!"брюк", (6, 0)), (c!"кошек", (0, 1)), (c!"кошка", (0, 0)), (c!"черный", (5, 0))]
    pred := [[], [], []] }

def Demo.morphH : Morph Rat := { Demo.morph with dict := Demo.dictH }

/-- **C14, defect.** The compound белая-черный (both parts inflected) is not in its own lexeme, which is белый-черный. -/
theorem c14_compound_defect :
    IsRu Demo.morphH ∧ Demo.morphH.dict.WF ∧
    (Demo.morphH.parse (c!"белая-черный")).toOption.map (List.map Parse.word) = some [c!"белая-черный", c!"белая-черный"] ∧
    Demo.firstLexeme Demo.morphH (c!"белая-черный") = some [c!"белый-черный"] :=
  ⟨Demo.isRu_of _ _, Dict.check_wf _ (by decide +kernel), by decide +kernel, by decide +kernel⟩

/-- **C15, defect.** The compound кошек-брюк has normal form кошка-брюк, but normalizes to itself. -/
theorem c15_compound_defect :
    (((Demo.morphH.parse (c!"кошек-брюк")).toOption.bind List.head?).bind fun p =>
      (Demo.morphH.normalized p).toOption.map fun q => (p.nf, q.word)) = some (c!"кошка-брюк", c!"кошек-брюк") := by
  decide +kernel

/-! ### Non-vacuity -/

theorem Demo.capitalInitials : demoEnv.CapitalInitials := by unfold Env.CapitalInitials; decide +kernel

theorem Demo.dict_hyphenUniform : Demo.dictH.HyphenUniform := by
  intro para i j p pre suf pre' suf' tag tag' h1 h2 _ _
  have hp : ∀ x ∈ Demo.dictH.prefixes, '-' ∉ x := by decide +kernel
  have hs : ∀ x ∈ Demo.dictH.suffixes, '-' ∉ x := by decide +kernel
  have a := h2.hpre
  have b := h2.hsuf
  simp only [Dict.formPrefix, Dict.formSuffix, bind_ok_iff, pyGet_ok_iff] at a b
  obtain ⟨_, _, a⟩ := a
  obtain ⟨_, _, b⟩ := b
  exact ⟨hp _ (List.mem_of_getElem? a), hs _ (List.mem_of_getElem? b)⟩

theorem Demo.compoundsOK : CompoundsOK Demo.morphH where
  uniform := Demo.dict_hyphenUniform
  subst := by
    intro c
    show '-' ∉ ruSubst c
    unfold ruSubst
    split <;> decide
  capital := Demo.capitalInitials

theorem Demo.smallTags : Demo.morphH.SmallTags := by unfold Morph.SmallTags; decide +kernel

/-- A compound with both parts inflected, and its lexeme. -/
example : (((Demo.morphH.parse (c!"белый-черный")).toOption.bind List.head?).map fun p => (p.word, p.tag.grammemes.card)) =
    some (c!"белый-черный", 5) ∧ Demo.firstLexeme Demo.morphH (c!"белый-черный") = some [c!"белый-черный"] := by decide +kernel

/-- A prefixed word; its lexeme. -/
example : Demo.firstLexeme Demo.morph (c!"суперкошек") = some [c!"суперкошка", c!"суперкошек"] := by decide +kernel

/-- A word predicted by its ending; its lexeme. -/
example : Demo.firstLexeme Demo.morph (c!"бутявка") = some [c!"бутявка", c!"бутявек"] := by decide +kernel

end Verif
