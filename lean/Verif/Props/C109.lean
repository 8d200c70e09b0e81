/-
C109: analyzers constructed with a `units` argument keep the guarantees of the default ones.
-/
import Verif.Props.C41
import Verif.Props.C93
import Verif.Props.C04
import Verif.Lemmas.Custom

set_option linter.unusedSectionVars false

namespace Verif

section generic

variable {S : Type} [Score S]

/-! ### Lexemes, for any list of units -/

/-- **C109.** Whatever the units: every form of the lexeme of an analysis which is not a compound with both parts inflected has that very lexeme, and all forms
have the normal form of the analysis. -/
theorem c109_same_lexeme (items : List (List (UnitSpec S))) (m : Morph S) (hm : m.Configured items) (hlow : m.env.LowerStable) (hd : m.dict.WF)
    (w : Str) (ps : List (Parse S)) (h : m.parse w = .ok ps) (p : Parse S) (hp : p ∈ ps) (hnb : p.stack.noBoth)
    (fs : List (Parse S)) (hfs : m.lexeme p = .ok fs) (f : Parse S) (hf : f ∈ fs) : m.lexeme f = .ok fs ∧ f.nf = p.nf := by
  obtain ⟨h0, fs', h1, _, h3⟩ := deriv_reprod m hd (configured_gendersApart hm) (parse_deriv m hlow w ps h p hp) (.inl hnb) p.score p.stack fs hfs f hf
  rw [h3 hnb] at h1
  exact ⟨h1 f.stack, h0⟩

/-- What compounds with both parts inflected need: hyphens do not come and go inside lexemes, no character is replaced by a hyphen, and the letters configured
as initials are capital letters. -/
structure CompoundsFor (m : Morph S) (items : List (List (UnitSpec S))) : Prop where
  uniform : m.dict.HyphenUniform
  subst : ∀ c, '-' ∉ m.sub c
  capital : ∀ g ∈ items, ∀ sp ∈ g, ∀ l ∈ sp.initials, m.env.lower l ≠ l

theorem CompoundsFor.both {m : Morph S} {items : List (List (UnitSpec S))} (hc : CompoundsFor m items) (hm : m.Configured items) (hlow : m.env.LowerStable)
    (w : Str) (ps : List (Parse S)) (h : m.parse w = .ok ps) (p : Parse S) (hp : p ∈ ps) : BothCond m p.stack :=
  .inr ⟨hc.uniform, hc.subst, (analyze_bothNoInit m hlow (configured_upperInitials hm hc.capital) _ w ps h p hp).1⟩

/-- **C109, compounds.** With both parts inflected, every form has a lexeme with the same words, tags, normal forms and methods. -/
theorem c109_same_lexeme_compounds (items : List (List (UnitSpec S))) (m : Morph S) (hm : m.Configured items) (hlow : m.env.LowerStable) (hd : m.dict.WF)
    (hc : CompoundsFor m items) (w : Str) (ps : List (Parse S)) (h : m.parse w = .ok ps) (p : Parse S) (hp : p ∈ ps)
    (fs : List (Parse S)) (hfs : m.lexeme p = .ok fs) (f : Parse S) (hf : f ∈ fs) :
    f.nf = p.nf ∧ ∃ fs', m.lexeme f = .ok fs' ∧ fs'.map Parse.core = fs.map Parse.core := by
  obtain ⟨h0, fs', h1, h2, _⟩ := deriv_reprod m hd (configured_gendersApart hm) (parse_deriv m hlow w ps h p hp)
    (hc.both hm hlow w ps h p hp) p.score p.stack fs hfs f hf
  exact ⟨h0, fs', h1 f.stack, h2⟩

/-- **C109, membership and normalization.** An analysis which is not such a compound is in its own lexeme; `normalized` is the first form, is spelled like the
normal form, and normalizing again changes nothing. -/
theorem c109_member (items : List (List (UnitSpec S))) (m : Morph S) (hm : m.Configured items) (hlow : m.env.LowerStable) (hd : m.dict.WF)
    (w : Str) (ps : List (Parse S)) (h : m.parse w = .ok ps) (p : Parse S) (hp : p ∈ ps) (hnb : p.stack.noBoth)
    (hroom : p.stack.roomy m.dict) (fs : List (Parse S)) (hfs : m.lexeme p = .ok fs) :
    (∃ f ∈ fs, f.core = p.core) ∧
    ∃ q f, m.normalized p = .ok q ∧ fs.head? = some f ∧ q.core = f.core ∧ q.word = p.nf ∧ q.nf = p.nf ∧ m.normalized q = .ok q := by
  have hdv := parse_deriv m hlow w ps h p hp
  have hga := configured_gendersApart hm
  obtain ⟨f, hf, e1, e2, e3, e4⟩ := deriv_member m hd hga hdv hnb (deriv_fits hd hdv hroom) p.score p.stack fs hfs
  refine ⟨⟨f, hf, by simp [Parse.core, e1, e2, e3, e4]⟩, ?_⟩
  obtain ⟨q, h1, h2, h3, h4, q', h5, _, h7⟩ := deriv_normOK m hd hga hdv (.inl hnb) p.score p.stack fs hfs
  have h2 := h2 (deriv_fits hd hdv hroom)
  rw [Option.map_eq_some_iff] at h2
  obtain ⟨f, hf, he⟩ := h2
  rw [h7 hnb] at h5
  exact ⟨q, f, h1, hf, he.symm, h4 (deriv_fits hd hdv hroom) hnb, h3, h5 q.stack⟩

/-- No tag is absurdly large: neither those of the dictionary nor those made from the tag patterns of units for initials. -/
structure SmallFor (m : Morph S) (items : List (List (UnitSpec S))) : Prop where
  dict : m.SmallTags
  patterns : ∀ g ∈ items, ∀ sp ∈ g, ∀ t ∈ sp.tagPatterns, t.grammemes.card < 500000

theorem SmallFor.tag {m : Morph S} {items : List (List (UnitSpec S))} (hs : SmallFor m items) (hm : m.Configured items) {wl w nf : Str} {tag : Tag} {st : Stack}
    (h : Deriv m wl w tag nf st) : tag.grammemes.card < 500000 := by
  rcases deriv_tag h with h | ⟨u, hu, ht⟩
  · exact hs.dict _ h
  · obtain ⟨g, hg, sp, hsp, e⟩ := configured_cfg hm u hu
    rw [e] at ht
    have own : ∀ t ∈ [Tag.mk (c!"NUMB,intg"), ⟨c!"NUMB,real"⟩, ⟨c!"PNCT"⟩, ⟨c!"LATN"⟩, ⟨c!"ROMN"⟩, ⟨c!"ADVB"⟩, ⟨c!"UNKN"⟩],
        t.grammemes.card < 500000 := by decide +kernel
    have hp := hs.patterns g hg sp hsp tag
    cases sp with
    | firstName letters pattern score =>
      refine hp ?_
      rcases List.mem_append.1 ht with h | h <;> exact (List.mem_filter.1 h).1
    | patronymic letters pattern score => exact hp ht
    | _ => exact own tag (by revert ht; simp [UnitSpec.bound, UnitCfg.givenTags, UnitCfg.ownTags]; try tauto)

/-- **C109, nothing fails.** Whatever is done to a result of `parse`: the lexeme of every object met on the way exists and is not empty, the object can be
normalized, inflected into any known grammemes, and put into agreement with any number (a noun without a case is refused with `ValueError`). -/
theorem c109_never_fails (items : List (List (UnitSpec S))) (m : Morph S) (hm : m.Configured items) (hlow : m.env.LowerStable) (hd : m.dict.WF)
    (hcap : ∀ g ∈ items, ∀ sp ∈ g, ∀ l ∈ sp.initials, m.env.lower l ≠ l) (hs : SmallFor m items)
    (w : Str) (ps : List (Parse S)) (h : m.parse w = .ok ps) (p0 : Parse S) (hp : p0 ∈ ps) (sim : Sim) (p : Parse S) (hob : Obtained m sim p0 p) :
    (∃ fs, m.lexeme p = .ok fs ∧ fs ≠ []) ∧ (∃ q, m.normalized p = .ok q) ∧
    (∀ (sim' : Sim) (req : List Str), (∀ g ∈ req, g ∈ m.cls.known ∧ fixRare1 g ∈ m.cls.known) → ∃ res, m.inflect sim' p req = .ok res) ∧
    ∀ (pick : Grams → Option Str) (num : Int), Picks pick → (∀ g, Askable p.tag g → g ∈ m.cls.known ∧ fixRare1 g ∈ m.cls.known) →
      (∃ res, m.makeAgree sim pick p num = .ok res) ∨
        (c!"NOUN" ∈ p.tag.grammemes ∧ CASES ∩ p.tag.grammemes = ∅ ∧ m.makeAgree sim pick p num = .error .valueError) := by
  obtain ⟨⟨fs, a1, a2⟩, b, c⟩ := never_fails m (configured_gendersApart hm) (configured_gendersKnown hm) (configured_upperInitials hm hcap) hlow hd hs.dict
    w ps h p0 hp (hs.tag hm (parse_deriv m hlow w ps h p0 hp)) sim p hob
  exact ⟨⟨fs, a1, a2⟩, b, c, fun pick num hpick hkn => agree_core m sim p fs a1 c pick hpick num hkn⟩

/-- **C109, chains.** Whatever is done to a result one stays in its lexeme, with its normal form; every object met on the way has the lexeme of the first one
and is normalized to its first form. -/
theorem c109_chain (items : List (List (UnitSpec S))) (m : Morph S) (hm : m.Configured items) (hlow : m.env.LowerStable) (hd : m.dict.WF)
    (hs : SmallFor m items) (w : Str) (ps : List (Parse S)) (h : m.parse w = .ok ps) (p0 : Parse S) (hp : p0 ∈ ps)
    (hc : p0.stack.noBoth ∨ CompoundsFor m items) (hroom : p0.stack.roomy m.dict) :
    ∃ fs0 f0, m.lexeme p0 = .ok fs0 ∧ fs0.head? = some f0 ∧ ∀ (sim : Sim) (p : Parse S), Obtained m sim p0 p →
      (p = p0 ∨ ∃ f ∈ fs0, p.core = f.core) ∧ p.nf = p0.nf ∧
      (∃ fs, m.lexeme p = .ok fs ∧ fs.map Parse.core = fs0.map Parse.core) ∧
      (∃ q, m.normalized p = .ok q ∧ q.core = f0.core) := by
  have hdv := parse_deriv m hlow w ps h p0 hp
  have hb : BothCond m p0.stack := hc.elim .inl fun hc => hc.both hm hlow w ps h p0 hp
  obtain ⟨fs0, hl0⟩ := deriv_lexeme_ok m hd (configured_gendersKnown hm) hs.dict hdv (hs.tag hm hdv) hb p0.score p0.stack
  obtain ⟨f0, h2, h3⟩ := chain_core m (configured_gendersApart hm) hlow hd w ps h p0 hp hb hroom fs0 hl0
  exact ⟨fs0, f0, hl0, h2, h3⟩

/-! ### Known words -/

/-- **C109, known words.** If the dictionary unit comes first and its group has only units that look at the whole word, `p.is_known` is
`morph.word_is_known(w)` for every result. -/
theorem c109_is_known (g0 : List (UnitSpec S)) (items : List (List (UnitSpec S))) (m : Morph S) (hm : m.Configured ((.dictionary :: g0) :: items))
    (hg0 : ∀ sp ∈ g0, match sp with
      | .dictionary | .firstName _ _ _ | .patronymic _ _ _ | .number _ | .punct _ | .latin _ | .roman _ => True
      | _ => False)
    (hlow : m.env.LowerStable) (hs : ∀ c d, d ∈ m.sub c → m.sub d = []) (w : Str) (ps : List (Parse S)) (h : m.parse w = .ok ps) (p : Parse S)
    (hp : p ∈ ps) : m.isKnown p = m.wordIsKnown w := by
  obtain ⟨cls, hm⟩ := hm
  exact known_core m hlow hs w ps h p hp fun hk => parse_known_words _ _ _ _ _ _ _ m hm hg0 w hk ps h p hp

/-- The first unit listed is the first unit. -/
theorem configured_first {m : Morph S} {sp0 : UnitSpec S} {g0 : List (UnitSpec S)} {items : List (List (UnitSpec S))}
    (hm : m.Configured ((sp0 :: g0) :: items)) : ∃ b us, m.units = (⟨0, sp0.bound⟩, b) :: us := by
  obtain ⟨cls, hm⟩ := hm
  obtain ⟨_, _, _, _, _, hgr⟩ := mkMorph_units hm
  rw [hgr, boundGroups, List.flatMap_cons, List.mapIdx_cons, List.mapIdx_cons, List.cons_append]
  exact ⟨_, _, by simp only [Nat.zero_add]; rfl⟩

/-- **C109, enumeration.** With at least one unit, `iter_known_word_parses(prefix)` yields one parse per dictionary entry whose word starts with the prefix, in the
order of the dictionary, with the tag and normal form of the entry and score 1 — whichever unit comes first. -/
theorem c109_iter (items : List (List (UnitSpec S))) (hne : items ≠ []) (m : Morph S) (hm : m.Configured items) (hd : m.dict.WF) (pre : Str) :
    ∃ qs, m.iterKnownWordParses pre = .ok qs ∧
      qs.map Parse.dictEntry = (m.dict.words.filter fun e => decide (pre <+: e.1)).map (fun e => some (e.1, e.2.1, e.2.2)) ∧
      ∀ q ∈ qs, q.score = Score.one ∧ ∀ v para idx, q.dictEntry = some (v, para, idx) →
        q.word = v ∧ m.dict.tagInfo para idx = .ok q.tag ∧ m.dict.normalForm para idx v = .ok q.nf := by
  match items, hne with
  | [] :: items, _ =>
    exfalso
    obtain ⟨cls, hm⟩ := hm
    simp only [mkMorph, initUnits, mapE, bind_ok_iff] at hm
    obtain ⟨_, ⟨_, ⟨_, h, _⟩, _⟩, _⟩ := hm
    exact (flattenItem_ok h).1 rfl
  | (sp0 :: g0) :: items, _ =>
    obtain ⟨b, us, hus⟩ := configured_first hm
    exact enumerates_core m _ us hus hd pre

/-- **C109, lexemes of enumerated words.** If the first unit is the dictionary, every enumerated parse has a lexeme, which contains it. -/
theorem c109_iter_lexeme (g0 : List (UnitSpec S)) (items : List (List (UnitSpec S))) (m : Morph S) (hm : m.Configured ((.dictionary :: g0) :: items))
    (hd : m.dict.WF) (pre : Str) (qs : List (Parse S)) (h : m.iterKnownWordParses pre = .ok qs) (q : Parse S) (hq : q ∈ qs) :
    ∃ fs, m.lexeme q = .ok fs ∧ ∃ f ∈ fs, f.core = q.core := by
  obtain ⟨b, us, hus⟩ := configured_first hm
  exact iter_lexeme_core m _ us hus rfl hd pre qs h q hq

/-- **C109, no units.** With an empty list of units nothing is analyzed, no word is predicted or refused, and enumerating the dictionary fails with an
`IndexError` as soon as there is a word to yield. -/
theorem c109_no_units (m : Morph S) (hm : m.Configured []) (hd : m.dict.WF) :
    (∀ w, m.parse w = .ok [] ∧ m.tag w = .ok []) ∧
    ∀ pre, m.iterKnownWordParses pre = if ∃ e ∈ m.dict.words, pre <+: e.1 then .error .indexError else .ok [] := by
  obtain ⟨cls, hm⟩ := hm
  obtain ⟨_, _, _, _, _, hgr⟩ := mkMorph_units hm
  have hu : m.units = [] := by rw [hgr]; simp [boundGroups]
  refine ⟨fun w => ?_, fun pre => ?_⟩
  · constructor
    · unfold Morph.parse Morph.depth
      simp only [analyze, parseStep, hu, runParse, ok_bind]
      cases m.est <;> simp [applyToParses]
    · unfold Morph.tag Morph.depth
      simp only [analyze, tagStep, hu, runTag, ok_bind]
      cases m.est <;> simp [applyToTags]
  · obtain ⟨ws, hws⟩ := mapE_total (fun e : Str × Nat × Nat => do
      let tag ← m.dict.tagInfo e.2.1 e.2.2
      let nf ← m.dict.normalForm e.2.1 e.2.2 e.1
      pure (e.1, tag, nf, e.2.1, e.2.2)) (m.dict.words.iteritems pre) (by
        intro e he
        obtain ⟨p, pr, tag, suf, stem, hf, _⟩ := hd.words e (List.mem_of_mem_filter he)
        obtain ⟨nf, hnf⟩ := normalForm_ok hd hf e.1
        rw [hf.htag, ok_bind, hnf, ok_bind]
        exact ⟨_, rfl⟩)
    have hf := (mapE_ok_iff _ _ _).1 hws
    simp only [Morph.iterKnownWordParses, Dict.iterKnownWords, hws, ok_bind]
    split
    · next hex =>
      obtain ⟨e, he, hp⟩ := hex
      have hm : e ∈ m.dict.words.iteritems pre := List.mem_filter.2 ⟨he, (startsWith_iff _ _).2 hp⟩
      generalize m.dict.words.iteritems pre = es at hm hf
      clear hws
      cases hf with
      | nil => simp at hm
      | cons _ _ => simp [mapE, hu, pyGet]
    · next hex =>
      have hm : m.dict.words.iteritems pre = [] := by
        apply List.filter_eq_nil_iff.2
        intro e he h
        exact hex ⟨e, he, (startsWith_iff _ _).1 h⟩
      rw [hm] at hf
      cases hf
      rfl

end generic

/-! ### Scores -/

/-- **C109, scores between 0 and 1.** If the scores and multipliers the units are given are between 0 and 1, and the stored P(t|w) values do not exceed 1, so are
all scores. -/
theorem c109_between_0_and_1 (items : List (List (UnitSpec Rat))) (m : Morph Rat) (hm : m.Configured items)
    (hsc : ∀ g ∈ items, ∀ sp ∈ g, sp.bound.unitScores) (hd : ∀ dawg, m.est = some dawg → ∀ e ∈ dawg, e.2 ≤ 1000000)
    (w : Str) (ps : List (Parse Rat)) (h : m.parse w = .ok ps) (p : Parse Rat) (hp : p ∈ ps) : 0 ≤ p.score ∧ p.score ≤ 1 := by
  refine analyze_prob m (fun u hu => ?_) hd _ w ps h p hp
  obtain ⟨g, hg, sp, hsp, e⟩ := configured_cfg hm u hu
  rw [e]
  exact hsc g hg sp hsp

/-- **C109, order.** If no known prefix is empty: with P(t|w) data for at least one result the list is sorted by non-increasing score, every score is the stored
P(t|w), and analyses with equal scores are in the order in which the units gave them; if there is data for no result, the order of the units is kept and the
scores are the unit scores divided by their sum; without P(t|w) data at all the results are what the units gave. -/
theorem c109_order (items : List (List (UnitSpec Rat))) (m : Morph Rat) (hm : m.Configured items)
    (hpre : ∀ g ∈ items, ∀ sp ∈ g, ∀ prefixes mult k, sp = .knownPrefix prefixes mult k → [] ∉ prefixes)
    (hlow : m.env.LowerStable) (w : Str) (ps : List (Parse Rat)) (h : m.parse w = .ok ps) :
    ∃ res, m.collected w = .ok res ∧ (m.est = none → ps = res) ∧ ∀ dawg, m.est = some dawg →
      ((∃ p ∈ ps, (prob dawg (m.env.lower w) p.tag : Rat) ≠ 0) →
        ps.Pairwise (fun a b => b.score ≤ a.score) ∧ (∀ p ∈ ps, p.score = prob dawg (m.env.lower w) p.tag) ∧
        ∀ s : Rat, (ps.filter fun p => decide (p.score = s)).map Parse.core =
          (res.filter fun p => decide ((prob dawg (m.env.lower w) p.tag : Rat) = s)).map Parse.core) ∧
      ((∀ p ∈ ps, (prob dawg (m.env.lower w) p.tag : Rat) = 0) →
        (ps ≠ [] → (ps.map Parse.score).sum = 1) ∧ ps.map Parse.core = res.map Parse.core ∧
        ps.map Parse.score = res.map fun p => p.score / (res.map Parse.score).sum) := by
  have hcol := parse_collected_of m (configured_properPrefixes hm hpre) hlow w ps h
  obtain ⟨res, hres, hsc⟩ := hcol
  refine ⟨res, hres, fun he => ?_, fun dawg he => ⟨fun hx => ?_, fun hx => ?_⟩⟩
  · simp only [rescored, he] at hsc
    simp at hsc; exact hsc.symm
  · obtain ⟨a, b, res', hres', c⟩ := with_data_core m dawg he w ps ⟨res, hres, hsc⟩ hx
    rw [hres] at hres'
    cases hres'
    exact ⟨a, b, c⟩
  · obtain ⟨a, res', hres', b, c⟩ := without_data_core m dawg he w ps ⟨res, hres, hsc⟩ hx
    rw [hres] at hres'
    cases hres'
    exact ⟨a, b, c⟩

/-! ### The hypotheses are met -/

theorem configured_of {S : Type} [Score S] {env : Env} {dict : Dict} {cls : TagCls} {sub : Subst} {items : List (List (UnitSpec S))}
    {est : Option (List (Str × Nat))} {m : Morph S} (h : mkMorph env dict cls sub items est = .ok m) : m.Configured items := by
  obtain ⟨e1, e2, e3, e4, _⟩ := mkMorph_units h
  subst e1 e2 e3 e4
  exact ⟨cls, h⟩

/-- A tag pattern of one's own. -/
def Demo.pattern109 (gender case : Str) : Str := c!"NOUN," ++ gender ++ c!" sing," ++ case

/-- Units in an unusual order: predictions before the dictionary, one letter for initials, compounds together with the dictionary, no `UnknAnalyzer`. -/
def Demo.units109 : List (List (UnitSpec Rat)) :=
  [[.unknownPrefix (1/2), .firstName [c!"А"] Demo.pattern109 (1/3)], [.hyphenated [] (3/4), .dictionary]]

def Demo.morph109 : Morph Rat :=
  match mkMorph demoEnv Demo.dictH Demo.cls ruSubst Demo.units109 none with
  | .ok m => m
  | .error _ => Demo.morph

theorem Demo.morph109_ok : mkMorph demoEnv Demo.dictH Demo.cls ruSubst Demo.units109 none = .ok Demo.morph109 := by
  have h : (mkMorph demoEnv Demo.dictH Demo.cls ruSubst Demo.units109 none).toOption.isSome = true := by decide +kernel
  unfold Demo.morph109
  cases e : mkMorph demoEnv Demo.dictH Demo.cls ruSubst Demo.units109 none with
  | ok m => rfl
  | error x => rw [e] at h; simp [Except.toOption] at h

theorem Demo.morph109_configured : Demo.morph109.Configured Demo.units109 := configured_of Demo.morph109_ok

theorem Demo.morph109_env : Demo.morph109.env = demoEnv := (mkMorph_units Demo.morph109_ok).1
theorem Demo.morph109_dict : Demo.morph109.dict = Demo.dictH := (mkMorph_units Demo.morph109_ok).2.1

theorem Demo.morph109_low : Demo.morph109.env.LowerStable := by rw [Demo.morph109_env]; exact demoEnv_lowerStable

theorem Demo.morph109_wf : Demo.morph109.dict.WF := by rw [Demo.morph109_dict]; exact Dict.check_wf _ (by decide +kernel)

theorem Demo.morph109_capital : ∀ g ∈ Demo.units109, ∀ sp ∈ g, ∀ l ∈ sp.initials, Demo.morph109.env.lower l ≠ l := by
  rw [Demo.morph109_env]
  simp only [Demo.units109, List.mem_cons, List.not_mem_nil, or_false, forall_eq_or_imp, forall_eq, UnitSpec.initials, IsEmpty.forall_iff, implies_true,
    and_true, true_and]
  decide +kernel

theorem Demo.morph109_small : SmallFor Demo.morph109 Demo.units109 where
  dict := by
    unfold Morph.SmallTags
    rw [Demo.morph109_dict]
    decide +kernel
  patterns := by
    simp only [Demo.units109, List.mem_cons, List.not_mem_nil, or_false, forall_eq_or_imp, forall_eq, UnitSpec.tagPatterns, IsEmpty.forall_iff, implies_true,
      and_true, true_and]
    decide +kernel

theorem Demo.morph109_compounds : CompoundsFor Demo.morph109 Demo.units109 where
  uniform := by rw [Demo.morph109_dict]; exact Demo.dict_hyphenUniform
  subst := by rw [(mkMorph_units Demo.morph109_ok).2.2.1]; exact Demo.compoundsOK.subst
  capital := Demo.morph109_capital

/-- Three words: an initial with a tag of the configured pattern, a predicted word, and a compound with both parts inflected; their lexemes have 6, 2 and
1 forms, and everything works on all objects obtained from them. -/
example : ∀ wn ∈ [(c!"А", 6), (c!"сверхкошка", 2), (c!"белый-черный", 1)], ∃ ps p0 fs, Demo.morph109.parse wn.1 = .ok ps ∧ p0 ∈ ps ∧
    Demo.morph109.lexeme p0 = .ok fs ∧ fs.length = wn.2 ∧
    ∀ (sim : Sim) (p : Parse Rat), Obtained Demo.morph109 sim p0 p → ∃ q, Demo.morph109.normalized p = .ok q := by
  intro wn hwn
  have key : ∃ ps p0 fs, Demo.morph109.parse wn.1 = .ok ps ∧ p0 ∈ ps ∧ Demo.morph109.lexeme p0 = .ok fs ∧ fs.length = wn.2 := by
    have h : [(c!"А", 6), (c!"сверхкошка", 2), (c!"белый-черный", 1)].all (fun wn : Str × Nat => match Demo.morph109.parse wn.1 with
      | .ok ps => ps.any fun p => match Demo.morph109.lexeme p with
        | .ok fs => decide (fs.length = wn.2)
        | _ => false
      | _ => false) = true := by decide +kernel
    have h := List.all_eq_true.1 h wn hwn
    split at h
    · next ps hps =>
      obtain ⟨p, hp, h⟩ := List.any_eq_true.1 h
      split at h
      · next fs hfs => exact ⟨ps, p, fs, hps, hp, hfs, by simpa using h⟩
      · simp at h
    · simp at h
  obtain ⟨ps, p0, fs, h1, h2, h3, h4⟩ := key
  exact ⟨ps, p0, fs, h1, h2, h3, h4, fun sim p hob => (c109_never_fails _ _ Demo.morph109_configured Demo.morph109_low Demo.morph109_wf
    Demo.morph109_capital Demo.morph109_small wn.1 ps h1 p0 h2 sim p hob).2.1⟩

/-- The scores and prefixes of these units meet the conditions on scores and order. -/
example : (∀ g ∈ Demo.units109, ∀ sp ∈ g, sp.bound.unitScores) ∧
    ∀ g ∈ Demo.units109, ∀ sp ∈ g, ∀ prefixes mult k, sp = .knownPrefix prefixes mult k → [] ∉ prefixes := by
  constructor
  · simp only [Demo.units109, List.mem_cons, List.not_mem_nil, or_false, forall_eq_or_imp, forall_eq, UnitSpec.bound, UnitCfg.unitScores]
    norm_num
  · simp [Demo.units109]

/-- The words starting with ко are enumerated by the analyzer with these units (a test). -/
example : (Demo.morph109.iterKnownWordParses (c!"ко")).toOption.map (List.map fun p => (p.word, p.nf)) =
    some [(c!"кошек", c!"кошка"), (c!"кошка", c!"кошка")] := by decide +kernel

/-- An analyzer without units exists, and its dictionary has words (a test). -/
example : ∃ m : Morph Rat, m.Configured [] ∧ m.dict = Demo.dict ∧ m.iterKnownWordParses (c!"ко") = .error .indexError := by
  cases e : mkMorph demoEnv Demo.dict Demo.cls ruSubst ([] : List (List (UnitSpec Rat))) none with
  | ok m =>
    have hd := (mkMorph_units e).2.1
    have hc := configured_of e
    refine ⟨m, hc, hd, ?_⟩
    rw [(c109_no_units m hc (by rw [hd]; exact Demo.dict_wf)).2, if_pos]
    rw [hd]
    exact ⟨(c!"кошка", 0, 0), by decide +kernel, by decide +kernel⟩
  | error x => simp [mkMorph, initUnits, mapE, bindUnits] at e

/-- A tag pattern without the gender is refused by the constructor, so the condition on genders needs no hypothesis. -/
theorem c109_pattern_refused :
    (mkMorph demoEnv Demo.dict Demo.cls ruSubst [[UnitSpec.firstName [c!"А"] (fun _ case => c!"NOUN sing," ++ case) (1/3 : Rat)]] none) =
      .error .assertionError := by
  have h : (match mkMorph demoEnv Demo.dict Demo.cls ruSubst [[UnitSpec.firstName [c!"А"] (fun _ case => c!"NOUN sing," ++ case) (1/3 : Rat)]] none with
    | .error e => decide (e = .assertionError)
    | .ok _ => false) = true := by decide +kernel
  split at h
  · next e he => rw [he, of_decide_eq_true h]
  · simp at h

end Verif
