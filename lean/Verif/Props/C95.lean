/-
C95: which tags appear in answers.
-/
import Verif.Props.C93
import Verif.Props.C48
import Verif.Props.C02
import Verif.Props.C77

set_option linter.unusedSectionVars false

namespace Verif

variable {S : Type} [Score S]

/-! ### Specification: the tags that do not come from the dictionary, written out -/

/-- Tags of words that are no words, unknown words, and initials (both languages). -/
def nonDictionaryTags : List Str :=
  [c!"UNKN", c!"PNCT", c!"LATN", c!"ROMN", c!"NUMB,intg", c!"NUMB,real",
   c!"NOUN,anim,masc,Sgtm,Name,Fixd,Abbr,Init sing,nomn", c!"NOUN,anim,masc,Sgtm,Name,Fixd,Abbr,Init sing,gent",
   c!"NOUN,anim,masc,Sgtm,Name,Fixd,Abbr,Init sing,datv", c!"NOUN,anim,masc,Sgtm,Name,Fixd,Abbr,Init sing,accs",
   c!"NOUN,anim,masc,Sgtm,Name,Fixd,Abbr,Init sing,ablt", c!"NOUN,anim,masc,Sgtm,Name,Fixd,Abbr,Init sing,loct",
   c!"NOUN,anim,femn,Sgtm,Name,Fixd,Abbr,Init sing,nomn", c!"NOUN,anim,femn,Sgtm,Name,Fixd,Abbr,Init sing,gent",
   c!"NOUN,anim,femn,Sgtm,Name,Fixd,Abbr,Init sing,datv", c!"NOUN,anim,femn,Sgtm,Name,Fixd,Abbr,Init sing,accs",
   c!"NOUN,anim,femn,Sgtm,Name,Fixd,Abbr,Init sing,ablt", c!"NOUN,anim,femn,Sgtm,Name,Fixd,Abbr,Init sing,loct",
   c!"NOUN,anim,masc,Sgtm,Patr,Fixd,Abbr,Init sing,nomn", c!"NOUN,anim,masc,Sgtm,Patr,Fixd,Abbr,Init sing,gent",
   c!"NOUN,anim,masc,Sgtm,Patr,Fixd,Abbr,Init sing,datv", c!"NOUN,anim,masc,Sgtm,Patr,Fixd,Abbr,Init sing,accs",
   c!"NOUN,anim,masc,Sgtm,Patr,Fixd,Abbr,Init sing,ablt", c!"NOUN,anim,masc,Sgtm,Patr,Fixd,Abbr,Init sing,loct",
   c!"NOUN,anim,femn,Sgtm,Patr,Fixd,Abbr,Init sing,nomn", c!"NOUN,anim,femn,Sgtm,Patr,Fixd,Abbr,Init sing,gent",
   c!"NOUN,anim,femn,Sgtm,Patr,Fixd,Abbr,Init sing,datv", c!"NOUN,anim,femn,Sgtm,Patr,Fixd,Abbr,Init sing,accs",
   c!"NOUN,anim,femn,Sgtm,Patr,Fixd,Abbr,Init sing,ablt", c!"NOUN,anim,femn,Sgtm,Patr,Fixd,Abbr,Init sing,loct"]

/-- The tags a dictionary analyzer of a language can answer with: those of its dictionary, and a fixed list. -/
def PossibleTag (m : Morph S) (t : Tag) : Prop :=
  t ∈ m.dict.gramtab ∨ t.str ∈ nonDictionaryTags ∨ (IsRu m ∧ t.str = c!"ADVB")

/-! ### Proof -/

theorem given_possible (m : Morph S) (hm : IsRu m ∨ IsUk m) : ∀ u ∈ m.units, ∀ t ∈ u.1.cfg.givenTags, PossibleTag m t := by
  have key : ∀ t ∈ commonOwnTags, t.str ∈ nonDictionaryTags := by decide +kernel
  intro u hu t ht
  rcases hm with hm | hm
  · rcases List.mem_cons.1 (given_ru m hm u hu t ht) with rfl | h
    · exact .inr (.inr ⟨hm, rfl⟩)
    · exact .inr (.inl (key t h))
  · exact .inr (.inl (key t (given_uk m hm u hu t ht)))

/-- Whatever holds of the tags of the dictionary and of the units holds of the tags of everything obtained from results. -/
theorem obtained_in (m : Morph S) (hlow : m.env.LowerStable) (T : Tag → Prop) (hg : ∀ t ∈ m.dict.gramtab, T t)
    (hu : ∀ u ∈ m.units, ∀ t ∈ u.1.cfg.givenTags, T t) (w : Str) (ps : List (Parse S)) (h : m.parse w = .ok ps) (p0 : Parse S) (hp : p0 ∈ ps)
    (sim : Sim) (p : Parse S) (hob : Obtained m sim p0 p) : T p.tag ∧ p.stack.initialsIn T := by
  have lex : ∀ (p : Parse S), (∃ req f, m.inflect sim p req = .ok (some f)) → ∃ fs, m.lexeme p = .ok fs := by
    rintro p ⟨req, f, h⟩
    unfold Morph.inflect at h
    simp only [bind_ok_iff] at h
    exact ⟨_, h.choose_spec.1⟩
  induction hob with
  | start =>
    have hd := parse_deriv m hlow w ps h p0 hp
    refine ⟨?_, deriv_initialsIn hu hd⟩
    rcases deriv_tag hd with h | ⟨u, hu', ht⟩
    · exact hg _ h
    · exact hu u hu' _ ht
  | form _ hfs hf ih => exact lexeme_in m T hg _ _ _ hfs ih.2 ih.1 _ hf
  | normalized _ hq ih => exact normalized_in m T hg _ _ _ hq ih.2 ih.1
  | @inflected p f req _ hi ih =>
    obtain ⟨fs, hfs⟩ := lex p ⟨req, f, hi⟩
    exact lexeme_in m T hg _ _ _ hfs ih.2 ih.1 _ (inflect_mem m sim p req f hi fs hfs)
  | @agreed p f pick num _ hi ih =>
    have : ∃ fs, m.lexeme p = .ok fs := by
      have hi := hi
      unfold Morph.makeAgree at hi
      split at hi
      · exact lex p ⟨_, _, hi⟩
      · simp only [bind_ok_iff] at hi
        exact ⟨_, hi.choose_spec.1⟩
    obtain ⟨fs, hfs⟩ := this
    exact lexeme_in m T hg _ _ _ hfs ih.2 ih.1 _ (makeAgree_mem m sim pick p num f hi fs hfs)

/-- **C95.** The tag of every result of `parse`, and of every object obtained from results, is one of the tags of the dictionary or one of a fixed list. -/
theorem c95_possible (m : Morph S) (hm : IsRu m ∨ IsUk m) (hlow : m.env.LowerStable) (w : Str) (ps : List (Parse S)) (h : m.parse w = .ok ps)
    (p0 : Parse S) (hp : p0 ∈ ps) (sim : Sim) (p : Parse S) (hob : Obtained m sim p0 p) : PossibleTag m p.tag :=
  (obtained_in m hlow (PossibleTag m) (fun _ h => .inl h) (given_possible m hm) w ps h p0 hp sim p hob).1

/-- **C95, `tag()`.** So are (up to `==`) the answers of `tag`. -/
theorem c95_tag (m : Morph S) (hm : IsRu m ∨ IsUk m) (hlow : m.env.LowerStable) (hd : m.dict.WF) (w : Str)
    (ps : List (Parse S)) (ts : List Tag) (hps : m.parse w = .ok ps) (hts : m.tag w = .ok ts) (t : Tag) (ht : t ∈ ts) :
    ∃ t', PossibleTag m t' ∧ t'.eqv t = true := by
  obtain ⟨p, hp, he⟩ := (c02_same_tags m hm hlow hd w ps ts hps hts).1 t ht
  exact ⟨p.tag, c95_possible m hm hlow w ps hps p hp Sim.exact p .start, he⟩

/-! ### All grammemes are known -/

theorem filterE_sub {α : Type} {f : α → Except PyErr Bool} {l r : List α} (h : filterE f l = .ok r) : ∀ a ∈ r, a ∈ l := by
  induction l generalizing r with
  | nil => simp [filterE] at h; simp [h]
  | cons a l ih =>
    simp only [filterE, bind_ok_iff, pure_eq_ok, Except.ok.injEq] at h
    obtain ⟨b, _, r', hr', rfl⟩ := h
    intro x hx
    split at hx
    · rcases List.mem_cons.1 hx with rfl | hx
      · exact List.mem_cons_self ..
      · exact List.mem_cons_of_mem _ (ih hr' x hx)
    · exact List.mem_cons_of_mem _ (ih hr' x hx)

theorem genderCaseTags_known {cls : TagCls} {pat : Str → Str → Str} {tags : List Tag} (h : genderCaseTags cls pat = .ok tags) :
    ∀ t ∈ tags, t.grammemes ⊆ cls.known := by
  intro t ht
  obtain ⟨s, _, hs⟩ := mapE_mem h ht
  exact mkTag_known hs

theorem bind_given {sp : UnitSpec S} {id : Nat} {cls : TagCls} {r : TagCls × BUnit S} (h : sp.bind id cls = .ok r) :
    ∀ t ∈ r.2.cfg.givenTags, t.grammemes ⊆ r.1.known := by
  cases sp <;> simp only [UnitSpec.bind, bind_ok_iff, pure_eq_ok, Except.ok.injEq] at h
  case dictionary | particle | hyphenated | knownPrefix | unknownPrefix | knownSuffix =>
    subst h; simp [UnitCfg.givenTags, UnitCfg.ownTags]
  case firstName =>
    obtain ⟨t1, h1, t2, h2, t3, h3, h⟩ := h
    split at h
    · simp only [Except.ok.injEq] at h; subst h
      simp only [UnitCfg.givenTags, List.mem_append]
      rintro t (ht | ht)
      · exact genderCaseTags_known h1 t (filterE_sub h2 t ht)
      · exact genderCaseTags_known h1 t (filterE_sub h3 t ht)
    · simp at h
  case patronymic =>
    obtain ⟨t1, h1, rfl⟩ := h
    exact genderCaseTags_known h1
  case number =>
    obtain ⟨t1, h1, t2, h2, rfl⟩ := h
    simp only [UnitCfg.givenTags, UnitCfg.ownTags, List.mem_cons, List.not_mem_nil, or_false]
    rintro t (rfl | rfl)
    · exact mkTag_known h1
    · exact mkTag_known h2
  case punct | latin | roman | unkn | adverb =>
    obtain ⟨t1, h1, rfl⟩ := h
    simp only [UnitCfg.givenTags, UnitCfg.ownTags, List.mem_cons, List.not_mem_nil, or_false]
    rintro t rfl
    exact mkTag_known h1

theorem bindUnits_given {sps : List (UnitSpec S × Bool)} {id : Nat} {cls : TagCls}
    {r : TagCls × List (BUnit S × Bool)} (h : bindUnits sps id cls = .ok r) : ∀ u ∈ r.2, ∀ t ∈ u.1.cfg.givenTags, t.grammemes ⊆ r.1.known := by
  induction sps generalizing id cls r with
  | nil => simp [bindUnits] at h; subst h; simp
  | cons sp sps ih =>
    simp only [bindUnits, bind_ok_iff, pure_eq_ok, Except.ok.injEq] at h
    obtain ⟨r1, h1, r2, h2, rfl⟩ := h
    intro u hu
    rcases List.mem_cons.1 hu with rfl | hu
    · have hk := bindUnits_known h2
      exact fun t ht => (bind_given h1 t ht).trans hk
    · exact ih h2 u hu

theorem mkMorph_given {env : Env} {dict : Dict} {cls : TagCls} {sub : Subst} {items : List (List (UnitSpec S))} {est : Option (List (Str × Nat))} {m : Morph S}
    (h : mkMorph env dict cls sub items est = .ok m) :
    cls.known ⊆ m.cls.known ∧ ∀ u ∈ m.units, ∀ t ∈ u.1.cfg.givenTags, t.grammemes ⊆ m.cls.known := by
  simp only [mkMorph, initUnits, bind_ok_iff, pure_eq_ok, Except.ok.injEq] at h
  obtain ⟨r, ⟨flat, _, hr⟩, rfl⟩ := h
  exact ⟨bindUnits_known hr, bindUnits_given hr⟩

/-- **C95, grammemes.** However an analyzer was constructed (any folder, any arguments, any units), every grammeme of the tag of every result and of every object
obtained from results is known to the tag class of the analyzer: `'g' in tag` answers for it, it can be asked for in `inflect`, and `TagClass(str(tag))` is
the tag again. -/
theorem c95_known (s : Sys) (cls : TagCls) (a : MorphArgs S) (x : Analyzer S) (hx : construct s cls a = .ok x) (hlow : x.morph.env.LowerStable)
    (w : Str) (ps : List (Parse S)) (h : x.morph.parse w = .ok ps) (p0 : Parse S) (hp : p0 ∈ ps) (sim : Sim) (p : Parse S)
    (hob : Obtained x.morph sim p0 p) :
    (∀ g ∈ p.tag.grammemes, g ∈ x.morph.cls.known) ∧ x.morph.cls.mkTag p.tag.str = .ok p.tag := by
  obtain ⟨path, r, dl, est, m, _, h2, _, _, h5, rfl⟩ := construct_ok hx
  have hgram : ∀ t ∈ r.2.2.gramtab, t.grammemes ⊆ r.2.1.known := by
    unfold loadDict at h2
    simp only [bind_ok_iff, pure_eq_ok, Except.ok.injEq] at h2
    obtain ⟨_, _, _, _, _, _, _, _, _, _, gt, hgt, _, _, _, _, _, _, _, _, _, _, _, _, _, _, rfl⟩ := h2
    intro t ht
    obtain ⟨s, _, hs⟩ := mapE_mem hgt ht
    exact mkTag_known hs
  obtain ⟨g1, g2⟩ := mkMorph_given h5
  have hd : m.dict = r.2.2 := (mkMorph_units h5).2.1
  obtain ⟨k, _⟩ := obtained_in m hlow (fun t => t.grammemes ⊆ m.cls.known) (fun t ht => (hgram t (by rw [← hd]; exact ht)).trans g1) g2 w ps h p0 hp sim p hob
  refine ⟨fun g hg => k hg, ?_⟩
  unfold TagCls.mkTag TagCls.assertKnown
  rw [if_pos (by exact k)]
  rfl

/-! ### Non-vacuity -/

/-- Every tag of the list does appear (in the Russian analyzer of the examples), `ADVB` too. -/
example : ∀ t ∈ c!"ADVB" :: nonDictionaryTags, t ∈ [c!",", c!"hello", c!"XIV", c!"12", c!"1.5", c!"по-белому", c!"В", c!"ъъ"].flatMap fun w =>
    ((Demo.morph.parse w).toOption.getD []).map fun p => p.tag.str := by decide +kernel

/-- The Ukrainian analyzer has no rule for such adverbs: the answer for the same word is another one. -/
example : ∃ ps, Demo.morphUk.parse (c!"по-белому") = .ok ps ∧ ps ≠ [] ∧ ∀ p ∈ ps, PossibleTag Demo.morphUk p.tag ∧ p.tag.str ≠ c!"ADVB" := by
  obtain ⟨ps, hps, hk⟩ := ok_of_any (Demo.morphUk.parse (c!"по-белому")) (fun ps => decide (ps ≠ [] ∧ ∀ p ∈ ps, p.tag.str ≠ c!"ADVB")) (by decide +kernel)
  have hk := of_decide_eq_true hk
  exact ⟨ps, hps, hk.1, fun p hp => ⟨c95_possible Demo.morphUk (.inr Demo.morphUk_isUk) demoEnv_lowerStable _ ps hps p hp Sim.exact p .start, hk.2 p hp⟩⟩

/-- An analyzer constructed from a folder: its answers for an initial and for a dictionary word have known grammemes only. -/
example : ∃ x : Analyzer Rat, construct Demo.sys TagCls.initial {} = .ok x ∧ ∃ ps, x.morph.parse (c!"В") = .ok ps ∧ 24 ≤ ps.length ∧
    ∀ p ∈ ps, x.morph.cls.mkTag p.tag.str = .ok p.tag := by
  have hc : (construct (S := Rat) Demo.sys TagCls.initial {}).toOption.any (fun x => ((x.morph.parse (c!"В")).toOption.any fun ps => decide (24 ≤ ps.length))) = true := by
    decide +kernel
  cases hx : construct (S := Rat) Demo.sys TagCls.initial {} with
  | error e => rw [hx] at hc; simp [Except.toOption] at hc
  | ok x =>
    rw [hx] at hc
    cases hp : x.morph.parse (c!"В") with
    | error e => simp [Except.toOption, hp] at hc
    | ok ps =>
      simp only [Except.toOption, Option.any_some, hp, decide_eq_true_eq] at hc
      have hlow : x.morph.env.LowerStable := by
        obtain ⟨path, r, dl, est, m, _, _, _, _, h5, rfl⟩ := construct_ok hx
        rw [(mkMorph_units h5).1]
        exact demoEnv_lowerStable
      exact ⟨x, rfl, ps, hp, hc, fun p hpm => (c95_known Demo.sys _ _ x hx hlow _ ps hp p hpm Sim.exact p .start).2⟩

end Verif
