/-
C21 — initials.
-/
import Verif.Props.C06
import Verif.Lemmas.Outer

set_option linter.unusedSectionVars false

namespace Verif

variable {S : Type} [Score S]

/-- The analysis says "first-name initial". -/
def Parse.isFirstName (p : Parse S) : Bool := p.outer.any fun o => match o.kind with | .firstName _ _ => true | _ => false
/-- The analysis says "patronymic initial". -/
def Parse.isPatronymic (p : Parse S) : Bool := p.outer.any fun o => match o.kind with | .patronymic _ => true | _ => false

/-- The tag of a first-name initial of a gender and case. -/
def firstNameTag (g c : Str) : Tag := ⟨c!"NOUN,anim," ++ g ++ c!",Sgtm,Name,Fixd,Abbr,Init sing," ++ c⟩
/-- The tag of a patronymic initial of a gender and case. -/
def patronymicTag (g c : Str) : Tag := ⟨c!"NOUN,anim," ++ g ++ c!",Sgtm,Patr,Fixd,Abbr,Init sing," ++ c⟩

/-- The six cases, nominative first. -/
def sixCases : List Str := [c!"nomn", c!"gent", c!"datv", c!"accs", c!"ablt", c!"loct"]

/-- The masculine forms followed by the feminine forms. -/
def twelve (tag : Str → Str → Tag) : List Tag := sixCases.map (tag (c!"masc")) ++ sixCases.map (tag (c!"femn"))

theorem firstName_bound (letters : List Str) (score : S) :
    (UnitSpec.firstName letters firstNamePattern score).bound =
      .firstName letters (sixCases.map (firstNameTag (c!"masc"))) (sixCases.map (firstNameTag (c!"femn"))) score := by
  have h1 : ((GENDERS2.flatMap fun g => CASES6.map fun c => Tag.mk (firstNamePattern g c)).filter
      fun t => decide (c!"masc" ∈ t.grammemes)) = sixCases.map (firstNameTag (c!"masc")) := by decide +kernel
  have h2 : ((GENDERS2.flatMap fun g => CASES6.map fun c => Tag.mk (firstNamePattern g c)).filter
      fun t => decide (c!"femn" ∈ t.grammemes)) = sixCases.map (firstNameTag (c!"femn")) := by decide +kernel
  simp only [UnitSpec.bound, h1, h2]

theorem patronymic_bound (letters : List Str) (score : S) :
    (UnitSpec.patronymic letters patronymicPattern score).bound = .patronymic letters (twelve patronymicTag) score := by
  have h1 : (GENDERS2.flatMap fun g => CASES6.map fun c => Tag.mk (patronymicPattern g c)) = twelve patronymicTag := by
    decide +kernel
  simp only [UnitSpec.bound, h1]

/-- The letters an analyzer takes for initials. -/
def Morph.initialLetters (m : Morph S) (letters : List Str) : Prop :=
  (IsRu m ∧ letters = ruInitialLetters) ∨ (IsUk m ∧ letters = ukInitialLetters)

theorem filter_of_kind (m : Morph S) (rec : Rec S) (u : BUnit S) (word wl : Str) (seen : Seen)
    (r : List (Parse S) × Seen) (h : unitParse m rec u word wl seen = .ok r) (f : Parse S → Bool)
    (hf : ∀ p : Parse S, p.outer = some u.obj → f p = false) : r.1.filter f = [] := by
  rw [List.filter_eq_nil_iff]
  intro p hp
  rw [hf p (unitParse_outer _ _ _ _ _ _ _ h p hp)]; simp

/-- The raw results of the first group for an initial letter. -/
theorem initials_group (m : Morph S) (rec : Rec S) (w wl : Str) (letters : List Str) (score score' : S)
    (rest : List (BUnit S)) (hrest : ∀ u ∈ rest, u.cfg.kind = .shape) (hw : w ∈ letters) (r0 : List (Parse S))
    (h : groupParse m rec w wl (⟨0, .dictionary⟩ ::
      ⟨1, (UnitSpec.firstName letters firstNamePattern score).bound⟩ ::
      ⟨2, (UnitSpec.patronymic letters patronymicPattern score').bound⟩ :: rest) [] = .ok r0) :
    r0.filter Parse.isFirstName = (twelve firstNameTag).map (fun t => ⟨wl, t, wl, score, .single (.simple
      ⟨2, .firstName (sixCases.map (firstNameTag (c!"masc"))) (sixCases.map (firstNameTag (c!"femn")))⟩ w)⟩) ∧
    r0.filter Parse.isPatronymic = (twelve patronymicTag).map (fun t => ⟨wl, t, wl, score', .single (.simple
      ⟨4, .patronymic (twelve patronymicTag)⟩ w)⟩) := by
  rw [firstName_bound, patronymic_bound] at h
  rw [groupParse, bind_ok_iff] at h
  obtain ⟨rd, hd, h⟩ := h
  simp only [groupParse, bind_ok_iff, pure_eq_ok, Except.ok.injEq] at h
  obtain ⟨_, ⟨rf, hf, _, ⟨rp, hp, rr, hr, rfl⟩, rfl⟩, rfl⟩ := h
  have d1 := filter_of_kind _ _ _ _ _ _ _ hd Parse.isFirstName
    (fun p hp => by simp [Parse.isFirstName, hp, BUnit.obj, UnitCfg.kind])
  have d2 := filter_of_kind _ _ _ _ _ _ _ hd Parse.isPatronymic
    (fun p hp => by simp [Parse.isPatronymic, hp, BUnit.obj, UnitCfg.kind])
  have r1 : rr.filter Parse.isFirstName = [] ∧ rr.filter Parse.isPatronymic = [] := by
    simp only [List.filter_eq_nil_iff]
    constructor <;>
    · intro p hp
      obtain ⟨u, hu, s, r, hur, hpr⟩ := groupParse_mem _ _ _ _ _ _ _ hr p hp
      have ho := unitParse_outer _ _ _ _ _ _ _ hur p hpr
      simp [Parse.isFirstName, Parse.isPatronymic, ho, BUnit.obj, hrest u hu]
  simp only [unitParse, Except.ok.injEq] at hf hp
  subst hf hp
  simp only [initialsParse, if_pos hw, List.filter_append, d1, d2, r1, List.nil_append, List.append_nil,
    List.filter_map]
  constructor
  · have a1 : ∀ (l : List Tag) (s : S), l.filter (Parse.isFirstName ∘ fun t => (⟨wl, t, wl, s, .single (.simple
      ⟨2 * 2, .patronymic (twelve patronymicTag)⟩ w)⟩ : Parse S)) = [] := by
      intro l s; simp [Parse.isFirstName, Parse.outer, Stack.single, Method.obj, Function.comp_def]
    have a2 : ∀ (l : List Tag) (s : S) (a b : List Tag), l.filter (Parse.isFirstName ∘ fun t => (⟨wl, t, wl, s, .single (.simple
      ⟨2 * 1, .firstName a b⟩ w)⟩ : Parse S)) = l := by
      intro l s a b; simp [Parse.isFirstName, Parse.outer, Stack.single, Method.obj, Function.comp_def]
    simp only [BUnit.obj, UnitCfg.kind, a1, a2, List.map_nil, List.append_nil]
    rfl
  · have a1 : ∀ (l : List Tag) (s : S), l.filter (Parse.isPatronymic ∘ fun t => (⟨wl, t, wl, s, .single (.simple
      ⟨2 * 2, .patronymic (twelve patronymicTag)⟩ w)⟩ : Parse S)) = l := by
      intro l s; simp [Parse.isPatronymic, Parse.outer, Stack.single, Method.obj, Function.comp_def]
    have a2 : ∀ (l : List Tag) (s : S) (a b : List Tag), l.filter (Parse.isPatronymic ∘ fun t => (⟨wl, t, wl, s, .single (.simple
      ⟨2 * 1, .firstName a b⟩ w)⟩ : Parse S)) = [] := by
      intro l s a b; simp [Parse.isPatronymic, Parse.outer, Stack.single, Method.obj, Function.comp_def]
    simp only [BUnit.obj, UnitCfg.kind, a1, a2, List.map_nil, List.nil_append]
    rfl

/-- Cores of the first-name and patronymic results of `parse`. -/
def InitCores (wl w : Str) (ps : List (Parse S)) : Prop :=
    ((ps.filter Parse.isFirstName).map Parse.core).Perm ((twelve firstNameTag).map fun t =>
      (wl, t, wl, .single (.simple
        ⟨2, .firstName (sixCases.map (firstNameTag (c!"masc"))) (sixCases.map (firstNameTag (c!"femn")))⟩ w))) ∧
    ((ps.filter Parse.isPatronymic).map Parse.core).Perm ((twelve patronymicTag).map fun t =>
      (wl, t, wl, .single (.simple ⟨4, .patronymic (twelve patronymicTag)⟩ w)))

theorem initials_cores (m : Morph S) (letters : List Str) (hm : m.initialLetters letters) (w : Str) (hw : w ∈ letters)
    (ps : List (Parse S)) (h : m.parse w = .ok ps) : InitCores (m.env.lower w) w ps := by
  have hfilt : ∀ (f : Parse S → Bool) (g : Str × Tag × Str × Stack → Bool) (hfg : ∀ p, f p = g p.core)
      (a b : List (Parse S)), (a.map Parse.core).Perm (b.map Parse.core) →
      ((a.filter f).map Parse.core).Perm ((b.filter f).map Parse.core) := by
    intro f g hfg a b hab
    have : ∀ l : List (Parse S), (l.filter f).map Parse.core = (l.map Parse.core).filter g := by
      intro l; rw [List.filter_map]; congr 1
      exact List.filter_congr fun p _ => hfg p
    rw [this, this]; exact hab.filter _
  have key : ∀ r0 : List (Parse S), (r0.filter Parse.isFirstName ≠ [] → (ps.map Parse.core).Perm (r0.map Parse.core)) →
      ∀ score score' : S, r0.filter Parse.isFirstName = (twelve firstNameTag).map (fun t => ⟨m.env.lower w, t, m.env.lower w, score, .single (.simple
      ⟨2, .firstName (sixCases.map (firstNameTag (c!"masc"))) (sixCases.map (firstNameTag (c!"femn")))⟩ w)⟩) ∧
    r0.filter Parse.isPatronymic = (twelve patronymicTag).map (fun t => ⟨m.env.lower w, t, m.env.lower w, score', .single (.simple
      ⟨4, .patronymic (twelve patronymicTag)⟩ w)⟩) → InitCores (m.env.lower w) w ps := by
    intro r0 hperm score score' ⟨e1, e2⟩
    have hperm := hperm (by rw [e1]; simp [twelve, sixCases])
    have p1 := hfilt Parse.isFirstName
      (fun c => match c.2.2.2 with | .nil => false | .push _ m => match m.obj.kind with | .firstName _ _ => true | _ => false)
      (by intro p; unfold Parse.isFirstName Parse.outer Parse.core; cases p.stack <;> rfl) _ _ hperm
    have p2 := hfilt Parse.isPatronymic
      (fun c => match c.2.2.2 with | .nil => false | .push _ m => match m.obj.kind with | .patronymic _ => true | _ => false)
      (by intro p; unfold Parse.isPatronymic Parse.outer Parse.core; cases p.stack <;> rfl) _ _ hperm
    rw [e1, List.map_map] at p1
    rw [e2, List.map_map] at p2
    exact ⟨p1, p2⟩
  rcases hm with ⟨⟨cls, hm⟩, rfl⟩ | ⟨⟨cls, hm⟩, rfl⟩
  · unfold ruUnits at hm
    obtain ⟨r0, hr0, hperm⟩ := parse_of_first_group _ _ _ _ _ _ _ m hm w ps h
    simp only [List.mapIdx_cons, List.mapIdx_nil] at hr0
    refine key r0 (fun hne => hperm (by rintro rfl; simp at hne)) _ _ (initials_group m _ w _ ruInitialLetters _ _ [] ?_ hw r0 hr0)
    simp
  · unfold ukUnits at hm
    obtain ⟨r0, hr0, hperm⟩ := parse_of_first_group _ _ _ _ _ _ _ m hm w ps h
    simp only [List.mapIdx_cons, List.mapIdx_nil] at hr0
    refine key r0 (fun hne => hperm (by rintro rfl; simp at hne)) _ _ (initials_group m _ w _ ukInitialLetters _ _ _ ?_ hw r0 hr0)
    simp [UnitSpec.bound, UnitCfg.kind]

/-- C21: for a letter of the configured alphabet `parse` gives, besides possible dictionary analyses, 12 first-name and 12
patronymic analyses: two genders times six cases; word and normal form are the lower-cased letter. -/
theorem c21_analyses (m : Morph S) (letters : List Str) (hm : m.initialLetters letters) (w : Str) (hw : w ∈ letters)
    (ps : List (Parse S)) (h : m.parse w = .ok ps) :
    ((ps.filter Parse.isFirstName).map Parse.tag).Perm (twelve firstNameTag) ∧
    ((ps.filter Parse.isPatronymic).map Parse.tag).Perm (twelve patronymicTag) ∧
    ∀ p ∈ ps, p.isFirstName = true ∨ p.isPatronymic = true → p.word = m.env.lower w ∧ p.nf = m.env.lower w := by
  obtain ⟨h1, h2⟩ := initials_cores m letters hm w hw ps h
  refine ⟨?_, ?_, ?_⟩
  · have := h1.map (fun c => c.2.1)
    rw [List.map_map, List.map_map] at this
    rw [show (twelve firstNameTag) = (twelve firstNameTag).map id by simp]
    exact this
  · have := h2.map (fun c => c.2.1)
    rw [List.map_map, List.map_map] at this
    rw [show (twelve patronymicTag) = (twelve patronymicTag).map id by simp]
    exact this
  · intro p hp hk
    rcases hk with hk | hk
    · have := h1.mem_iff.1 (List.mem_map.2 ⟨p, List.mem_filter.2 ⟨hp, hk⟩, rfl⟩)
      obtain ⟨t, _, e⟩ := List.mem_map.1 this
      simp only [Parse.core, Prod.mk.injEq] at e
      exact ⟨e.1.symm, e.2.2.1.symm⟩
    · have := h2.mem_iff.1 (List.mem_map.2 ⟨p, List.mem_filter.2 ⟨hp, hk⟩, rfl⟩)
      obtain ⟨t, _, e⟩ := List.mem_map.1 this
      simp only [Parse.core, Prod.mk.injEq] at e
      exact ⟨e.1.symm, e.2.2.1.symm⟩

/-! ### The tag class knows `masc` -/

theorem addKnown_sub (c : TagCls) (a b : Str) (o : Bool) : c.known ⊆ (c.addKnown a b o).known := by
  unfold TagCls.addKnown; split
  · exact Finset.Subset.refl _
  · exact Finset.subset_insert _ _

theorem mkTag_known {c : TagCls} {s : Str} {t : Tag} (h : c.mkTag s = .ok t) : t.grammemes ⊆ c.known := by
  have ht := mkTag_ok h
  subst ht
  simp only [TagCls.mkTag, bind_ok_iff] at h
  obtain ⟨_, h, _⟩ := h
  unfold TagCls.assertKnown at h
  split at h
  · assumption
  · simp [TagCls.assertInit] at h; split at h <;> simp at h

theorem bind_known {sp : UnitSpec S} {id : Nat} {cls : TagCls} {r : TagCls × BUnit S} (h : sp.bind id cls = .ok r) :
    cls.known ⊆ r.1.known := by
  cases sp <;> simp only [UnitSpec.bind, bind_ok_iff, pure_eq_ok, Except.ok.injEq] at h
  case dictionary | particle | hyphenated | knownPrefix | unknownPrefix | knownSuffix => subst h; exact Finset.Subset.refl _
  case firstName =>
    obtain ⟨t1, _, t2, _, t3, _, h⟩ := h
    split at h
    · simp only [Except.ok.injEq] at h; subst h
      exact (addKnown_sub _ _ _ _).trans (addKnown_sub _ _ _ _)
    · simp at h
  case patronymic =>
    obtain ⟨t1, _, rfl⟩ := h
    exact (addKnown_sub _ _ _ _).trans (addKnown_sub _ _ _ _)
  case number =>
    obtain ⟨t1, _, t2, _, rfl⟩ := h
    exact ((addKnown_sub _ _ _ _).trans (addKnown_sub _ _ _ _)).trans (addKnown_sub _ _ _ _)
  case punct | latin | roman | unkn =>
    obtain ⟨t1, _, rfl⟩ := h
    exact addKnown_sub _ _ _ _
  case adverb =>
    obtain ⟨t1, _, rfl⟩ := h
    exact Finset.Subset.refl _

theorem bindUnits_known {sps : List (UnitSpec S × Bool)} {id : Nat} {cls : TagCls}
    {r : TagCls × List (BUnit S × Bool)} (h : bindUnits sps id cls = .ok r) : cls.known ⊆ r.1.known := by
  induction sps generalizing id cls r with
  | nil => simp [bindUnits] at h; subst h; exact Finset.Subset.refl _
  | cons sp sps ih =>
    simp only [bindUnits, bind_ok_iff, pure_eq_ok, Except.ok.injEq] at h
    obtain ⟨r1, h1, r2, h2, rfl⟩ := h
    have := ih h2
    exact (bind_known h1).trans this

theorem firstName_known {letters : List Str} {score : S} {id : Nat} {cls : TagCls} {r : TagCls × BUnit S}
    (h : (UnitSpec.firstName letters firstNamePattern score).bind id cls = .ok r) : c!"masc" ∈ r.1.known := by
  simp only [UnitSpec.bind, bind_ok_iff, pure_eq_ok] at h
  obtain ⟨t1, h1, t2, _, t3, _, h⟩ := h
  split at h
  · simp only [Except.ok.injEq] at h; subst h
    unfold genderCaseTags at h1
    obtain ⟨t, _, ht⟩ := mapE_mem' h1 (show firstNamePattern (c!"masc") (c!"nomn") ∈ _ by
      exact List.mem_flatMap.2 ⟨c!"masc", by simp [GENDERS2], List.mem_map.2 ⟨c!"nomn", by simp [CASES6], rfl⟩⟩)
    have e := mkTag_ok ht
    have k := mkTag_known ht
    subst e
    exact k (by decide +kernel)
  · simp at h

theorem masc_known (m : Morph S) (hm : IsRu m ∨ IsUk m) : c!"masc" ∈ m.cls.known := by
  have key : ∀ (items : List (List (UnitSpec S))) (letters : List Str) (sc : S) (d : UnitSpec S) (rest : List (UnitSpec S))
      (cls : TagCls), rest ≠ [] →
      mkMorph m.env m.dict cls m.sub ((d :: .firstName letters firstNamePattern sc :: rest) :: items) m.est = .ok m →
      c!"masc" ∈ m.cls.known := by
    intro items letters sc d rest cls hrest h
    simp only [mkMorph, initUnits, bind_ok_iff, pure_eq_ok, Except.ok.injEq, mapE] at h
    obtain ⟨r, ⟨_, ⟨f0, hf0, fs, _, rfl⟩, hr⟩, hmm⟩ := h
    have hc : m.cls = r.1 := by rw [← hmm]
    rw [hc]
    have hf0' : ∃ l, f0 = (d, false) :: (.firstName letters firstNamePattern sc, false) :: l := by
      unfold flattenItem at hf0
      obtain ⟨init, last, hil⟩ : ∃ init last, rest = init ++ [last] := by
        rcases List.eq_nil_or_concat rest with h | ⟨a, b, h⟩
        · exact absurd h hrest
        · exact ⟨a, b, by simpa using h⟩
      subst hil
      rw [show d :: UnitSpec.firstName letters firstNamePattern sc :: (init ++ [last]) =
        (d :: UnitSpec.firstName letters firstNamePattern sc :: init) ++ [last] by simp] at hf0
      rw [List.getLast?_concat, List.dropLast_concat] at hf0
      simp at hf0
      exact ⟨_, hf0.symm⟩
    obtain ⟨l, rfl⟩ := hf0'
    simp only [List.flatten_cons, List.cons_append, bindUnits, bind_ok_iff, pure_eq_ok, Except.ok.injEq] at hr
    obtain ⟨r1, _, _, ⟨r2, h2, r3, h3, rfl⟩, rfl⟩ := hr
    exact bindUnits_known h3 (firstName_known h2)
  rcases hm with ⟨cls, hm⟩ | ⟨cls, hm⟩
  · exact key _ _ _ _ _ cls (by simp) hm
  · exact key _ _ _ _ _ cls (by simp) hm

theorem mem_twelve (tag : Str → Str → Tag) (t : Tag) :
    t ∈ twelve tag ↔ ∃ g c, (g = c!"masc" ∨ g = c!"femn") ∧ c ∈ sixCases ∧ t = tag g c := by
  simp only [twelve, List.mem_append, List.mem_map]
  constructor
  · rintro (⟨c, hc, rfl⟩ | ⟨c, hc, rfl⟩)
    · exact ⟨_, c, .inl rfl, hc, rfl⟩
    · exact ⟨_, c, .inr rfl, hc, rfl⟩
  · rintro ⟨g, c, rfl | rfl, hc, rfl⟩
    · exact .inl ⟨c, hc, rfl⟩
    · exact .inr ⟨c, hc, rfl⟩

theorem firstName_gender : ∀ c ∈ sixCases, c!"masc" ∈ (firstNameTag (c!"masc") c).grammemes ∧
    c!"masc" ∉ (firstNameTag (c!"femn") c).grammemes := by decide +kernel

/-- C21: the lexeme of a first-name analysis has the six case forms of its own gender (so the analysis itself is in it) and
normalizes to the nominative of the same gender. -/
theorem c21_first_name (m : Morph S) (letters : List Str) (hm : m.initialLetters letters) (w : Str) (hw : w ∈ letters)
    (ps : List (Parse S)) (h : m.parse w = .ok ps) (p : Parse S) (hp : p ∈ ps) (hk : p.isFirstName = true) :
    ∃ g c, (g = c!"masc" ∨ g = c!"femn") ∧ c ∈ sixCases ∧ p.tag = firstNameTag g c ∧
      m.lexeme p = .ok (sixCases.map fun c => { p with tag := firstNameTag g c }) ∧
      m.normalized p = .ok { p with tag := firstNameTag g (c!"nomn") } ∧
      p ∈ sixCases.map fun c => { p with tag := firstNameTag g c } := by
  obtain ⟨h1, _⟩ := initials_cores m letters hm w hw ps h
  have := h1.mem_iff.1 (List.mem_map.2 ⟨p, List.mem_filter.2 ⟨hp, hk⟩, rfl⟩)
  obtain ⟨t, ht, e⟩ := List.mem_map.1 this
  simp only [Parse.core, Prod.mk.injEq] at e
  obtain ⟨e1, e2, e3, e4⟩ := e
  obtain ⟨g, c, hg, hc, rfl⟩ := (mem_twelve _ _).1 ht
  have hmk := masc_known m (by rcases hm with ⟨h, _⟩ | ⟨h, _⟩; exacts [.inl h, .inr h])
  have hgt : genderTags m.cls (sixCases.map (firstNameTag (c!"masc"))) (sixCases.map (firstNameTag (c!"femn"))) p.tag =
      .ok (sixCases.map (firstNameTag g)) := by
    unfold genderTags TagCls.contains TagCls.isKnown TagCls.assertInit
    rw [← e2]
    rcases hg with rfl | rfl
    · rw [if_pos (firstName_gender c hc).1]; simp
    · rw [if_neg (firstName_gender c hc).2, if_neg (Finset.ne_empty_of_mem hmk)]
      simp [hmk]
  refine ⟨g, c, hg, hc, e2.symm, ?_, ?_, ?_⟩
  · unfold Morph.lexeme
    rw [← e4]
    simp only [Stack.single, lexemeOf, hgt, ok_bind, List.map_map, pure_eq_ok]
    congr 1
  · unfold Morph.normalized
    rw [← e4]
    simp only [Stack.single, normalizedOf, hgt, ok_bind, pure_eq_ok]
    have : pyGet (sixCases.map (firstNameTag g)) 0 = .ok (firstNameTag g (c!"nomn")) := rfl
    rw [this]
    obtain ⟨a1, a2, a3, a4, a5⟩ := p
    subst e4
    rfl
  · refine List.mem_map.2 ⟨c, hc, ?_⟩
    obtain ⟨a1, a2, a3, a4, a5⟩ := p
    simp_all

/-- C21: the lexeme of a patronymic analysis has all 12 forms (both genders) and normalizes to the masculine nominative. -/
theorem c21_patronymic (m : Morph S) (letters : List Str) (hm : m.initialLetters letters) (w : Str) (hw : w ∈ letters)
    (ps : List (Parse S)) (h : m.parse w = .ok ps) (p : Parse S) (hp : p ∈ ps) (hk : p.isPatronymic = true) :
    p.tag ∈ twelve patronymicTag ∧
      m.lexeme p = .ok ((twelve patronymicTag).map fun t => { p with tag := t }) ∧
      m.normalized p = .ok { p with tag := patronymicTag (c!"masc") (c!"nomn") } ∧
      p ∈ (twelve patronymicTag).map fun t => { p with tag := t } := by
  obtain ⟨_, h1⟩ := initials_cores m letters hm w hw ps h
  have := h1.mem_iff.1 (List.mem_map.2 ⟨p, List.mem_filter.2 ⟨hp, hk⟩, rfl⟩)
  obtain ⟨t, ht, e⟩ := List.mem_map.1 this
  simp only [Parse.core, Prod.mk.injEq] at e
  obtain ⟨e1, e2, e3, e4⟩ := e
  refine ⟨by rw [← e2]; exact ht, ?_, ?_, ?_⟩
  · unfold Morph.lexeme
    rw [← e4]
    simp only [Stack.single, lexemeOf]
  · unfold Morph.normalized
    rw [← e4]
    simp only [Stack.single, normalizedOf]
    have : pyGet (twelve patronymicTag) 0 = .ok (patronymicTag (c!"masc") (c!"nomn")) := rfl
    rw [this]
    obtain ⟨a1, a2, a3, a4, a5⟩ := p
    subst e4
    rfl
  · refine List.mem_map.2 ⟨t, ht, ?_⟩
    obtain ⟨a1, a2, a3, a4, a5⟩ := p
    simp_all

/-! Non-vacuity (tests). -/
example : Demo.morph.initialLetters ruInitialLetters := .inl ⟨Demo.morph_isRu, rfl⟩
example : c!"Ж" ∈ ruInitialLetters := by decide
example : (Demo.morph.parse (c!"Ж")).toOption.map List.length = some 24 := by decide +kernel
example : (Demo.morph.parse (c!"ж")).toOption.map (·.map Parse.isFirstName) = some [false] := by decide +kernel

end Verif
