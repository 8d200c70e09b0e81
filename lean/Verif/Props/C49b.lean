/-
C49 — which dictionaries the default analyzers can be constructed on.
-/
import Verif.Props.C49

set_option linter.unusedSectionVars false

namespace Verif

variable {S : Type} [Score S]

theorem mkTag_ok_iff (c : TagCls) (s : Str) : (∃ t, c.mkTag s = .ok t) ↔ ∀ g ∈ splitTag s, g ∈ c.known := by
  unfold TagCls.mkTag TagCls.assertKnown
  constructor
  · rintro ⟨t, h⟩
    split at h
    · next hs => exact fun g hg => hs (by simpa using hg)
    · unfold TagCls.assertInit at h; split at h <;> cases h
  · intro h
    rw [if_pos (by intro g hg; exact h g (by simpa using hg))]
    exact ⟨_, rfl⟩

theorem mkTag_mono {c c' : TagCls} (h : c.known ⊆ c'.known) {s : Str} {t : Tag} (ht : c.mkTag s = .ok t) : c'.mkTag s = .ok t := by
  obtain ⟨t', ht'⟩ := (mkTag_ok_iff c' s).2 fun g hg => h ((mkTag_ok_iff c s).1 ⟨t, ht⟩ g hg)
  rw [ht', mkTag_ok ht, mkTag_ok ht']

theorem addKnown_known (c : TagCls) (lat cyr : Str) (b : Bool) : (c.addKnown lat cyr b).known = insert lat c.known := by
  unfold TagCls.addKnown
  split
  · next h =>
    have : lat ∈ c.known := by simp at h; exact h.2
    exact (Finset.insert_eq_of_mem this).symm
  · rfl

theorem addKnown_mono {c c' : TagCls} (h : c.known ⊆ c'.known) (lat cyr : Str) (b : Bool) :
    (c.addKnown lat cyr b).known ⊆ (c'.addKnown lat cyr b).known := by
  rw [addKnown_known, addKnown_known]; exact Finset.insert_subset_insert _ h

theorem contains_mono {c c' : TagCls} (h : c.known ⊆ c'.known) {t : Tag} {g : Str} {b : Bool} (hb : c.contains t g = .ok b) :
    c'.contains t g = .ok b := by
  unfold TagCls.contains TagCls.isKnown TagCls.assertInit at *
  split at hb
  · next hm => rw [if_pos hm]; exact hb
  · next hm =>
    rw [if_neg hm]
    by_cases hk : g ∈ c.known
    · have hc : c.known ≠ ∅ := by rintro h; rw [h] at hk; simp at hk
      have hc' : c'.known ≠ ∅ := by rintro h'; have := h hk; rw [h'] at this; simp at this
      rw [if_neg hc] at hb
      rw [if_neg hc']
      simp only [hk, h hk, decide_true] at hb ⊢
      exact hb
    · split at hb
      · cases hb
      · simp only [hk, decide_false] at hb; cases hb

theorem mapE_mono {α β : Type} {f g : α → Except PyErr β} {l : List α} {r : List β} (h : mapE f l = .ok r)
    (hfg : ∀ a b, f a = .ok b → g a = .ok b) : mapE g l = .ok r :=
  (mapE_ok_iff _ _ _).2 (((mapE_ok_iff _ _ _).1 h).imp fun _ _ => hfg _ _)

theorem filterE_mono {α : Type} {f g : α → Except PyErr Bool} (hfg : ∀ a b, f a = .ok b → g a = .ok b) (l r : List α) (h : filterE f l = .ok r) :
    filterE g l = .ok r := by
  induction l generalizing r with
  | nil => exact h
  | cons a l ih =>
    simp only [filterE, bind_ok_iff, pure_eq_ok, Except.ok.injEq] at h ⊢
    obtain ⟨b, hb, r', hr', rfl⟩ := h
    exact ⟨b, hfg _ _ hb, r', ih _ hr', rfl⟩

/-- More known grammemes do no harm. -/
theorem bind_mono {sp : UnitSpec S} {id : Nat} {c c' : TagCls} (h : c.known ⊆ c'.known) {r : TagCls × BUnit S} (hr : sp.bind id c = .ok r) :
    ∃ r', sp.bind id c' = .ok r' ∧ r.1.known ⊆ r'.1.known := by
  cases sp <;> simp only [UnitSpec.bind, bind_ok_iff, pure_eq_ok, Except.ok.injEq] at hr ⊢
  case firstName letters p score =>
    obtain ⟨ts, hts, masc, hm, femn, hf, hr⟩ := hr
    have hk := addKnown_mono (addKnown_mono h (c!"Init") (c!"иниц") false) (c!"Name") (c!"имя") false
    split at hr
    · next hq =>
      cases hr
      exact ⟨_, ⟨ts, mapE_mono hts fun a b => mkTag_mono hk, masc, filterE_mono (fun a b => contains_mono hk) _ _ hm, femn,
        filterE_mono (fun a b => contains_mono hk) _ _ hf, if_pos hq⟩, hk⟩
    · cases hr
  case patronymic letters p score =>
    obtain ⟨ts, hts, rfl⟩ := hr
    have hk := addKnown_mono (addKnown_mono h (c!"Init") (c!"иниц") false) (c!"Patr") (c!"отч") false
    exact ⟨_, ⟨ts, mapE_mono hts fun a b => mkTag_mono hk, rfl⟩, hk⟩
  case number =>
    obtain ⟨t1, h1, t2, h2, rfl⟩ := hr
    have hk := addKnown_mono (addKnown_mono (addKnown_mono h (c!"NUMB") (c!"ЧИСЛО") true) (c!"intg") (c!"цел") true) (c!"real") (c!"вещ") true
    exact ⟨_, ⟨t1, mkTag_mono hk h1, t2, mkTag_mono hk h2, rfl⟩, hk⟩
  case punct | latin | roman | unkn =>
    obtain ⟨t1, h1, rfl⟩ := hr
    exact ⟨_, ⟨t1, mkTag_mono (addKnown_mono h _ _ true) h1, rfl⟩, addKnown_mono h _ _ true⟩
  case adverb =>
    obtain ⟨t1, h1, rfl⟩ := hr
    exact ⟨_, ⟨t1, mkTag_mono h h1, rfl⟩, h⟩
  all_goals exact ⟨_, rfl, by rw [← hr]; exact h⟩

theorem bindUnits_mono (sps : List (UnitSpec S × Bool)) (id : Nat) {c c' : TagCls} (h : c.known ⊆ c'.known) {r : TagCls × List (BUnit S × Bool)}
    (hr : bindUnits sps id c = .ok r) : ∃ r', bindUnits sps id c' = .ok r' := by
  induction sps generalizing id c c' r with
  | nil => exact ⟨_, rfl⟩
  | cons sp sps ih =>
    obtain ⟨sp, t⟩ := sp
    simp only [bindUnits, bind_ok_iff, pure_eq_ok, Except.ok.injEq] at hr ⊢
    obtain ⟨r1, h1, r2, h2, rfl⟩ := hr
    obtain ⟨r1', h1', hk⟩ := bind_mono h h1
    obtain ⟨r2', h2'⟩ := ih (id + 1) hk h2
    exact ⟨_, r1', h1', r2', h2', rfl⟩

theorem initUnits_mono (items : List (List (UnitSpec S))) {c c' : TagCls} (h : c.known ⊆ c'.known) {r : TagCls × List (BUnit S × Bool)}
    (hr : initUnits items c = .ok r) : ∃ r', initUnits items c' = .ok r' := by
  simp only [initUnits, bind_ok_iff] at hr ⊢
  obtain ⟨flat, h1, h2⟩ := hr
  obtain ⟨r', h'⟩ := bindUnits_mono _ _ h h2
  exact ⟨r', flat, h1, h'⟩

/-- The grammemes the units for initials ask for (those they add themselves left out). -/
def initialsGrammemes : List Str :=
  [c!"NOUN", c!"anim", c!"masc", c!"femn", c!"Sgtm", c!"Fixd", c!"Abbr", c!"sing", c!"nomn", c!"gent", c!"datv", c!"accs", c!"ablt", c!"loct"]

/-- The grammemes units add to the class. -/
def addedGrammemes : List Str :=
  [c!"Init", c!"Name", c!"Patr", c!"NUMB", c!"intg", c!"real", c!"PNCT", c!"LATN", c!"ROMN", c!"UNKN"]

theorem bind_adds {sp : UnitSpec S} {id : Nat} {c : TagCls} {r : TagCls × BUnit S} (hr : sp.bind id c = .ok r) :
    ∀ g ∈ r.1.known, g ∈ c.known ∨ g ∈ addedGrammemes := by
  cases sp <;> simp only [UnitSpec.bind, bind_ok_iff, pure_eq_ok, Except.ok.injEq] at hr
  case firstName letters p score =>
    obtain ⟨ts, hts, masc, hm, femn, hf, hr⟩ := hr
    split at hr
    · cases hr
      intro g hg
      simp only [addKnown_known, Finset.mem_insert] at hg
      rcases hg with rfl | rfl | hg
      · exact .inr (by decide)
      · exact .inr (by decide)
      · exact .inl hg
    · cases hr
  case patronymic letters p score =>
    obtain ⟨ts, hts, rfl⟩ := hr
    intro g hg
    simp only [addKnown_known, Finset.mem_insert] at hg
    rcases hg with rfl | rfl | hg
    · exact .inr (by decide)
    · exact .inr (by decide)
    · exact .inl hg
  case number =>
    obtain ⟨t1, h1, t2, h2, rfl⟩ := hr
    intro g hg
    simp only [addKnown_known, Finset.mem_insert] at hg
    rcases hg with rfl | rfl | rfl | hg
    · exact .inr (by decide)
    · exact .inr (by decide)
    · exact .inr (by decide)
    · exact .inl hg
  case punct | latin | roman | unkn =>
    obtain ⟨t1, h1, rfl⟩ := hr
    intro g hg
    simp only [addKnown_known, Finset.mem_insert] at hg
    rcases hg with rfl | hg
    · exact .inr (by decide)
    · exact .inl hg
  case adverb =>
    obtain ⟨t1, h1, rfl⟩ := hr
    exact fun g hg => .inl hg
  all_goals rw [← hr]; exact fun g hg => .inl hg

/-- Every unit of the list was bound, with a class that knows nothing but the grammemes of the dictionary and the added ones. -/
theorem bindUnits_each (sps : List (UnitSpec S × Bool)) (id : Nat) {c : TagCls} {r : TagCls × List (BUnit S × Bool)}
    (hr : bindUnits sps id c = .ok r) (sp : UnitSpec S × Bool) (hsp : sp ∈ sps) :
    ∃ (c' : TagCls) (id' : Nat) (r' : TagCls × BUnit S), sp.1.bind id' c' = .ok r' ∧ ∀ g ∈ c'.known, g ∈ c.known ∨ g ∈ addedGrammemes := by
  induction sps generalizing id c r with
  | nil => simp at hsp
  | cons sp' sps ih =>
    obtain ⟨sp', t⟩ := sp'
    simp only [bindUnits, bind_ok_iff, pure_eq_ok, Except.ok.injEq] at hr
    obtain ⟨r1, h1, r2, h2, rfl⟩ := hr
    rcases List.mem_cons.1 hsp with rfl | hsp
    · exact ⟨c, id, r1, h1, fun g hg => .inl hg⟩
    · obtain ⟨c', id', r', hb, hk⟩ := ih (id + 1) h2 hsp
      refine ⟨c', id', r', hb, fun g hg => ?_⟩
      rcases hk g hg with h | h
      · exact bind_adds h1 g h
      · exact .inr h

theorem initUnits_each (items : List (List (UnitSpec S))) {c : TagCls} {r : TagCls × List (BUnit S × Bool)} (hr : initUnits items c = .ok r)
    (item : List (UnitSpec S)) (hi : item ∈ items) (sp : UnitSpec S) (hsp : sp ∈ item) :
    ∃ (c' : TagCls) (id' : Nat) (r' : TagCls × BUnit S), sp.bind id' c' = .ok r' ∧ ∀ g ∈ c'.known, g ∈ c.known ∨ g ∈ addedGrammemes := by
  simp only [initUnits, bind_ok_iff] at hr
  obtain ⟨flat, h1, h2⟩ := hr
  obtain ⟨f, hf, hfi⟩ := mapE_mem' h1 hi
  obtain ⟨_, rfl⟩ := flattenItem_ok hfi
  obtain ⟨i, hi', he⟩ := List.getElem_of_mem hsp
  have : (sp, decide (i + 1 = item.length)) ∈ flat.flatten := by
    refine List.mem_flatten.2 ⟨_, hf, ?_⟩
    rw [List.mem_mapIdx]
    exact ⟨i, hi', by rw [he]⟩
  exact bindUnits_each _ _ h2 _ this

theorem initials_need {letters : List Str} {sc : S} {id : Nat} {c c0 : TagCls} {r : TagCls × BUnit S}
    (h : (UnitSpec.firstName letters firstNamePattern sc).bind id c = .ok r) (hk : ∀ g ∈ c.known, g ∈ c0.known ∨ g ∈ addedGrammemes) :
    ∀ g ∈ initialsGrammemes, g ∈ c0.known := by
  simp only [UnitSpec.bind, bind_ok_iff] at h
  obtain ⟨ts, hts, _⟩ := h
  intro g hg
  have hcov : ∀ g ∈ initialsGrammemes, g ∉ addedGrammemes ∧
      ∃ s ∈ (GENDERS2.flatMap fun g => CASES6.map fun c => firstNamePattern g c), g ∈ splitTag s := by decide +kernel
  obtain ⟨n1, s, hs, hgs⟩ := hcov g hg
  obtain ⟨t, _, ht⟩ := mapE_mem' hts hs
  have := (mkTag_ok_iff _ s).1 ⟨t, ht⟩ g hgs
  rw [addKnown_known, addKnown_known, Finset.mem_insert, Finset.mem_insert] at this
  rcases this with rfl | rfl | h
  · exact absurd (by decide) n1
  · exact absurd (by decide) n1
  · exact (hk g h).resolve_right n1

theorem adverb_needs {sc : S} {id : Nat} {c c0 : TagCls} {r : TagCls × BUnit S}
    (h : (UnitSpec.adverb sc).bind id c = .ok r) (hk : ∀ g ∈ c.known, g ∈ c0.known ∨ g ∈ addedGrammemes) : c!"ADVB" ∈ c0.known := by
  simp only [UnitSpec.bind, bind_ok_iff] at h
  obtain ⟨t, ht, _⟩ := h
  exact (hk _ ((mkTag_ok_iff _ _).1 ⟨t, ht⟩ (c!"ADVB") (by decide))).resolve_right (by decide)

/-- What a unit needs beyond the grammemes it adds itself. -/
def UnitSpec.needs : UnitSpec S → List Str
  | .firstName .. | .patronymic .. => initialsGrammemes
  | .adverb _ => [c!"ADVB"]
  | _ => []

/-- The tag pattern is the one of the class. -/
def UnitSpec.plain : UnitSpec S → Prop
  | .firstName _ p _ => p = firstNamePattern
  | .patronymic _ p _ => p = patronymicPattern
  | _ => True

theorem genderTags_total (c : TagCls) (p : Str → Str → Str) (hp : p = firstNamePattern ∨ p = patronymicPattern)
    (hk : ∀ g ∈ initialsGrammemes, g ∈ c.known) (hi : c!"Init" ∈ c.known) (hn : p = firstNamePattern → c!"Name" ∈ c.known)
    (hpa : p = patronymicPattern → c!"Patr" ∈ c.known) : ∃ ts, genderCaseTags c p = .ok ts := by
  apply mapE_total
  intro s hs
  refine (mkTag_ok_iff c s).2 fun g hg => ?_
  have h1 : ∀ s ∈ (GENDERS2.flatMap fun g => CASES6.map fun c => firstNamePattern g c), ∀ g ∈ splitTag s,
      g = c!"Init" ∨ g = c!"Name" ∨ g ∈ initialsGrammemes := by decide +kernel
  have h2 : ∀ s ∈ (GENDERS2.flatMap fun g => CASES6.map fun c => patronymicPattern g c), ∀ g ∈ splitTag s,
      g = c!"Init" ∨ g = c!"Patr" ∨ g ∈ initialsGrammemes := by decide +kernel
  rcases hp with rfl | rfl
  · rcases h1 s hs g hg with rfl | rfl | h
    · exact hi
    · exact hn rfl
    · exact hk g h
  · rcases h2 s hs g hg with rfl | rfl | h
    · exact hi
    · exact hpa rfl
    · exact hk g h

theorem filterE_total {α : Type} (f : α → Except PyErr Bool) (l : List α) (h : ∀ a ∈ l, ∃ b, f a = .ok b) : ∃ r, filterE f l = .ok r := by
  induction l with
  | nil => exact ⟨_, rfl⟩
  | cons a l ih =>
    obtain ⟨b, hb⟩ := h a (by simp)
    obtain ⟨r, hr⟩ := ih fun a ha => h a (by simp [ha])
    simp only [filterE, hb, ok_bind, hr]
    exact ⟨_, rfl⟩

theorem contains_total (c : TagCls) (t : Tag) (g : Str) (hg : g ∈ c.known) : ∃ b, c.contains t g = .ok b := by
  unfold TagCls.contains TagCls.isKnown TagCls.assertInit
  split
  · exact ⟨_, rfl⟩
  · rw [if_neg (by rintro h; rw [h] at hg; simp at hg)]
    simp only [ok_bind, hg, decide_true]
    exact ⟨_, rfl⟩

theorem bind_total (sp : UnitSpec S) (id : Nat) (c : TagCls) (hpl : sp.plain) (hk : ∀ g ∈ sp.needs, g ∈ c.known) :
    ∃ r, sp.bind id c = .ok r ∧ c.known ⊆ r.1.known := by
  cases sp <;> simp only [UnitSpec.bind, UnitSpec.needs, UnitSpec.plain] at hk hpl ⊢
  case firstName letters p score =>
    subst hpl
    generalize hc : (c.addKnown (c!"Init") (c!"иниц") false).addKnown (c!"Name") (c!"имя") false = c'
    have hk' : c'.known = insert (c!"Name") (insert (c!"Init") c.known) := by rw [← hc, addKnown_known, addKnown_known]
    have hin : c.known ⊆ c'.known := by rw [hk']; exact (Finset.subset_insert _ _).trans (Finset.subset_insert _ _)
    obtain ⟨ts, hts⟩ := genderTags_total c' _ (.inl rfl) (fun g hg => hin (hk g hg)) (by rw [hk']; simp) (by intro; rw [hk']; simp)
      (by intro h; have := congrFun (congrFun h []) []; exact absurd this (by decide))
    obtain ⟨masc, hm⟩ := filterE_total (fun t => c'.contains t (c!"masc")) ts fun a _ => contains_total _ _ _ (hin (hk _ (by decide)))
    obtain ⟨femn, hf⟩ := filterE_total (fun t => c'.contains t (c!"femn")) ts fun a _ => contains_total _ _ _ (hin (hk _ (by decide)))
    have e := genderCaseTags_ok hts
    have e1 := filterE_ok hm (fun a b h => contains_ok h)
    have e2 := filterE_ok hf (fun a b h => contains_ok h)
    have hq : tagsEq (masc ++ femn) ts = true := by rw [e1, e2, e]; decide +kernel
    simp only [hts, ok_bind, hm, hf, hq, if_true]
    exact ⟨_, rfl, hin⟩
  case patronymic letters p score =>
    subst hpl
    generalize hc : (c.addKnown (c!"Init") (c!"иниц") false).addKnown (c!"Patr") (c!"отч") false = c'
    have hk' : c'.known = insert (c!"Patr") (insert (c!"Init") c.known) := by rw [← hc, addKnown_known, addKnown_known]
    have hin : c.known ⊆ c'.known := by rw [hk']; exact (Finset.subset_insert _ _).trans (Finset.subset_insert _ _)
    obtain ⟨ts, hts⟩ := genderTags_total c' _ (.inr rfl) (fun g hg => hin (hk g hg)) (by rw [hk']; simp)
      (by intro h; have := congrFun (congrFun h []) []; exact absurd this (by decide)) (by intro; rw [hk']; simp)
    simp only [hts, ok_bind]
    exact ⟨_, rfl, hin⟩
  case number =>
    generalize hc : ((c.addKnown (c!"NUMB") (c!"ЧИСЛО")).addKnown (c!"intg") (c!"цел")).addKnown (c!"real") (c!"вещ") = c'
    have hk' : c'.known = insert (c!"real") (insert (c!"intg") (insert (c!"NUMB") c.known)) := by
      rw [← hc, addKnown_known, addKnown_known, addKnown_known]
    have d1 : ∀ g ∈ splitTag (c!"NUMB,intg"), g = c!"real" ∨ g = c!"intg" ∨ g = c!"NUMB" := by decide
    have d2 : ∀ g ∈ splitTag (c!"NUMB,real"), g = c!"real" ∨ g = c!"intg" ∨ g = c!"NUMB" := by decide
    have hm : ∀ g, (g = c!"real" ∨ g = c!"intg" ∨ g = c!"NUMB") → g ∈ c'.known := by
      intro g hg; rw [hk']; simp only [Finset.mem_insert]; tauto
    obtain ⟨t1, h1⟩ := (mkTag_ok_iff c' (c!"NUMB,intg")).2 fun g hg => hm g (d1 g hg)
    obtain ⟨t2, h2⟩ := (mkTag_ok_iff c' (c!"NUMB,real")).2 fun g hg => hm g (d2 g hg)
    simp only [h1, ok_bind, h2]
    refine ⟨_, rfl, ?_⟩
    intro g hg; rw [hk']; simp only [Finset.mem_insert]; tauto
  case punct =>
    obtain ⟨t1, h1⟩ := (mkTag_ok_iff (c.addKnown (c!"PNCT") (c!"ЗПР")) (c!"PNCT")).2 fun g hg => by
      have : g = c!"PNCT" := by revert hg; revert g; decide
      rw [addKnown_known, this]; simp
    simp only [h1, ok_bind]
    exact ⟨_, rfl, by rw [addKnown_known]; exact Finset.subset_insert _ _⟩
  case latin =>
    obtain ⟨t1, h1⟩ := (mkTag_ok_iff (c.addKnown (c!"LATN") (c!"ЛАТ")) (c!"LATN")).2 fun g hg => by
      have : g = c!"LATN" := by revert hg; revert g; decide
      rw [addKnown_known, this]; simp
    simp only [h1, ok_bind]
    exact ⟨_, rfl, by rw [addKnown_known]; exact Finset.subset_insert _ _⟩
  case roman =>
    obtain ⟨t1, h1⟩ := (mkTag_ok_iff (c.addKnown (c!"ROMN") (c!"РИМ")) (c!"ROMN")).2 fun g hg => by
      have : g = c!"ROMN" := by revert hg; revert g; decide
      rw [addKnown_known, this]; simp
    simp only [h1, ok_bind]
    exact ⟨_, rfl, by rw [addKnown_known]; exact Finset.subset_insert _ _⟩
  case unkn =>
    obtain ⟨t1, h1⟩ := (mkTag_ok_iff (c.addKnown (c!"UNKN") (c!"НЕИЗВ")) (c!"UNKN")).2 fun g hg => by
      have : g = c!"UNKN" := by revert hg; revert g; decide
      rw [addKnown_known, this]; simp
    simp only [h1, ok_bind]
    exact ⟨_, rfl, by rw [addKnown_known]; exact Finset.subset_insert _ _⟩
  case adverb =>
    obtain ⟨t1, h1⟩ := (mkTag_ok_iff c (c!"ADVB")).2 fun g hg => by
      have : g = c!"ADVB" := by revert hg; revert g; decide
      rw [this]; exact hk _ (by simp)
    simp only [h1, ok_bind]
    exact ⟨_, rfl, Finset.Subset.refl _⟩
  all_goals exact ⟨_, rfl, Finset.Subset.refl _⟩

theorem bindUnits_total (sps : List (UnitSpec S × Bool)) (id : Nat) (c : TagCls) (h : ∀ sp ∈ sps, sp.1.plain ∧ ∀ g ∈ sp.1.needs, g ∈ c.known) :
    ∃ r, bindUnits sps id c = .ok r := by
  induction sps generalizing id c with
  | nil => exact ⟨_, rfl⟩
  | cons sp sps ih =>
    obtain ⟨sp, t⟩ := sp
    obtain ⟨r1, h1, hk⟩ := bind_total sp id c (h (sp, t) (by simp)).1 (h (sp, t) (by simp)).2
    obtain ⟨r2, h2⟩ := ih (id + 1) r1.1 fun sp hsp => ⟨(h sp (by simp [hsp])).1, fun g hg => hk ((h sp (by simp [hsp])).2 g hg)⟩
    simp only [bindUnits, h1, ok_bind, h2]
    exact ⟨_, rfl⟩

theorem initUnits_total (items : List (List (UnitSpec S))) (c : TagCls) (hne : ∀ item ∈ items, item ≠ [])
    (h : ∀ item ∈ items, ∀ sp ∈ item, sp.plain ∧ ∀ g ∈ sp.needs, g ∈ c.known) : ∃ r, initUnits items c = .ok r := by
  obtain ⟨flat, hf⟩ := mapE_total flattenItem items fun item hi => by
    unfold flattenItem
    rw [List.getLast?_eq_some_getLast (hne item hi)]
    exact ⟨_, rfl⟩
  simp only [initUnits, hf, ok_bind]
  apply bindUnits_total
  intro sp hsp
  obtain ⟨f, hff, hspf⟩ := List.mem_flatten.1 hsp
  obtain ⟨item, hi, hfi⟩ := mapE_mem hf hff
  obtain ⟨_, rfl⟩ := flattenItem_ok hfi
  obtain ⟨i, hi', rfl⟩ := List.mem_mapIdx.1 hspf
  exact h item hi _ (List.getElem_mem _)

theorem ruUnits_iff (c : TagCls) : (∃ r, initUnits (ruUnits (S := S)) c = .ok r) ↔ ∀ g ∈ c!"ADVB" :: initialsGrammemes, g ∈ c.known := by
  constructor
  · rintro ⟨r, h⟩ g hg
    rcases List.mem_cons.1 hg with rfl | hg
    · obtain ⟨c', id', r', hb, hk⟩ := initUnits_each _ h [.adverb (dec 7 10)] (by simp [ruUnits]) _ (List.mem_singleton.2 rfl)
      exact adverb_needs hb hk
    · obtain ⟨c', id', r', hb, hk⟩ := initUnits_each _ h _ (List.mem_cons_self ..) (.firstName ruInitialLetters firstNamePattern (dec 1 10)) (by simp)
      exact initials_need hb hk g hg
  · intro h
    refine initUnits_total _ c (by intro item hi; simp only [ruUnits, List.mem_cons, List.not_mem_nil, or_false] at hi; rcases hi with rfl | rfl | rfl | rfl | rfl | rfl | rfl | rfl | rfl | rfl <;> simp) ?_
    have hsub : ∀ item ∈ ruUnits (S := S), ∀ sp ∈ item, sp.plain ∧ ∀ g ∈ sp.needs, g ∈ c!"ADVB" :: initialsGrammemes := by
      intro item hi sp hsp
      simp only [ruUnits, List.mem_cons, List.not_mem_nil, or_false] at hi
      rcases hi with rfl | rfl | rfl | rfl | rfl | rfl | rfl | rfl | rfl | rfl <;>
        simp only [List.mem_cons, List.not_mem_nil, or_false] at hsp
      · rcases hsp with rfl | rfl | rfl <;> refine ⟨by simp [UnitSpec.plain], fun g hg => ?_⟩ <;> simp [UnitSpec.needs] at hg ⊢
        · exact .inr hg
        · exact .inr hg
      all_goals first
        | (subst hsp; refine ⟨by simp [UnitSpec.plain], fun g hg => ?_⟩; simp [UnitSpec.needs] at hg ⊢; try exact .inl hg)
        | (rcases hsp with rfl | rfl <;> refine ⟨by simp [UnitSpec.plain], fun g hg => ?_⟩ <;> simp [UnitSpec.needs] at hg ⊢)
    exact fun item hi sp hsp => ⟨(hsub item hi sp hsp).1, fun g hg => h g ((hsub item hi sp hsp).2 g hg)⟩

theorem ukUnits_iff (c : TagCls) : (∃ r, initUnits (ukUnits (S := S)) c = .ok r) ↔ ∀ g ∈ initialsGrammemes, g ∈ c.known := by
  constructor
  · rintro ⟨r, h⟩ g hg
    obtain ⟨c', id', r', hb, hk⟩ := initUnits_each _ h _ (List.mem_cons_self ..) (.firstName ukInitialLetters firstNamePattern (dec 1 10)) (by simp)
    exact initials_need hb hk g hg
  · intro h
    refine initUnits_total _ c (by intro item hi; simp only [ukUnits, List.mem_cons, List.not_mem_nil, or_false] at hi; rcases hi with rfl | rfl | rfl | rfl | rfl | rfl | rfl | rfl <;> simp) ?_
    have hsub : ∀ item ∈ ukUnits (S := S), ∀ sp ∈ item, sp.plain ∧ ∀ g ∈ sp.needs, g ∈ initialsGrammemes := by
      intro item hi sp hsp
      simp only [ukUnits, List.mem_cons, List.not_mem_nil, or_false] at hi
      rcases hi with rfl | rfl | rfl | rfl | rfl | rfl | rfl | rfl <;>
        simp only [List.mem_cons, List.not_mem_nil, or_false] at hsp
      · rcases hsp with rfl | rfl | rfl | rfl | rfl <;> refine ⟨by simp [UnitSpec.plain], fun g hg => ?_⟩ <;> simp [UnitSpec.needs] at hg ⊢
        · exact hg
        · exact hg
      all_goals first
        | (subst hsp; refine ⟨by simp [UnitSpec.plain], fun g hg => ?_⟩; simp [UnitSpec.needs] at hg ⊢)
        | (rcases hsp with rfl | rfl <;> refine ⟨by simp [UnitSpec.plain], fun g hg => ?_⟩ <;> simp [UnitSpec.needs] at hg ⊢)
    exact fun item hi sp hsp => ⟨(hsub item hi sp hsp).1, fun g hg => h g ((hsub item hi sp hsp).2 g hg)⟩

/-- **C49.** Which dictionaries `MorphAnalyzer` accepts with its default units: once the dictionary has been read (with its language code and,
if asked for, its P(t|w) data), the construction succeeds exactly if the grammeme table has the grammemes the units for initials put in their tags, and
ADVB for an analyzer that is not Ukrainian. -/
theorem c49_constructible (s : Sys) (cls : TagCls) (a : MorphArgs S) (hu : a.units = none) (p : Str) (hp : Selected s a p)
    (m : List (Str × Json)) (c : TagCls) (D : Dict) (hl : loadDict s.little (s.disk p) cls = .ok (m, c, D))
    (dl : Option Str) (hdl : dictLang m = .ok dl) (est : Option (List (Str × Nat))) (he : loadEst (s.disk p) m a.est = .ok est) :
    (∃ x, construct s cls a = .ok x) ↔
      (∀ g ∈ [c!"NOUN", c!"anim", c!"masc", c!"femn", c!"Sgtm", c!"Fixd", c!"Abbr", c!"sing", c!"nomn", c!"gent", c!"datv", c!"accs", c!"ablt",
        c!"loct"], g ∈ c.known) ∧ (chooseLanguage dl a.lang' ≠ c!"uk" → c!"ADVB" ∈ c.known) := by
  have hcp := (choosePath_iff s a p).2 hp
  have hcon : (∃ x, construct s cls a = .ok x) ↔ ∃ r, initUnits (defaultUnits (S := S) (chooseLanguage dl a.lang')) c = .ok r := by
    unfold construct
    change (∃ x, (choosePath s a.path a.lang' >>= _) = .ok x) ↔ _
    rw [hcp]
    simp only [ok_bind, hl, hdl, he, mkMorph, hu, Option.getD_none]
    change (∃ x, ((initUnits (defaultUnits (S := S) (chooseLanguage dl a.lang')) c >>= _) >>= _) = .ok x) ↔ _
    cases initUnits (defaultUnits (S := S) (chooseLanguage dl a.lang')) c with
    | error e => simp
    | ok r => simp
  rw [hcon]
  have hcfg : ∀ l : Str, configLang l = some (c!"uk") ↔ l = c!"uk" := by
    intro l
    unfold configLang
    by_cases h1 : l = c!"ru-old"
    · subst h1; decide
    · by_cases h2 : l = c!"uk"
      · subst h2; decide
      · rw [if_neg h1]
        simp only [h2, or_false, iff_false]
        split
        · intro hh; cases hh; exact h2 rfl
        · intro hh; cases hh
  unfold defaultUnits
  by_cases hlang : chooseLanguage dl a.lang' = c!"uk"
  · rw [if_pos ((hcfg _).2 hlang), ukUnits_iff]
    exact ⟨fun h => ⟨h, fun h' => absurd hlang h'⟩, fun h => h.1⟩
  · rw [if_neg (mt (hcfg _).1 hlang), ruUnits_iff]
    constructor
    · exact fun h => ⟨fun g hg => h g (List.mem_cons_of_mem _ hg), fun _ => h _ (List.mem_cons_self ..)⟩
    · rintro ⟨h1, h2⟩ g hg
      rcases List.mem_cons.1 hg with rfl | hg
      · exact h2 hlang
      · exact h1 g hg

/-- A machine with one dictionary, whose grammeme table lacks one of the names. -/
def Demo.sysLacking (name : Str) (lang : Str) : Sys :=
  { Demo.sys with disk := fun _ =>
      match compileLexemes dedupBuild dedupBuild { paradigmPrefixes := [c!""] } [[(c!"ёж", c!"NOUN,anim,masc sing,nomn")]] with
      | .error _ => Disk.fresh
      | .ok c => match saveOps true { Demo.info with languageCode := .str lang } (Demo.fullRows.filter fun r => r.name ≠ name) c with
        | .error _ => Disk.fresh
        | .ok ops => Disk.fresh.writeAll ops }

/-- Both sides of the equivalence occur: without Qual there is an analyzer, without Abbr there is none, and without ADVB just for Ukrainian. -/
example : (construct (S := Rat) (Demo.sysLacking (c!"Qual") (c!"ru")) TagCls.initial { path := some (c!"/x") }).map Analyzer.lang = .ok (c!"ru") ∧
    (construct (S := Rat) (Demo.sysLacking (c!"Abbr") (c!"ru")) TagCls.initial { path := some (c!"/x") }).map Analyzer.lang = .error .valueError ∧
    (construct (S := Rat) (Demo.sysLacking (c!"ADVB") (c!"ru")) TagCls.initial { path := some (c!"/x") }).map Analyzer.lang = .error .valueError ∧
    (construct (S := Rat) (Demo.sysLacking (c!"ADVB") (c!"uk")) TagCls.initial { path := some (c!"/x") }).map Analyzer.lang = .ok (c!"uk") := by
  decide +kernel

end Verif
