/-
What the answers of an analyzer depend on in the tag class: only its known grammemes.
-/
import Verif.Lemmas.Bind
import Verif.Model.Inflect

set_option linter.unusedSectionVars false

namespace Verif

variable {S : Type} [Score S]

theorem containsSet_knownEq {c c' : TagCls} (h : c.known = c'.known) (t : Tag) (gs : Grams) : c.containsSet t gs = c'.containsSet t gs := by
  unfold TagCls.containsSet TagCls.assertKnown TagCls.assertInit; rw [h]

theorem contains_knownEq {c c' : TagCls} (h : c.known = c'.known) (t : Tag) (g : Str) : c.contains t g = c'.contains t g := by
  unfold TagCls.contains TagCls.isKnown TagCls.assertInit; rw [h]

theorem mkTag_knownEq {c c' : TagCls} (h : c.known = c'.known) (s : Str) : c.mkTag s = c'.mkTag s := by
  unfold TagCls.mkTag TagCls.assertKnown TagCls.assertInit; rw [h]

theorem addKnown_knownEq {c c' : TagCls} (h : c.known = c'.known) (a b : Str) (o : Bool) : (c.addKnown a b o).known = (c'.addKnown a b o).known := by
  unfold TagCls.addKnown; rw [h]; split
  · exact h
  · rfl

/-- Two analyzers that differ in the tag class only. -/
structure SameButCls (m m' : Morph S) : Prop where
  env : m.env = m'.env
  dict : m.dict = m'.dict
  sub : m.sub = m'.sub
  units : m.units = m'.units
  est : m.est = m'.est
  known : m.cls.known = m'.cls.known

theorem adverbShould_sameBut {m m' : Morph S} (h : SameButCls m m') (rec : Rec S) (wl : Str) : adverbShould m rec wl = adverbShould m' rec wl := by
  unfold adverbShould
  have : (fun t => m.cls.containsSet t [c!"ADJF", c!"sing", c!"datv"].toFinset) = fun t => m'.cls.containsSet t [c!"ADJF", c!"sing", c!"datv"].toFinset :=
    funext fun t => containsSet_knownEq h.known t _
  rw [this]

theorem unitParse_sameBut {m m' : Morph S} (h : SameButCls m m') (rec : Rec S) (u : BUnit S) (word wl : Str) (seen : Seen) :
    unitParse m rec u word wl seen = unitParse m' rec u word wl seen := by
  have ha := adverbShould_sameBut h rec
  obtain ⟨e, d, c, s, us, es⟩ := m
  obtain ⟨e', d', c', s', us', es'⟩ := m'
  obtain ⟨h1, h2, h3, h4, h5, h6⟩ := h
  simp only at h1 h2 h3 h4 h5 h6
  subst h1 h2 h3 h4 h5
  unfold unitParse
  split <;> first | rfl | simp only [ha]

theorem unitTag_sameBut {m m' : Morph S} (h : SameButCls m m') (rec : Rec S) (u : BUnit S) (word wl : Str) (seen : SeenTags) :
    unitTag m rec u word wl seen = unitTag m' rec u word wl seen := by
  have ha := adverbShould_sameBut h rec
  obtain ⟨e, d, c, s, us, es⟩ := m
  obtain ⟨e', d', c', s', us', es'⟩ := m'
  obtain ⟨h1, h2, h3, h4, h5, h6⟩ := h
  simp only at h1 h2 h3 h4 h5 h6
  subst h1 h2 h3 h4 h5
  unfold unitTag
  split <;> first | rfl | simp only [ha]

theorem runParse_sameBut {m m' : Morph S} (h : SameButCls m m') (rec : Rec S) (word wl : Str) (us : List (BUnit S × Bool)) (seen : Seen)
    (res : List (Parse S)) : runParse m rec word wl us seen res = runParse m' rec word wl us seen res := by
  induction us generalizing seen res with
  | nil => rfl
  | cons u us ih =>
    obtain ⟨u, t⟩ := u
    simp only [runParse, unitParse_sameBut h, ih]

theorem runTag_sameBut {m m' : Morph S} (h : SameButCls m m') (rec : Rec S) (word wl : Str) (us : List (BUnit S × Bool)) (seen : SeenTags)
    (res : List Tag) : runTag m rec word wl us seen res = runTag m' rec word wl us seen res := by
  induction us generalizing seen res with
  | nil => rfl
  | cons u us ih =>
    obtain ⟨u, t⟩ := u
    simp only [runTag, unitTag_sameBut h, ih]

theorem analyze_sameBut {m m' : Morph S} (h : SameButCls m m') (n : Nat) : analyze m n = analyze m' n := by
  induction n with
  | zero => rfl
  | succ n ih =>
    have hp : parseStep m (analyze m n) = parseStep m' (analyze m' n) := by
      funext w
      simp only [parseStep, ih, h.env, h.units, h.est, runParse_sameBut h]
    have ht : tagStep m (analyze m n) = tagStep m' (analyze m' n) := by
      funext w
      simp only [tagStep, ih, h.env, h.units, h.est, runTag_sameBut h]
    simp only [analyze, hp, ht]

theorem parse_sameBut {m m' : Morph S} (h : SameButCls m m') (w : Str) : m.parse w = m'.parse w := by
  simp only [Morph.parse, Morph.depth, h.env, analyze_sameBut h]

theorem tag_sameBut {m m' : Morph S} (h : SameButCls m m') (w : Str) : m.tag w = m'.tag w := by
  simp only [Morph.tag, Morph.depth, h.env, analyze_sameBut h]

theorem genderTags_knownEq {c c' : TagCls} (h : c.known = c'.known) (a b : List Tag) (t : Tag) : genderTags c a b t = genderTags c' a b t := by
  unfold genderTags; rw [contains_knownEq h]

theorem lexemeOf_sameBut {m m' : Morph S} (h : SameButCls m m') (st : Stack) (p : Parse S) : lexemeOf m st p = lexemeOf m' st p := by
  induction st, p using lexemeOf.induct <;> simp_all [lexemeOf, genderTags_knownEq h.known, h.dict]

theorem normalizedOf_sameBut {m m' : Morph S} (h : SameButCls m m') (st : Stack) (p : Parse S) : normalizedOf m st p = normalizedOf m' st p := by
  induction st, p using normalizedOf.induct <;> simp_all [normalizedOf, genderTags_knownEq h.known, h.dict, lexemeOf_sameBut h]

/-! ### Binding the units -/

/-- Two outcomes that agree in everything but the tag class, and in its known grammemes. -/
def SameOut {α : Type} (x y : Except PyErr (TagCls × α)) : Prop :=
  match x, y with
  | .ok a, .ok b => a.2 = b.2 ∧ a.1.known = b.1.known
  | .error e, .error e' => e = e'
  | _, _ => False

theorem genderCaseTags_knownEq {c c' : TagCls} (h : c.known = c'.known) (pat : Str → Str → Str) : genderCaseTags c pat = genderCaseTags c' pat := by
  unfold genderCaseTags
  rw [show c.mkTag = c'.mkTag from funext (mkTag_knownEq h)]

theorem specBind_knownEq (sp : UnitSpec S) (id : Nat) {c c' : TagCls} (h : c.known = c'.known) : SameOut (sp.bind id c) (sp.bind id c') := by
  cases sp with
  | dictionary => exact ⟨rfl, h⟩
  | firstName letters pat score =>
    have hk := addKnown_knownEq (addKnown_knownEq h (c!"Init") (c!"иниц") false) (c!"Name") (c!"имя") false
    simp only [UnitSpec.bind, genderCaseTags_knownEq hk, contains_knownEq hk]
    generalize genderCaseTags _ pat = g
    cases g with
    | error e => rfl
    | ok tags =>
      simp only [ok_bind]
      generalize filterE _ tags = f1
      cases f1 with
      | error e => rfl
      | ok masc =>
        simp only [ok_bind]
        generalize filterE _ tags = f2
        cases f2 with
        | error e => rfl
        | ok femn =>
          simp only [ok_bind]
          split
          · exact ⟨rfl, hk⟩
          · rfl
  | patronymic letters pat score =>
    have hk := addKnown_knownEq (addKnown_knownEq h (c!"Init") (c!"иниц") false) (c!"Patr") (c!"отч") false
    simp only [UnitSpec.bind, genderCaseTags_knownEq hk]
    generalize genderCaseTags _ pat = g
    cases g with
    | error e => rfl
    | ok tags => exact ⟨rfl, hk⟩
  | number score =>
    have hk := addKnown_knownEq (addKnown_knownEq (addKnown_knownEq h (c!"NUMB") (c!"ЧИСЛО") true) (c!"intg") (c!"цел") true) (c!"real") (c!"вещ") true
    simp only [UnitSpec.bind, mkTag_knownEq hk]
    generalize TagCls.mkTag _ (c!"NUMB,intg") = a
    generalize TagCls.mkTag _ (c!"NUMB,real") = b
    cases a with
    | error e => rfl
    | ok a => cases b with
      | error e => rfl
      | ok b => exact ⟨rfl, hk⟩
  | punct score =>
    have hk := addKnown_knownEq h (c!"PNCT") (c!"ЗПР") true
    simp only [UnitSpec.bind, mkTag_knownEq hk]
    generalize TagCls.mkTag _ _ = a
    cases a with
    | error e => rfl
    | ok a => exact ⟨rfl, hk⟩
  | latin score =>
    have hk := addKnown_knownEq h (c!"LATN") (c!"ЛАТ") true
    simp only [UnitSpec.bind, mkTag_knownEq hk]
    generalize TagCls.mkTag _ _ = a
    cases a with
    | error e => rfl
    | ok a => exact ⟨rfl, hk⟩
  | roman score =>
    have hk := addKnown_knownEq h (c!"ROMN") (c!"РИМ") true
    simp only [UnitSpec.bind, mkTag_knownEq hk]
    generalize TagCls.mkTag _ _ = a
    cases a with
    | error e => rfl
    | ok a => exact ⟨rfl, hk⟩
  | particle ps mult => exact ⟨rfl, h⟩
  | adverb mult =>
    simp only [UnitSpec.bind, mkTag_knownEq h]
    generalize TagCls.mkTag _ _ = a
    cases a with
    | error e => rfl
    | ok a => exact ⟨rfl, h⟩
  | hyphenated skip mult => exact ⟨rfl, h⟩
  | knownPrefix ps mult k => exact ⟨rfl, h⟩
  | unknownPrefix mult => exact ⟨rfl, h⟩
  | knownSuffix mult k => exact ⟨rfl, h⟩
  | unkn =>
    have hk := addKnown_knownEq h (c!"UNKN") (c!"НЕИЗВ") true
    simp only [UnitSpec.bind, mkTag_knownEq hk]
    generalize TagCls.mkTag _ _ = a
    cases a with
    | error e => rfl
    | ok a => exact ⟨rfl, hk⟩

theorem bindUnits_sameOut (sps : List (UnitSpec S × Bool)) (id : Nat) {c c' : TagCls} (h : c.known = c'.known) :
    SameOut (bindUnits sps id c) (bindUnits sps id c') := by
  induction sps generalizing id c c' with
  | nil => exact ⟨rfl, h⟩
  | cons sp sps ih =>
    obtain ⟨sp, t⟩ := sp
    have h1 := specBind_knownEq sp id h
    simp only [bindUnits]
    revert h1
    generalize sp.bind id c = x
    generalize sp.bind id c' = y
    cases x with
    | error e => cases y with
      | error e' => exact fun h => h
      | ok b => exact fun h => h.elim
    | ok a => cases y with
      | error e' => exact fun h => h.elim
      | ok b =>
        rintro ⟨h1, h2⟩
        have h3 := ih (id + 1) h2
        simp only [ok_bind]
        revert h3
        generalize bindUnits sps (id + 1) a.1 = x
        generalize bindUnits sps (id + 1) b.1 = y
        cases x with
        | error e => cases y with
          | error e' => exact fun h => h
          | ok b => exact fun h => h.elim
        | ok a' => cases y with
          | error e' => exact fun h => h.elim
          | ok b' =>
            rintro ⟨h3, h4⟩
            exact ⟨by simp only [h1, h3], h4⟩

theorem mkMorph_knownEq (env : Env) (dict : Dict) {c c' : TagCls} (h : c.known = c'.known) (sub : Subst) (items : List (List (UnitSpec S)))
    (est : Option (List (Str × Nat))) (m : Morph S) (hm : mkMorph env dict c sub items est = .ok m) :
    ∃ m', mkMorph env dict c' sub items est = .ok m' ∧ SameButCls m m' := by
  unfold mkMorph initUnits at hm ⊢
  cases hf : mapE flattenItem items with
  | error e => rw [hf] at hm; simp at hm
  | ok flat =>
    rw [hf] at hm
    simp only [ok_bind] at hm ⊢
    have hb := bindUnits_sameOut flat.flatten 0 h
    revert hb hm
    generalize bindUnits flat.flatten 0 c = x
    generalize bindUnits flat.flatten 0 c' = y
    cases x with
    | error e => intro hm; cases hm
    | ok a => cases y with
      | error e => exact fun _ h => h.elim
      | ok b =>
        intro hm hb
        cases hm
        exact ⟨_, rfl, ⟨rfl, rfl, rfl, hb.1, rfl, hb.2⟩⟩

end Verif
