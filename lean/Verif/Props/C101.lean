/-
C101 — what an analyzer answers is exactly what the XML document says.
-/
import Verif.Props.C04
import Verif.Props.C65
import Verif.Props.C79

set_option linter.unusedSectionVars false

open Relation

namespace Verif

/-! ### What the document says -/

/-- These are all the forms of the lemma: those of `LemmaForms`, or none if there are none. -/
def IsForms (env : Env) (e : Elem) (forms : Lexeme) : Prop :=
  LemmaForms env e forms ∨ (forms = [] ∧ ∀ fs, LemmaForms env e fs → fs = [])

/-- The form belongs to the dictionary (it is not of the initials) and may be written as `w`. -/
def Matches (sub : Subst) (w : Str) (f : Str × Str) : Prop := ¬ (c!"Init") <:+: f.2 ∧ Spells sub w f.1

open Classical in
/-- The forms of the document that may be written as `w`, each with its meaning, with repetitions. -/
noncomputable def docMatching (sub : Subst) (w : Str) (all : List Lexeme) : List (Str × Grams) :=
  (all.flatten.filter fun f => Matches sub w f).map fun f => (f.1, meaning f.2)

theorem mem_matching (sub : Subst) (w : Str) (all : List Lexeme) (x : Str × Grams) :
    x ∈ docMatching sub w all ↔ ∃ forms ∈ all, ∃ f ∈ forms, ¬ (c!"Init") <:+: f.2 ∧ Spells sub w f.1 ∧ x = (f.1, meaning f.2) := by
  classical
  simp only [docMatching, List.mem_map, List.mem_filter, List.mem_flatten, decide_eq_true_eq]
  constructor
  · rintro ⟨f, ⟨⟨forms, h1, h2⟩, h3, h4⟩, rfl⟩; exact ⟨forms, h1, f, h2, h3, h4, rfl⟩
  · rintro ⟨forms, h1, f, h2, h3, h4, rfl⟩; exact ⟨f, ⟨⟨forms, h1, h2⟩, h3, h4⟩, rfl⟩

theorem spells_nothing {a b : Str} : Spells (fun _ => []) a b ↔ a = b := by
  constructor
  · intro h
    unfold Spells at h
    induction h with
    | nil => rfl
    | cons h1 _ ih => rcases h1 with rfl | h1; exacts [by rw [ih], by cases h1]
  · rintro rfl; exact .refl _ _

/-! ### Joining -/

theorem isForms_of {env : Env} {e : Elem} {l : Option Str × Lexeme} (h : wordForms env e = .ok l) : IsForms env e l.2 := by
  by_cases hne : l.2 = []
  · refine .inr ⟨hne, fun fs hfs => ?_⟩
    rw [wordForms_of hfs] at h
    cases h
    exact hne
  · exact .inl (lemmaForms_of (id := l.1) h hne)

/-- The forms of the joined lexemes are those of the document. -/
theorem joined_matching (env : Env) (doc : Elem) (hg : GoodDoc env doc) (ls : List (Option Str × Lexeme)) (Q : Parsed (Option Str)) (hQ : Source env doc ls Q)
    (num : Option Str → Int) (lj : List Lexeme) (hlj : joinLexemes num Q = .ok lj) :
    (lj.flatten.map fun f => (f.1, meaning f.2)).Perm ((ls.map fun l => kept l.2).flatten.map fun f => (f.1, meaning f.2)) := by
  have hac : Acyclic Q := by
    intro x hx
    refine hg.acyclic (x.getD []) (hx.lift (fun x => x.getD []) ?_)
    intro s e h
    obtain ⟨a, b, rfl, rfl, h'⟩ := (hQ.links s e).1 h
    exact h'
  have hk : LinksKnown Q := by
    by_contra hk
    rw [c31_unknown num Q hac hk] at hlj
    cases hlj
  have hkeys : Q.lexemes.map Prod.fst = (doc.iter (c!"lemma")).map fun e => e.get (c!"id") := by
    have h1 : Q.lexemes.map Prod.fst = ls.map Prod.fst := by
      have := hQ.lexemes
      generalize Q.lexemes = ql at this
      generalize ls = l at this
      induction this with
      | nil => rfl
      | cons h1 _ ih => simp only [List.map_cons, ih, h1.1]
    have h2 : ls.map Prod.fst = (doc.iter (c!"lemma")).map fun e => e.get (c!"id") := by
      have := hQ.read
      generalize doc.iter (c!"lemma") = es at this
      generalize ls = l at this
      induction this with
      | nil => rfl
      | cons h1 _ ih => simp only [List.map_cons, ih, wordForms_id h1]
    rw [h1, h2]
  obtain ⟨lj', home, hlj', _, _, _, _, hpm⟩ := c31_join num Q (hkeys ▸ hg.ids) hac hk
  rw [hlj] at hlj'
  cases hlj'
  refine (hpm.map _).trans (.of_eq ?_)
  have := hQ.lexemes
  generalize Q.lexemes = ql at this
  generalize ls = l at this
  induction this with
  | nil => rfl
  | @cons a b _ _ h1 _ ih =>
    simp only [List.map_cons, List.flatten_cons, List.map_append, ih]
    congr 1
    have h2 := h1.2.1
    generalize kept a.2 = x at h2
    generalize b.2 = y at h2
    unfold SameF at h2
    induction h2 with
    | nil => rfl
    | cons h3 _ ih => simp only [List.map_cons, ih, h3.1, h3.2]

theorem kept_matching (sub : Subst) (w : Str) (all : List Lexeme) : docMatching sub w all = docMatching sub w (all.map kept) := by
  classical
  unfold docMatching
  congr 1
  induction all with
  | nil => rfl
  | cons a all ih =>
    simp only [List.map_cons, List.flatten_cons, List.filter_append, ih]
    congr 1
    unfold kept
    rw [List.filter_filter]
    apply List.filter_congr
    intro f _
    rw [Bool.eq_iff_iff]
    simp only [Matches, decide_eq_true_eq, Bool.and_eq_true, Bool.not_eq_true', ← isSub_iff, Bool.not_eq_true]
    tauto

theorem matching_of_forms (sub : Subst) (w : Str) (all : List Lexeme) (hn : ∀ L ∈ all, ∀ f ∈ L, ¬ (c!"Init") <:+: f.2) :
    haveI := Classical.propDecidable
    docMatching sub w all = (all.flatten.map fun f => (f.1, meaning f.2)).filter fun x => Spells sub w x.1 := by
  classical
  unfold docMatching
  rw [List.filter_map]
  congr 1
  apply List.filter_congr
  intro f hf
  obtain ⟨L, hL, hf⟩ := List.mem_flatten.1 hf
  simp [Matches, hn L hL f hf]

/-- The matching forms of the joined lexemes are those of the document. -/
theorem joined_perm (env : Env) (doc : Elem) (hg : GoodDoc env doc) (ls : List (Option Str × Lexeme)) (Q : Parsed (Option Str)) (hQ : Source env doc ls Q)
    (num : Option Str → Int) (lj : List Lexeme) (hlj : joinLexemes num Q = .ok lj) (sub : Subst) (w : Str) :
    (docMatching sub w lj).Perm (docMatching sub w (ls.map Prod.snd)) ∧ ∀ L ∈ lj, ∀ f ∈ L, ¬ (c!"Init") <:+: f.2 := by
  have hp := joined_matching env doc hg ls Q hQ num lj hlj
  have hk : ∀ L ∈ ls.map (fun l => kept l.2), ∀ f ∈ L, ¬ (c!"Init") <:+: f.2 := by
    intro L hL f hf hi
    obtain ⟨l, _, rfl⟩ := List.mem_map.1 hL
    have := (List.mem_filter.1 hf).2
    rw [(isSub_iff _ _).2 hi] at this
    cases this
  have hn : ∀ L ∈ lj, ∀ f ∈ L, ¬ (c!"Init") <:+: f.2 := by
    intro L hL f hf hi
    have := hp.subset (List.mem_map_of_mem (f := fun f : Str × Str => (f.1, meaning f.2)) (List.mem_flatten.2 ⟨L, hL, hf⟩))
    obtain ⟨f', hf', he⟩ := List.mem_map.1 this
    obtain ⟨L', hL', hf'⟩ := List.mem_flatten.1 hf'
    refine hk L' hL' f' hf' ((init_meaning _).2 ?_)
    rw [(Prod.mk.inj he).2]
    exact (init_meaning _).1 hi
  refine ⟨?_, hn⟩
  rw [kept_matching sub w (ls.map Prod.snd), List.map_map, matching_of_forms sub w lj hn, show (kept ∘ Prod.snd) = fun l : Option Str × Lexeme => kept l.2 from rfl,
    matching_of_forms sub w _ hk]
  exact hp.filter _

/-- All occurrences of `w`, as positions. -/
theorem occurrences (sub : Subst) (w : Str) (lj : List Lexeme) (hn : ∀ L ∈ lj, ∀ f ∈ L, ¬ (c!"Init") <:+: f.2) (occ : List (Lexeme × Nat)) (hnd : occ.Nodup)
    (hocc : ∀ L i, (L, i) ∈ occ ↔ L ∈ lj ∧ OccursAt sub w L i) (g : Lexeme × Nat → Str × Grams)
    (hgv : ∀ L i v t, L[i]? = some (v, t) → g (L, i) = (v, meaning t)) : (occ.map g).Subperm (docMatching sub w lj) := by
  classical
  -- the positions of one lexeme
  let pos : Lexeme → List Nat := fun L => (List.range L.length).filter fun i => OccursAt sub w L i
  have h1 : occ.Subperm (lj.flatMap fun L => (pos L).map fun i => (L, i)) := by
    refine List.subperm_of_subset hnd ?_
    rintro ⟨L, i⟩ hm
    obtain ⟨hL, ho⟩ := (hocc L i).1 hm
    refine List.mem_flatMap.2 ⟨L, hL, List.mem_map.2 ⟨i, List.mem_filter.2 ⟨?_, by simpa using ho⟩, rfl⟩⟩
    obtain ⟨v, t, hv, _⟩ := ho
    exact List.mem_range.2 (List.getElem?_eq_some_iff.1 hv).1
  have h1' : (occ.map g).Subperm ((lj.flatMap fun L => (pos L).map fun i => (L, i)).map g) := by
    obtain ⟨l, hp, hs⟩ := h1
    exact ⟨l.map g, hp.map g, hs.map g⟩
  refine h1'.trans (List.Perm.subperm (.of_eq ?_))
  -- one lexeme
  have h2 : ∀ L : Lexeme, (∀ f ∈ L, ¬ (c!"Init") <:+: f.2) →
      ((pos L).map fun i => g (L, i)) = (L.filter fun f => Matches sub w f).map fun f => (f.1, meaning f.2) := by
    intro L hi
    have h3 : L = (List.range L.length).map fun i => (L[i]?).getD ([], []) := by
      apply List.ext_getElem?
      intro i
      rw [List.getElem?_map]
      by_cases hi : i < L.length
      · rw [List.getElem?_range hi, List.getElem?_eq_getElem hi]; simp [List.getElem?_eq_getElem hi]
      · rw [List.getElem?_eq_none (by omega), List.getElem?_eq_none (by simpa using hi)]; rfl
    conv_rhs => rw [h3]
    rw [List.filter_map, List.map_map]
    have h4 : ∀ i ∈ List.range L.length, decide (OccursAt sub w L i) = ((fun f => decide (Matches sub w f)) ∘ fun i => (L[i]?).getD ([], [])) i := by
      intro i him
      have hlt := List.mem_range.1 him
      simp only [Function.comp, List.getElem?_eq_getElem hlt, Option.getD_some, Matches, OccursAt, decide_eq_decide]
      constructor
      · rintro ⟨v, t, hv, hs⟩
        simp only [Option.some.injEq] at hv
        rw [hv]
        exact ⟨by have := hi _ (List.getElem_mem hlt); rwa [hv] at this, hs⟩
      · rintro ⟨_, hs⟩
        exact ⟨_, _, rfl, hs⟩
    rw [show pos L = _ from List.filter_congr h4]
    apply List.map_congr_left
    intro i him
    have hlt := List.mem_range.1 (List.mem_filter.1 him).1
    simp only [Function.comp, List.getElem?_eq_getElem hlt, Option.getD_some]
    exact hgv L i _ _ (List.getElem?_eq_getElem hlt)
  unfold docMatching
  clear h1 h1' hocc hnd
  induction lj with
  | nil => rfl
  | cons L lj ih =>
    simp only [List.flatMap_cons, List.map_append, List.flatten_cons, List.filter_append]
    rw [ih (fun L hL => hn L (by simp [hL])), ← h2 L (hn L (by simp)), List.map_map]
    rfl

section
variable {S : Type} [Score S]

/-- What a result says about the word: its spelling and its meaning. -/
def Parse.says (p : Parse S) : Str × Grams := (p.word, meaning p.tag.str)

/-- **C101.** The analyzer on a dictionary converted from an OpenCorpora document `doc`, whatever the word `w`: `word_is_known` is true exactly if a form
of the document (initials left out) may be written as `w`, with `strict` exactly if one is `w` (in lower case); the results of `parse(w)` that come from
the dictionary are forms that may be written as `w`, every such form is among them, and none is there more often than in the document; if the document has
no two of them alike, they are in one-to-one correspondence. -/
theorem c101_document (a : ConvArgs) (doc : Elem) (hg : GoodDoc a.env doc) (hlow : a.env.LowerStable) (overwrite : Bool) (reg : Registry)
    (folder : Option Disk) (hrun : folder = none ∨ overwrite = true) (hok : (a.convert doc overwrite reg folder).outcome = .ok ())
    (hdecl : ∀ g ∈ [c!"ADVB", c!"NOUN", c!"anim", c!"masc", c!"femn", c!"Sgtm", c!"Fixd", c!"Abbr", c!"sing", c!"nomn", c!"gent", c!"datv",
      c!"accs", c!"ablt", c!"loct"], Declared doc g) :
    ∃ d all, (a.convert doc overwrite reg folder).folder = some d ∧ List.Forall₂ (IsForms a.env) (doc.iter (c!"lemma")) all ∧
      ∀ (s : Sys) (cls : TagCls) (m : MorphArgs S) (path : Str), s.little = a.little → s.env = a.env → s.disk path = d →
        m.path = some path → m.units = none → m.est = .auto →
        ∃ x, construct s cls m = .ok x ∧ x.lang = m.lang.getD a.lang ∧ x.morph.sub = m.sub.getD (defaultSubst x.lang) ∧ ∀ w : Str,
          (x.morph.wordIsKnown w = true ↔ ∃ forms ∈ all, ∃ f ∈ forms, ¬ (c!"Init") <:+: f.2 ∧ Spells x.morph.sub (a.env.lower w) f.1) ∧
          (x.morph.wordIsKnown w (strict := true) = true ↔ ∃ forms ∈ all, ∃ f ∈ forms, ¬ (c!"Init") <:+: f.2 ∧ f.1 = a.env.lower w) ∧
          (x.morph.sub.Proper → ∀ ps, x.morph.parse w = .ok ps →
            ((fromDict ps).map Parse.says).Subperm (docMatching x.morph.sub (a.env.lower w) all) ∧
            (∀ y ∈ docMatching x.morph.sub (a.env.lower w) all, y ∈ (fromDict ps).map Parse.says) ∧
            ((docMatching x.morph.sub (a.env.lower w) all).Nodup → ((fromDict ps).map Parse.says).Perm (docMatching x.morph.sub (a.env.lower w) all))) := by
  obtain ⟨d, ls, Q, num, c, hd, hQ, hsome, hcp, hall⟩ := construct_converted (S := S) a doc hg overwrite reg folder hrun hok hdecl
  refine ⟨d, ls.map Prod.snd, hd, ?_, ?_⟩
  · rw [List.forall₂_map_right_iff]
    exact hQ.read.imp fun _ _ h => isForms_of h
  intro s cls m path h1 h2 h3 h4 h5 h6
  obtain ⟨x, hx, hl, hru, henv, hdict, hest, _⟩ := hall s cls m path h1 h2 h3 h4 h5 h6
  refine ⟨x, hx, hl, ?_, ?_⟩
  · obtain ⟨path', r, dl, est, mm, k1, k2, k3, k4, k5, rfl⟩ := construct_ok hx
    exact (mkMorph_units k5).2.2.1
  intro w
  obtain ⟨lj, hlj, hkn⟩ := c79_known num a.bw a.bp a.opts Q c hcp x.morph hdict w
  have hmk : ∀ sub, (∃ L ∈ lj, ∃ f ∈ L, Spells sub (a.env.lower w) f.1) ↔
      ∃ forms ∈ ls.map Prod.snd, ∃ f ∈ forms, ¬ (c!"Init") <:+: f.2 ∧ Spells sub (a.env.lower w) f.1 := by
    intro sub
    obtain ⟨hp, hn⟩ := joined_perm a.env doc hg ls Q hQ num lj hlj sub (a.env.lower w)
    constructor
    · rintro ⟨L, hL, f, hf, hs⟩
      obtain ⟨forms, i1, f', i2, i3, i4, _⟩ := (mem_matching _ _ _ _).1 (hp.subset ((mem_matching _ _ _ _).2 ⟨L, hL, f, hf, hn L hL f hf, hs, rfl⟩))
      exact ⟨forms, i1, f', i2, i3, i4⟩
    · rintro ⟨forms, i1, f', i2, i3, i4⟩
      obtain ⟨L, hL, f, hf, _, hs, _⟩ := (mem_matching _ _ _ _).1 (hp.symm.subset ((mem_matching _ _ _ _).2 ⟨forms, i1, f', i2, i3, i4, rfl⟩))
      exact ⟨L, hL, f, hf, hs⟩
  refine ⟨?_, ?_, ?_⟩
  · rw [hkn, ← hmk, henv]; rfl
  · have he : x.morph.wordIsKnown w (strict := true) = ({ x.morph with sub := fun _ => [] } : Morph S).wordIsKnown w := by
      rw [Bool.eq_iff_iff]
      simp only [Morph.wordIsKnown, if_true, Bool.false_eq_true, if_false]
      rw [dict_known_iff]
      simp only [Dict.wordIsKnown]
      rw [Dawg.has_iff]
      constructor
      · rintro ⟨r, hr⟩; exact ⟨_, r, .refl _ _, hr⟩
      · rintro ⟨v, r, hv, hr⟩; rw [spells_nothing.1 hv]; exact ⟨r, hr⟩
    obtain ⟨lj', hlj', hkn'⟩ := c79_known num a.bw a.bp a.opts Q c hcp ({ x.morph with sub := fun _ => [] } : Morph S) hdict w
    rw [hlj] at hlj'
    cases hlj'
    rw [he, hkn']
    have := hmk fun _ => []
    simp only [spells_nothing] at this
    unfold OccursIn
    simp only [spells_nothing]
    rw [henv, this]
    constructor <;> (rintro ⟨a, b, c, d, e, f⟩; exact ⟨a, b, c, d, e, f.symm⟩)
  · intro hs ps hps
    obtain ⟨lj', hlj', occ, hnd, hocc, hform⟩ := c79_exact num a.bw a.bp a.opts Q c hcp x.morph hru (henv ▸ hlow) hs hdict w ps hps
    rw [hlj] at hlj'
    cases hlj'
    rw [henv] at hocc
    obtain ⟨hp, hn⟩ := joined_perm a.env doc hg ls Q hQ num lj hlj x.morph.sub (a.env.lower w)
    let g : Lexeme × Nat → Str × Grams := fun y => let f := (y.1[y.2]?).getD ([], []); (f.1, meaning f.2)
    have hgv : ∀ L i v t, L[i]? = some (v, t) → g (L, i) = (v, meaning t) := by
      intro L i v t h
      simp only [g, h, Option.getD_some]
    have hmap : (fromDict ps).map Parse.says = occ.map g := by
      clear hocc hnd
      generalize fromDict ps = rs at hform
      induction hform with
      | nil => rfl
      | cons h1 _ ih =>
        simp only [List.map_cons, ih]
        rw [hgv _ _ _ _ h1.form]; rfl
    have hsub := (occurrences x.morph.sub (a.env.lower w) lj hn occ hnd hocc g hgv).trans hp.subperm
    have hcomp : ∀ y ∈ docMatching x.morph.sub (a.env.lower w) (ls.map Prod.snd), y ∈ occ.map g := by
      intro y hy
      obtain ⟨L, hL, f, hf, _, hs, rfl⟩ := (mem_matching _ _ _ _).1 (hp.symm.subset hy)
      obtain ⟨i, hi⟩ := List.getElem?_of_mem hf
      exact List.mem_map.2 ⟨(L, i), (hocc L i).2 ⟨hL, _, _, hi, hs⟩, hgv _ _ _ _ hi⟩
    rw [hmap]
    exact ⟨hsub, hcomp, fun hd => hsub.antisymm (List.subperm_of_subset hd hcomp)⟩

end

/-! ### Concrete documents -/

/-- The dictionary results of a word, and whether it is known (and strictly). -/
def Demo.answers (doc : Elem) (w : Str) : Except PyErr (Bool × Bool × List Str) :=
  (construct (S := Rat) { Demo.sys with disk := fun _ => (Demo.convArgs.convert doc false Registry.initial none).folder.getD Disk.fresh } TagCls.initial
    { path := some (c!"/d") }).bind fun x => (x.morph.parse w).map fun ps =>
      (x.morph.wordIsKnown w, x.morph.wordIsKnown w true, (fromDict ps).map fun p => p.word)

/-- The hypotheses hold of a document with a link and an initial (`Demo.converted`); here a word in capitals, and the initial, which is answered by a rule
but is not known. -/
example : Demo.answers Demo.cdoc (c!"БЕЛОМУ") = .ok (true, true, [c!"белому"]) ∧ Demo.answers Demo.cdoc (c!"а") = .ok (false, false, []) ∧
    (Demo.convArgs.convert Demo.cdoc false Registry.initial none).outcome = .ok () := by decide +kernel

/-- Two lemmas that are alike, and one that differs from them by a letter е/ё. -/
def Demo.twins : Elem := .mk (c!"dictionary") [(c!"version", c!"0.92"), (c!"revision", c!"1")] none [
  .mk (c!"grammemes") [] none (Demo.fullRows.map fun r => .mk (c!"grammeme") [] none [
    .mk (c!"name") [] (some r.name) [], .mk (c!"alias") [] (some r.alias_) [], .mk (c!"description") [] none []]),
  .mk (c!"lemmata") [] none [
    Demo.lemmaElem (c!"1") [c!"NOUN"] [(c!"все", [c!"sing", c!"nomn"])],
    Demo.lemmaElem (c!"2") [c!"NOUN"] [(c!"все", [c!"sing", c!"nomn"])],
    Demo.lemmaElem (c!"3") [c!"NOUN"] [(c!"всё", [c!"sing", c!"nomn"])]]]

/-- **C101.** The results are not always as many as the forms: lemmas with the same forms are one lexeme for the analyzer. -/
theorem c101_twins : Demo.answers Demo.twins (c!"все") = .ok (true, true, [c!"все", c!"всё"]) ∧ Demo.answers Demo.twins (c!"Всё") = .ok (true, true, [c!"всё"]) ∧
    ((Demo.twins.iter (c!"lemma")).map fun e => e.get (c!"id")) = [some (c!"1"), some (c!"2"), some (c!"3")] := by
  refine ⟨?_, ?_, ?_⟩ <;> decide +kernel

end Verif
