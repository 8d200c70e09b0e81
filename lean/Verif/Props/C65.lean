/-
C65 — from the OpenCorpora XML file to the analyzer.
-/
import Verif.Props.C28
import Verif.Props.C31
import Verif.Props.C32
import Verif.Props.C49b
import Verif.Props.C55
import Verif.Props.C56
import Verif.Props.C64
import Verif.Props.C01
import Verif.Model.Convert

set_option linter.unusedSectionVars false

open Relation

namespace Verif

/-! ### What the document says -/

/-- The lemma element has these forms: one per `f` element, the lower-cased `t` with the grammemes of `l` and of `f`. -/
def LemmaForms (env : Env) (e : Elem) (forms : Lexeme) : Prop :=
  ∃ (l : Elem) (lexGrams : List Str) (data : List (Str × List Str)), e.children ≠ [] ∧ e.iter (c!"l") = [l] ∧ GramsOf l lexGrams ∧
    FormsData (e.iter (c!"f")) data ∧ (∀ d ∈ data, joinC ',' lexGrams ++ joinC ',' d.2 ≠ []) ∧
    forms = data.map fun d => (env.lower d.1, pyStrip env (joinC ',' lexGrams ++ ' ' :: joinC ',' d.2))

/-- A link from the lemma with id `a` to the one with id `b`, of a type that joins lexemes. -/
def DocLinked (doc : Elem) (a b : Str) : Prop :=
  ∃ e ∈ doc.iter (c!"link"), e.get (c!"from") = some a ∧ e.get (c!"to") = some b ∧
    ∀ t ∈ [c!"7", c!"21", c!"23", c!"27"], e.get (c!"type") ≠ some t

/-- The forms an analyzer is given: those of initials are left out. -/
def kept (forms : Lexeme) : Lexeme := forms.filter fun f => !isSub (c!"Init") f.2

/-- The document declares the grammeme. -/
def Declared (doc : Elem) (g : Str) : Prop :=
  ∃ e ∈ doc.iter (c!"grammeme"), ∃ n : Elem, e.find (c!"name") = some n ∧ n.text = some g

/-- What every OpenCorpora dictionary satisfies (and Python does not check): no lemma, link or grammeme inside another one, no two lemmas with
the same id, links with two ends and without cycles, loc1/gen1/acc1 only as whole grammemes, all grammemes used declared. -/
structure GoodDoc (env : Env) (doc : Elem) : Prop where
  flat : Flat doc.all
  ids : ((doc.iter (c!"lemma")).map fun e => e.get (c!"id")).Nodup
  ends : ∀ e ∈ doc.iter (c!"link"), (e.get (c!"from")).isSome ∧ (e.get (c!"to")).isSome
  acyclic : ∀ x, ¬ TransGen (DocLinked doc) x x
  tags : ∀ e ∈ doc.iter (c!"lemma"), ∀ forms, LemmaForms env e forms → ∀ f ∈ forms, WholeOnly f.2 ∧
    (∀ g ∈ splitTag f.2, Declared doc g) ∧ ∀ g ∈ meaning f.2, Declared doc g

/-- The same words with tags of the same meaning, in the same order. -/
def SameForms {S : Type} (forms : Lexeme) (fs : List (Parse S)) : Prop :=
  List.Forall₂ (fun (f : Str × Str) (p : Parse S) => p.word = f.1 ∧ meaning p.tag.str = meaning f.2) forms fs

/-! ### Reading the lemmas -/

theorem wordForms_of {env : Env} {e : Elem} {forms : Lexeme} (h : LemmaForms env e forms) : wordForms env e = .ok (e.get (c!"id"), forms) := by
  obtain ⟨l, lg, data, h1, h2, h3, h4, h5, rfl⟩ := h
  rw [c55_forms env e l lg data h1 h2 h3 h4, if_neg]
  rintro ⟨ha, d, hd, hb⟩
  exact h5 d hd (by rw [ha, hb]; rfl)

theorem lemmaForms_of {env : Env} {e : Elem} {id : Option Str} {forms : Lexeme} (h : wordForms env e = .ok (id, forms)) (hne : forms ≠ []) :
    LemmaForms env e forms := by
  unfold wordForms at h
  split at h
  · simp only [Except.ok.injEq, Prod.mk.injEq] at h; exact absurd h.2.symm hne
  · next hc =>
    split at h
    · next l hl =>
      simp only [bind_ok_iff, pure_eq_ok, Except.ok.injEq, Prod.mk.injEq] at h
      obtain ⟨base, hbase, r, hr, _, rfl⟩ := h
      cases r with
      | none => simp at hne
      | some r =>
        obtain ⟨data, h1, h2, rfl⟩ := formsLoop_of_ok env base _ r hr
        obtain ⟨bs, hbs, rfl⟩ := grammemesFromElem_of_ok l base hbase
        exact ⟨l, bs, data, by simpa using hc, hl, hbs, h1, h2, rfl⟩
    · simp at h

theorem wordForms_id {env : Env} {e : Elem} {r : Option Str × Lexeme} (h : wordForms env e = .ok r) : r.1 = e.get (c!"id") := by
  unfold wordForms at h
  split at h
  · cases h; rfl
  · split at h
    · simp only [bind_ok_iff, pure_eq_ok, Except.ok.injEq] at h
      obtain ⟨_, _, _, _, rfl⟩ := h; rfl
    · cases h

theorem lemmaForms_lower {env : Env} (hlow : env.LowerStable) {e : Elem} {forms : Lexeme} (h : LemmaForms env e forms) :
    ∀ f ∈ forms, env.lower f.1 = f.1 := by
  obtain ⟨l, lg, data, _, _, _, _, _, rfl⟩ := h
  intro f hf
  obtain ⟨d, _, rfl⟩ := List.mem_map.1 hf
  exact hlow d.1 _ List.infix_rfl

theorem foldl_dictSet_nodup {α β : Type} [DecidableEq α] (l d : List (α × β)) (h : ((d ++ l).map Prod.fst).Nodup) :
    l.foldl (fun d e => dictSet e.1 e.2 d) d = d ++ l := by
  induction l generalizing d with
  | nil => simp
  | cons e l ih =>
    rw [List.foldl_cons, keys_dictSet_not_mem, ih]
    · simp
    · simpa using h
    · intro hm
      rw [List.map_append, List.map_cons, List.nodup_append] at h
      exact h.2.2 _ hm _ (List.mem_cons_self ..) rfl

/-! ### Init -/

theorem infix_sep {pat x y : Str} {c : Char} (hc : c ∉ pat) (hp : pat ≠ []) : pat <:+: x ++ c :: y ↔ pat <:+: x ∨ pat <:+: y := by
  constructor
  · rintro ⟨u, v, h⟩
    rw [List.append_assoc] at h
    rcases List.append_eq_append_iff.1 h with ⟨a, h1, h2⟩ | ⟨a, h1, h2⟩
    · -- x = u ++ a, pat ++ v = a ++ c :: y
      rcases List.append_eq_append_iff.1 h2 with ⟨b, h3, h4⟩ | ⟨b, h3, h4⟩
      · -- a = pat ++ b
        left; exact ⟨u, b, by rw [h1, h3, List.append_assoc]⟩
      · -- pat = a ++ b, c :: y = b ++ v
        cases b with
        | nil =>
          left; rw [List.append_nil] at h3
          exact ⟨u, [], by rw [h1, ← h3]; simp⟩
        | cons b bs =>
          simp only [List.cons_append, List.cons.injEq] at h4
          exact absurd (by rw [h3, ← h4.1]; simp) hc
    · -- u = x ++ a, c :: y = a ++ (pat ++ v)
      cases a with
      | nil =>
        cases pat with
        | nil => exact absurd rfl hp
        | cons p pat =>
          simp only [List.nil_append, List.cons_append, List.cons.injEq] at h2
          exact absurd (by rw [h2.1]; simp) hc
      | cons b a =>
        simp only [List.cons_append, List.cons.injEq] at h2
        right; exact ⟨a, v, by rw [h2.2, List.append_assoc]⟩
  · rintro (h | h)
    · exact h.trans (List.prefix_append _ _).isInfix
    · exact h.trans ⟨x ++ [c], [], by simp⟩

theorem infix_joinC {pat : Str} {c : Char} (hc : c ∉ pat) (hp : pat ≠ []) (ps : List Str) : pat <:+: joinC c ps ↔ ∃ p ∈ ps, pat <:+: p := by
  induction ps with
  | nil => simp [joinC, hp]
  | cons p ps ih =>
    cases ps with
    | nil => simp [joinC]
    | cons q ps =>
      have : joinC c (p :: q :: ps) = p ++ c :: joinC c (q :: ps) := rfl
      rw [this, infix_sep hc hp, ih]
      simp

theorem infix_splitTag {pat : Str} (h1 : ',' ∉ pat) (h2 : ' ' ∉ pat) (hp : pat ≠ []) (s : Str) : pat <:+: s ↔ ∃ g ∈ splitTag s, pat <:+: g := by
  unfold splitTag
  rw [← infix_joinC h1 hp, joinC_splitC]
  by_cases h : ' ' ∈ s
  · obtain ⟨x, y, rfl, hx⟩ := List.eq_append_cons_of_mem h
    rw [replaceFirst_append _ _ _ _ hx, infix_sep h2 hp, infix_sep h1 hp]
  · rw [replaceFirst_not_mem _ _ _ h]

/-- Whether a tag mentions Init is a matter of its meaning. -/
theorem init_meaning (t : Str) : c!"Init" <:+: t ↔ ∃ g ∈ meaning t, c!"Init" <:+: g := by
  rw [infix_splitTag (by decide) (by decide) (by decide)]
  unfold meaning
  constructor
  · rintro ⟨g, hg, hi⟩
    refine ⟨_, Finset.mem_image_of_mem _ (List.mem_toFinset.2 hg), ?_⟩
    split
    · next h => rw [h] at hi; exact absurd hi (by decide +kernel)
    · split
      · next h => rw [h] at hi; exact absurd hi (by decide +kernel)
      · split
        · next h => rw [h] at hi; exact absurd hi (by decide +kernel)
        · exact hi
  · rintro ⟨g, hg, hi⟩
    obtain ⟨g', hg', rfl⟩ := Finset.mem_image.1 hg
    refine ⟨g', List.mem_toFinset.1 hg', ?_⟩
    split at hi
    · exact absurd hi (by decide +kernel)
    · split at hi
      · exact absurd hi (by decide +kernel)
      · split at hi
        · exact absurd hi (by decide +kernel)
        · exact hi

theorem isSub_meaning {t t' : Str} (h : meaning t = meaning t') : isSub (c!"Init") t = isSub (c!"Init") t' := by
  rw [Bool.eq_iff_iff, isSub_iff, isSub_iff, init_meaning, init_meaning, h]

/-! ### Preprocessing -/

/-- The same words with tags of the same meaning, in the same order. -/
def SameF (forms forms' : Lexeme) : Prop := List.Forall₂ (fun f f' : Str × Str => f'.1 = f.1 ∧ meaning f'.2 = meaning f.2) forms forms'

theorem sameF_kept (σ : Str → Str) (forms : Lexeme) (h : ∀ f ∈ forms, meaning (σ f.2) = meaning f.2) :
    SameF (kept forms) ((forms.map fun f => (f.1, σ f.2)).filter fun f => !isSub (c!"Init") f.2) := by
  induction forms with
  | nil => exact .nil
  | cons f forms ih =>
    have ih := ih fun f hf => h f (by simp [hf])
    have h1 := h f (by simp)
    unfold kept at ih ⊢
    rw [List.map_cons, List.filter_cons, List.filter_cons]
    simp only [isSub_meaning h1]
    split
    · exact .cons ⟨rfl, h1⟩ ih
    · exact ih

/-- What preprocessing and joining start from. -/
structure Source (env : Env) (doc : Elem) (ls : List (Option Str × Lexeme)) (Q : Parsed (Option Str)) : Prop where
  read : List.Forall₂ (fun e l => wordForms env e = .ok l) (doc.iter (c!"lemma")) ls
  lexemes : List.Forall₂ (fun l l' : Option Str × Lexeme => l'.1 = l.1 ∧ SameF (kept l.2) l'.2 ∧ ∀ f ∈ l'.2, ∀ g ∈ splitTag f.2, Declared doc g)
    ls Q.lexemes
  links : ∀ s e, Linked Q s e ↔ ∃ a b, s = some a ∧ e = some b ∧ DocLinked doc a b

theorem source_of (env : Env) (lx : Bool) (doc : Elem) (hg : GoodDoc env doc) (x : XmlParsed) (v : Option Str × Option Str)
    (h : parseXml env lx doc = .ok (x, v)) : ∃ ls, Source env doc ls (dropUnsupported (simplifyTags x.toParsed)) := by
  obtain ⟨_, hlinks, ls, hread, hlex⟩ := c55_document env lx doc hg.flat x v h
  have hids : ls.map Prod.fst = (doc.iter (c!"lemma")).map fun e => e.get (c!"id") := by
    clear hlex
    generalize doc.iter (c!"lemma") = es at hread
    induction hread with
    | nil => rfl
    | cons h1 _ ih => simp only [List.map_cons, ih, wordForms_id h1]
  have hlex' : x.toParsed.lexemes = ls := by
    show x.lexemes = ls
    rw [hlex, foldl_dictSet_nodup ls [] (by rw [List.nil_append, hids]; exact hg.ids), List.nil_append]
  have hform : ∀ l ∈ ls, ∀ f ∈ l.2, WholeOnly f.2 ∧ (∀ g ∈ splitTag f.2, Declared doc g) ∧ ∀ g ∈ meaning f.2, Declared doc g := by
    intro l hl f hf
    obtain ⟨e, he, hw⟩ := forall₂_mem_right hread hl
    exact hg.tags e he l.2 (lemmaForms_of hw (by rintro h0; rw [h0] at hf; simp at hf)) f hf
  refine ⟨ls, hread, ?_, ?_⟩
  · show List.Forall₂ _ ls (((simplifyTags x.toParsed).lexemes).map _)
    show List.Forall₂ _ ls ((x.toParsed.lexemes.map _).map _)
    rw [hlex', List.map_map, List.forall₂_map_right_iff, List.forall₂_same]
    intro l hl
    simp only [Function.comp]
    generalize hσ : simplifyTag (duplicateReplaces (tagSpellings (iterTags x.toParsed)) true) = σ
    have key : ∀ f ∈ l.2, meaning (σ f.2) = meaning f.2 ∧ ∀ g ∈ splitTag (σ f.2), Declared doc g := by
      intro f hf
      obtain ⟨w1, d1, m1⟩ := hform l hl f hf
      have hfrom := simplifyTag_from (iterTags x.toParsed) true f.2
      have hgram := simplifyTag_grammemes (iterTags x.toParsed) true f.2
      rw [hσ] at hfrom hgram
      have : WholeOnly (σ f.2) ∧ ∀ g ∈ splitTag (σ f.2), Declared doc g := by
        rcases hfrom with h | h
        · rw [h]
          refine ⟨?_, ?_⟩
          · intro g hg
            rw [splitTag_replaceRedundant] at hg
            obtain ⟨g', _, rfl⟩ := List.mem_map.1 hg
            exact .inr (.inr (.inr (replaceRedundant_noRedundant g')))
          · intro g hg
            apply m1
            rw [meaning_eq _ w1]
            exact List.mem_toFinset.2 hg
        · obtain ⟨l', hl', h⟩ := List.mem_flatMap.1 h
          rw [hlex'] at hl'
          obtain ⟨f', hf', h⟩ := List.mem_map.1 h
          rw [← h]
          exact ⟨(hform l' hl' f' hf').1, (hform l' hl' f' hf').2.1⟩
      exact ⟨by rw [meaning_eq _ this.1, meaning_eq _ w1, hgram], this.2⟩
    refine ⟨trivial, sameF_kept σ l.2 fun f hf => (key f hf).1, ?_⟩
    intro f hf
    obtain ⟨f', hf', rfl⟩ := List.mem_map.1 (List.mem_filter.1 hf).1
    exact (key f' hf').2
  · intro s e
    have hl : (dropUnsupported (simplifyTags x.toParsed)).links = x.links.map fun l => (strId l.1, strId l.2.1, l.2.2.getD []) := rfl
    unfold Linked
    rw [hl, hlinks, List.map_map]
    constructor
    · rintro ⟨t, ht, hn⟩
      obtain ⟨el, hel, he⟩ := List.mem_map.1 ht
      simp only [Function.comp, Prod.mk.injEq] at he
      obtain ⟨rfl, rfl, rfl⟩ := he
      obtain ⟨i1, i2⟩ := hg.ends el hel
      obtain ⟨a, ha⟩ := Option.isSome_iff_exists.1 i1
      obtain ⟨b, hb⟩ := Option.isSome_iff_exists.1 i2
      refine ⟨a, b, by rw [ha]; rfl, by rw [hb]; rfl, el, hel, ha, hb, fun t ht h => hn ?_⟩
      rw [h]; exact ht
    · rintro ⟨a, b, rfl, rfl, el, hel, ha, hb, hn⟩
      refine ⟨(el.get (c!"type")).getD [], List.mem_map.2 ⟨el, hel, ?_⟩, fun h => ?_⟩
      · simp only [Function.comp, ha, hb]; rfl
      · cases ht : el.get (c!"type") with
        | none => rw [ht] at h; exact absurd h (by decide)
        | some t => rw [ht] at h; exact hn t h ht

/-! ### Joining and compiling -/

theorem forall₂_get_left {α β : Type} {R : α → β → Prop} {l : List α} {r : List β} (h : List.Forall₂ R l r) {i : Nat} {a : α} (ha : l[i]? = some a) :
    ∃ b, r[i]? = some b ∧ R a b := by
  induction h generalizing i with
  | nil => simp at ha
  | @cons x y l r hxy _ ih =>
    cases i with
    | zero => simp only [List.getElem?_cons_zero, Option.some.injEq] at ha ⊢; exact ⟨y, rfl, ha ▸ hxy⟩
    | succ i => simp only [List.getElem?_cons_succ] at ha ⊢; exact ih ha

theorem mem_left {α β : Type} {R : α → β → Prop} {l : List α} {r : List β} (h : List.Forall₂ R l r) {a : α} (ha : a ∈ l) : ∃ b ∈ r, R a b := by
  obtain ⟨i, hi⟩ := List.getElem?_of_mem ha
  obtain ⟨b, hb, hr⟩ := forall₂_get_left h hi
  exact ⟨b, List.mem_of_getElem? hb, hr⟩

/-- A form of a lexeme of an analyzer is what the source says. -/
theorem sameForms_of {S : Type} {forms own : Lexeme} (h : SameF forms own) {fs : List (Parse S)} (hfs : fs.map (fun f => (f.word, f.tag.str)) = own) :
    SameForms forms fs := by
  subst hfs
  unfold SameF at h
  rw [List.forall₂_map_right_iff] at h
  exact h

section
variable {S : Type} [Score S]

/-- The conclusion about one lemma of the document and one of its forms. -/
def Found (env : Env) (doc : Elem) (m : Morph S) (id : Str) (forms : Lexeme) (f : Str × Str) (ps : List (Parse S)) : Prop :=
  ∃ q ∈ ps, q.word = f.1 ∧ meaning q.tag.str = meaning f.2 ∧
    ∃ fs, m.lexeme q = .ok fs ∧ fs.head?.map (fun p => p.word) = some q.nf ∧ (∀ p ∈ fs, ∀ g ∈ splitTag p.tag.str, Declared doc g) ∧
      (∃ before own after, fs = before ++ own ++ after ∧ SameForms (kept forms) own) ∧
      ∃ root, (∀ a, ¬ DocLinked doc a root) ∧ ReflTransGen (DocLinked doc) root id ∧
        ∀ e ∈ doc.iter (c!"lemma"), e.get (c!"id") = some root → ∀ rforms, LemmaForms env e rforms →
          ∃ own after, fs = own ++ after ∧ SameForms (kept rforms) own

theorem found_of (env : Env) (doc : Elem) (hg : GoodDoc env doc) (ls : List (Option Str × Lexeme)) (Q : Parsed (Option Str)) (hQ : Source env doc ls Q)
    (num : Option Str → Int) (bw : DawgBuild (Nat × Nat)) (bp : DawgBuild (Nat × Nat × Nat)) (o : COptions) (c : Compiled)
    (hc : compileParsed num bw bp o Q = .ok c) (m : Morph S) (hm : IsRu m ∨ IsUk m) (hlow : env.LowerStable) (henv : m.env = env)
    (hd : m.dict = c.toDict) (e : Elem) (he : e ∈ doc.iter (c!"lemma")) (id : Str) (hid : e.get (c!"id") = some id) (forms : Lexeme)
    (hf : LemmaForms env e forms) (f : Str × Str) (hfm : f ∈ kept forms) (ps : List (Parse S)) (hps : m.parse f.1 = .ok ps) :
    Found env doc m id forms f ps := by
  have hac : Acyclic Q := by
    intro x hx
    refine hg.acyclic (x.getD []) (hx.lift (fun x => x.getD []) ?_)
    intro s e h
    obtain ⟨a, b, rfl, rfl, h'⟩ := (hQ.links s e).1 h
    exact h'
  obtain ⟨lj, hlj, hall⟩ := c28_lossless num bw bp o Q c hc m hm (henv ▸ hlow) hd
  have hk : LinksKnown Q := by
    by_contra hk
    rw [c31_unknown num Q hac hk] at hlj
    cases hlj
  have hkeys : Q.lexemes.map Prod.fst = (doc.iter (c!"lemma")).map fun e => e.get (c!"id") := by
    have h1 : Q.lexemes.map Prod.fst = ls.map Prod.fst := by
      have := hQ.lexemes
      generalize Q.lexemes = ql at this
      generalize ls = l at this
      induction this with
      | nil => rfl
      | cons h1 _ ih => simp only [List.map_cons, ih, h1.1]
    have h2 : ls.map Prod.fst = (doc.iter (c!"lemma")).map fun e => e.get (c!"id") := by
      have := hQ.read
      generalize doc.iter (c!"lemma") = es at this
      generalize ls = l at this
      induction this with
      | nil => rfl
      | cons h1 _ ih => simp only [List.map_cons, ih, wordForms_id h1]
    rw [h1, h2]
  have hids : (Q.lexemes.map Prod.fst).Nodup := hkeys ▸ hg.ids
  -- the entry of a lemma of the document
  have entry : ∀ e ∈ doc.iter (c!"lemma"), ∀ forms, LemmaForms env e forms → ∃ own, (e.get (c!"id"), own) ∈ Q.lexemes ∧ SameF (kept forms) own := by
    intro e he forms hf
    obtain ⟨l, hl, hw⟩ := mem_left hQ.read he
    rw [wordForms_of hf] at hw
    cases hw
    obtain ⟨l', hl', h1, h2, _⟩ := mem_left hQ.lexemes hl
    refine ⟨l'.2, ?_, h2⟩
    have : l' = (e.get (c!"id"), l'.2) := Prod.ext h1 rfl
    rwa [← this]
  obtain ⟨lj', home, hlj', hlist, hlinked, hroot, hhome, hpm⟩ := c31_join num Q hids hac hk
  rw [hlj] at hlj'
  cases hlj'
  obtain ⟨own, hown, hsame⟩ := entry e he forms hf
  rw [hid] at hown
  obtain ⟨r, hr, hrx, u, v, huv⟩ := hhome (some id) own hown
  -- the root is a lemma
  have hlift : ∀ x y, ReflTransGen (Linked Q) x y → ∀ b, y = some b → ∃ a, x = some a ∧ ReflTransGen (DocLinked doc) a b := by
    intro x y h
    induction h with
    | refl => exact fun b hb => ⟨b, hb, .refl⟩
    | tail _ h1 ih =>
      intro b hb
      obtain ⟨a', b', h2, h3, h4⟩ := (hQ.links _ _).1 h1
      obtain ⟨a, ha, hab⟩ := ih a' h2
      rw [hb] at h3
      cases h3
      exact ⟨a, ha, hab.tail h4⟩
  obtain ⟨root, rfl, hchain⟩ := hlift r _ hrx id rfl
  have hrm : some root ∈ Q.lexemes.map Prod.fst := by
    rcases hrx.cases_head with h | ⟨z, hz, _⟩
    · rw [h]; exact List.mem_map_of_mem (f := Prod.fst) hown
    · exact (hk _ _ hz).1
  obtain ⟨i, hi⟩ := List.getElem?_of_mem hfm
  obtain ⟨⟨w, t⟩, hot, hw, ht⟩ := forall₂_get_left hsame hi
  simp only at hw ht
  subst hw
  have hL : (home (some root))[u.length + i]? = some (f.1, t) := by
    rw [← huv, List.append_assoc, List.getElem?_append_right (by omega), Nat.add_sub_cancel_left]
    rw [List.getElem?_append_left]
    · exact hot
    · exact (List.getElem?_eq_some_iff.1 hot).1
  have hmem : home (some root) ∈ lj := by
    rw [hlist, List.mem_filter]
    refine ⟨List.mem_map_of_mem ?_, ?_⟩
    · unfold sortedIds
      exact (List.perm_insertionSort _ _).symm.subset hrm
    · simp only [decide_not, Bool.not_eq_true', decide_eq_false_iff_not]
      rintro h0; rw [h0] at hL; simp at hL
  have hlw : m.env.lower f.1 = f.1 := by
    rw [henv]
    exact lemmaForms_lower hlow hf f (List.mem_filter.1 hfm).1
  obtain ⟨q, hq, q1, q2, q3, fs, hfs, hmap⟩ := hall _ hmem _ _ _ hL hlw ps hps
  refine ⟨q, hq, q1, by rw [q2, ht], fs, hfs, ?_, ?_, ?_, root, ?_, hchain, ?_⟩
  · rw [← q3, ← hmap, List.head?_map, Option.map_map]; rfl
  · intro p hp
    have hpL : (p.word, p.tag.str) ∈ home (some root) := hmap ▸ List.mem_map.2 ⟨p, hp, rfl⟩
    obtain ⟨L', hL', hf'⟩ := List.mem_flatten.1 (hpm.subset (List.mem_flatten.2 ⟨_, hmem, hpL⟩))
    obtain ⟨l, hl, rfl⟩ := List.mem_map.1 hL'
    obtain ⟨l0, _, _, _, h3⟩ := forall₂_mem_right hQ.lexemes hl
    exact h3 _ hf'
  · rw [← huv] at hmap
    obtain ⟨fs', after, rfl, h1, _⟩ := List.map_eq_append_iff.1 hmap
    obtain ⟨before, mid, rfl, _, h2⟩ := List.map_eq_append_iff.1 h1
    exact ⟨before, mid, after, rfl, sameForms_of hsame h2⟩
  · intro a ha
    exact hr (some a) ((hQ.links _ _).2 ⟨a, root, rfl, rfl, ha⟩)
  · intro e' he' hid' rforms hrf
    obtain ⟨own', hown', hsame'⟩ := entry e' he' rforms hrf
    rw [hid'] at hown'
    obtain ⟨v', hv'⟩ := hroot _ own' hown' hr
    rw [← hv'] at hmap
    obtain ⟨mid, after, rfl, h1, _⟩ := List.map_eq_append_iff.1 hmap
    exact ⟨mid, after, rfl, sameForms_of hsame' h1⟩

end

/-! ### The grammeme table -/

theorem init_known_mem (cls : TagCls) (rows : List GramRow) (g : Str) : g ∈ (cls.init rows).known ↔ ∃ r ∈ rows, r.name = g := by
  rw [(init_tables cls rows).2.2]
  have key : ∀ (pairs : List (Str × Str)) (c : TagCls), g ∈ (c.addAll pairs).known ↔ g ∈ c.known ∨ ∃ e ∈ pairs, e.1 = g := by
    intro pairs
    induction pairs with
    | nil => intro c; simp [TagCls.addAll]
    | cons e pairs ih =>
      intro c
      have := ih (c.addKnown e.1 e.2)
      rw [addKnown_known, Finset.mem_insert] at this
      show g ∈ ((c.addKnown e.1 e.2).addAll pairs).known ↔ _
      rw [this]
      simp only [List.mem_cons, exists_eq_or_imp]
      constructor
      · rintro ((h | h) | h)
        · exact .inr (.inl h.symm)
        · exact .inl h
        · exact .inr (.inr h)
      · rintro (h | h | h)
        · exact .inl (.inr h)
        · exact .inl (.inl h.symm)
        · exact .inr h
  rw [key]
  simp [TagCls.initial]

theorem rows_declared (env : Env) (lx : Bool) (doc : Elem) (hflat : Flat doc.all) (x : XmlParsed) (v : Option Str × Option Str)
    (h : parseXml env lx doc = .ok (x, v)) (rows : List GramRow) (hr : mapE gramRow x.grammemes = .ok rows) (g : Str) :
    (∃ r ∈ rows, r.name = g) ↔ Declared doc g := by
  have hgr := (c55_document env lx doc hflat x v h).grammemes
  have row : ∀ (e : Elem) (gr : XmlGrammeme) (r : GramRow), readGrammeme e = .ok gr → gramRow gr = .ok r →
      ∃ n : Elem, e.find (c!"name") = some n ∧ n.text = some r.name := by
    intro e gr r h1 h2
    unfold readGrammeme at h1
    simp only [bind_ok_iff, pure_eq_ok, Except.ok.injEq] at h1
    obtain ⟨n, hn, al, _, de, _, rfl⟩ := h1
    refine ⟨n, ?_, ?_⟩
    · unfold orAttr at hn
      split at hn
      · next h => cases hn; exact h
      · cases hn
    · unfold gramRow at h2
      split at h2
      · next h => cases h2; exact (Prod.mk.inj h).1
      · cases h2
  have hr' := (mapE_ok_iff _ _ _).1 hr
  unfold Declared
  constructor
  · rintro ⟨r, hrm, rfl⟩
    obtain ⟨gr, hgm, h2⟩ := forall₂_mem_right hr' hrm
    obtain ⟨e, he, h1⟩ := forall₂_mem_right hgr hgm
    exact ⟨e, he, row e gr r h1 h2⟩
  · rintro ⟨e, he, n, hn, ht⟩
    obtain ⟨gr, hgm, h1⟩ := mem_left hgr he
    obtain ⟨r, hrm, h2⟩ := mem_left hr' hgm
    obtain ⟨n', hn', ht'⟩ := row e gr r h1 h2
    rw [hn] at hn'
    cases hn'
    rw [ht] at ht'
    cases ht'
    exact ⟨r, hrm, rfl⟩

/-! ### The conversion -/

/-- A conversion that did something and did not raise: what it compiled and wrote. -/
theorem convert_ok {a : ConvArgs} {doc : Elem} {overwrite : Bool} {reg : Registry} {folder : Option Disk} (hrun : folder = none ∨ overwrite = true)
    (hok : (a.convert doc overwrite reg folder).outcome = .ok ()) :
    ∃ x v rows c ops, parseXml a.env a.lx doc = .ok (x, v) ∧
      compileXml a.int a.bw a.bp a.opts (dropUnsupported (simplifyTags x.toParsed)) = .ok c ∧ mapE gramRow x.grammemes = .ok rows ∧
      saveOps a.little (a.saveInfo reg rows c) rows c = .ok ops ∧
      (a.convert doc overwrite reg folder).folder = some ((folder.getD Disk.fresh).writeAll ops) := by
  have hn : ¬ (folder.isSome ∧ overwrite = false) := by
    rintro ⟨h1, h2⟩
    rcases hrun with rfl | h
    · cases h1
    · rw [h] at h2; cases h2
  unfold ConvArgs.convert at hok ⊢
  rw [if_neg hn] at hok ⊢
  cases hc : a.compile doc with
  | error e => rw [hc] at hok; cases hok
  | ok rc =>
    obtain ⟨rows, c⟩ := rc
    rw [hc] at hok
    unfold ConvArgs.compile at hc
    split at hc
    · cases hc
    · next x hx =>
      split at hc
      · cases hc
      · next c' hc' =>
        split at hc
        · cases hc
        · next rows' hr' =>
          cases hc
          cases hs : saveOps a.little (a.saveInfo reg rows c) rows c with
          | error e =>
            simp only [saveTo, hs] at hok
            cases hok
          | ok ops =>
            refine ⟨x.1, x.2, rows, c, ops, hx, hc', hr', hs, ?_⟩
            simp only [saveTo, hs]

theorem compileXml_ok {int : Str → Option Int} {bw : DawgBuild (Nat × Nat)} {bp : DawgBuild (Nat × Nat × Nat)} {o : COptions}
    {p : Parsed (Option Str)} {c : Compiled} (h : compileXml int bw bp o p = .ok c) :
    (∀ i ∈ p.lexemes.map Prod.fst, ∃ s, i = some s) ∧ compileParsed (fun i => (i.bind int).getD 0) bw bp o p = .ok c := by
  unfold compileXml at h
  split at h
  · cases h
  · split at h
    · cases h
    · next ns hns =>
      refine ⟨fun i hi => ?_, h⟩
      obtain ⟨n, _, hn⟩ := mapE_mem' hns hi
      cases i with
      | none => cases hn
      | some s => exact ⟨s, rfl⟩

section
variable {S : Type} [Score S]

/-- The analyzer constructed on the folder a conversion has filled. -/
theorem construct_converted (a : ConvArgs) (doc : Elem) (hg : GoodDoc a.env doc) (overwrite : Bool) (reg : Registry) (folder : Option Disk)
    (hrun : folder = none ∨ overwrite = true) (hok : (a.convert doc overwrite reg folder).outcome = .ok ())
    (hdecl : ∀ g ∈ c!"ADVB" :: initialsGrammemes, Declared doc g) :
    ∃ d ls Q num c, (a.convert doc overwrite reg folder).folder = some d ∧ Source a.env doc ls Q ∧
      (∀ i ∈ Q.lexemes.map Prod.fst, ∃ s, i = some s) ∧ compileParsed num a.bw a.bp a.opts Q = .ok c ∧
      ∀ (s : Sys) (cls : TagCls) (m : MorphArgs S) (path : Str), s.little = a.little → s.env = a.env → s.disk path = d →
        m.path = some path → m.units = none → m.est = .auto →
        ∃ x, construct s cls m = .ok x ∧ x.lang = m.lang.getD a.lang ∧ (IsRu x.morph ∨ IsUk x.morph) ∧ x.morph.env = a.env ∧
          x.morph.dict = c.toDict ∧ x.morph.est = none ∧ ∀ g, Declared doc g → g ∈ x.morph.cls.known := by
  obtain ⟨x, v, rows, c, ops, hx, hc, hr, hs, hfold⟩ := convert_ok hrun hok
  obtain ⟨hsome, hcp⟩ := compileXml_ok hc
  obtain ⟨ls, hQ⟩ := source_of a.env a.lx doc hg x v hx
  generalize dropUnsupported (simplifyTags x.toParsed) = Q at hc hsome hcp hQ
  refine ⟨_, ls, Q, _, c, hfold, hQ, hsome, hcp, ?_⟩
  intro s cls m path hl he hd hp hu hest
  -- every tag of the table is made of declared grammemes
  obtain ⟨lj, hlj, hcl⟩ := compile_split hcp
  have hwf := c30_sound a.bw a.bp a.opts lj c hcl
  have hperm : ∀ L ∈ lj, ∀ f ∈ L, ∃ l ∈ Q.lexemes, f ∈ l.2 := by
    have hac : Acyclic Q := by
      intro x hx
      refine hg.acyclic (x.getD []) (hx.lift (fun x => x.getD []) ?_)
      intro s e h
      obtain ⟨a, b, rfl, rfl, h'⟩ := (hQ.links s e).1 h
      exact h'
    have hk : LinksKnown Q := by
      by_contra hk
      rw [c31_unknown _ Q hac hk] at hlj
      cases hlj
    have hids : (Q.lexemes.map Prod.fst).Nodup := by
      have h1 : Q.lexemes.map Prod.fst = ls.map Prod.fst := by
        have := hQ.lexemes
        generalize Q.lexemes = ql at this
        generalize ls = l at this
        induction this with
        | nil => rfl
        | cons h1 _ ih => simp only [List.map_cons, ih, h1.1]
      have h2 : ls.map Prod.fst = (doc.iter (c!"lemma")).map fun e => e.get (c!"id") := by
        have := hQ.read
        generalize doc.iter (c!"lemma") = es at this
        generalize ls = l at this
        induction this with
        | nil => rfl
        | cons h1 _ ih => simp only [List.map_cons, ih, wordForms_id h1]
      rw [h1, h2]; exact hg.ids
    obtain ⟨lj', home, hlj', _, _, _, _, hpm⟩ := c31_join (fun i => (i.bind a.int).getD 0) Q hids hac hk
    rw [hlj] at hlj'
    cases hlj'
    intro L hL f hf
    have := hpm.subset (List.mem_flatten.2 ⟨L, hL, hf⟩)
    obtain ⟨L', hL', hf'⟩ := List.mem_flatten.1 this
    obtain ⟨l, hl, rfl⟩ := List.mem_map.1 hL'
    exact ⟨l, hl, hf'⟩
  have htags : ∀ t ∈ c.gramtab, (cls.init rows).mkTag t = .ok ⟨t⟩ := by
    intro t ht
    obtain ⟨st, _, _, T, _, _⟩ := tables_of a.bw a.bp a.opts lj c hcl
    rw [T.gramtab] at ht
    obtain ⟨L, hL, f, hf, rfl⟩ := T.inv.gram t ht
    obtain ⟨l, hl, hfl⟩ := hperm L hL f hf
    obtain ⟨l0, _, _, _, h3⟩ := forall₂_mem_right hQ.lexemes hl
    refine mkTag_of_subset _ _ fun g hg' => (init_known_mem _ _ _).2 ?_
    exact (rows_declared a.env a.lx doc hg.flat x v hx rows hr g).2 (h3 f hfl g hg')
  have hload : loadDict s.little (s.disk path) cls = .ok (metaOf (a.saveInfo reg rows c) c, cls.init rows, c.toDict) := by
    rw [hl, hd]
    exact c56_round_trip a.little _ rows c ops _ cls hs hwf.predLen htags
  have hknown : ∀ g, Declared doc g → g ∈ (cls.init rows).known := fun g hgd =>
    (init_known_mem _ _ _).2 ((rows_declared a.env a.lx doc hg.flat x v hx rows hr g).2 hgd)
  have hdl : dictLang (metaOf (a.saveInfo reg rows c) c) = .ok (some a.lang) := rfl
  have hle : loadEst (s.disk path) (metaOf (a.saveInfo reg rows c) c) m.est = .ok none := by rw [hest]; rfl
  obtain ⟨y, hy⟩ := (c49_constructible s cls m hu path (.explicit hp) _ _ _ hload _ hdl _ hle).2
    ⟨fun g hgi => hknown g (hdecl g (List.mem_cons_of_mem _ hgi)), fun _ => hknown _ (hdecl _ (List.mem_cons_self ..))⟩
  refine ⟨y, hy, ?_⟩
  obtain ⟨path', r, dl, est, mm, k1, k2, k3, k4, k5, rfl⟩ := construct_ok hy
  have hpath : path' = path := by rw [hp] at k1; cases k1; rfl
  subst hpath
  rw [hload] at k2
  cases k2
  rw [hdl] at k3
  cases k3
  rw [hle] at k4
  cases k4
  rw [hu] at k5
  have hlang : m.lang' = m.lang := by unfold MorphArgs.lang'; rw [if_neg (by rw [hp]; simp)]
  obtain ⟨q1, q2, q3, q4, _⟩ := mkMorph_units k5
  refine ⟨?_, ?_, by rw [← he]; exact q1, q2, q4, ?_⟩
  · show chooseLanguage (some a.lang) m.lang' = _
    rw [hlang]
    cases m.lang <;> rfl
  · have : defaultUnits (S := S) (chooseLanguage (some a.lang) m.lang') = ukUnits ∨ defaultUnits (S := S) (chooseLanguage (some a.lang) m.lang') = ruUnits := by
      unfold defaultUnits; split
      · exact .inl rfl
      · exact .inr rfl
    rw [Option.getD_none] at k5
    rcases this with h | h
    · rw [h] at k5; right; exact ⟨_, by rw [q1, q2, q3, q4]; exact k5⟩
    · rw [h] at k5; left; exact ⟨_, by rw [q1, q2, q3, q4]; exact k5⟩
  · intro g hgd
    simp only [mkMorph, initUnits, bind_ok_iff, pure_eq_ok, Except.ok.injEq] at k5
    obtain ⟨rr, ⟨flat, _, hb⟩, rfl⟩ := k5
    exact bindUnits_known hb (hknown g hgd)

/-- **C65.** A dictionary converted from an OpenCorpora XML file can be used: the analyzer constructed on the folder has the language of the
conversion (unless told otherwise), uses no P(t|w) data an overwritten folder may have had, and finds every form of every lemma (initials left out) with its meaning, and with a lexeme that contains
all the forms of the lemma together and in order, starts with those of the lemma it hangs on by links, and begins with the normal form. -/
theorem c65_forms_found (a : ConvArgs) (doc : Elem) (hg : GoodDoc a.env doc) (hlow : a.env.LowerStable) (overwrite : Bool) (reg : Registry)
    (folder : Option Disk) (hrun : folder = none ∨ overwrite = true) (hok : (a.convert doc overwrite reg folder).outcome = .ok ())
    (hdecl : ∀ g ∈ [c!"ADVB", c!"NOUN", c!"anim", c!"masc", c!"femn", c!"Sgtm", c!"Fixd", c!"Abbr", c!"sing", c!"nomn", c!"gent", c!"datv",
      c!"accs", c!"ablt", c!"loct"], Declared doc g) :
    ∃ d, (a.convert doc overwrite reg folder).folder = some d ∧
      ∀ (s : Sys) (cls : TagCls) (m : MorphArgs S) (path : Str), s.little = a.little → s.env = a.env → s.disk path = d →
        m.path = some path → m.units = none → m.est = .auto →
        ∃ x, construct s cls m = .ok x ∧ x.lang = m.lang.getD a.lang ∧ x.morph.est = none ∧
          ∀ e ∈ doc.iter (c!"lemma"), ∃ id, e.get (c!"id") = some id ∧ ∀ forms, LemmaForms a.env e forms →
            ∀ f ∈ kept forms, ∀ ps, x.morph.parse f.1 = .ok ps → Found a.env doc x.morph id forms f ps := by
  obtain ⟨d, ls, Q, num, c, hd, hQ, hsome, hcp, hall⟩ := construct_converted (S := S) a doc hg overwrite reg folder hrun hok hdecl
  refine ⟨d, hd, ?_⟩
  intro s cls m path h1 h2 h3 h4 h5 h6
  obtain ⟨x, hx, hl, hru, henv, hdict, hest, _⟩ := hall s cls m path h1 h2 h3 h4 h5 h6
  refine ⟨x, hx, hl, hest, ?_⟩
  intro e he
  have hid : ∃ id, e.get (c!"id") = some id := by
    obtain ⟨l, hlm, hw⟩ := mem_left hQ.read he
    obtain ⟨l', hl', hf, _⟩ := mem_left hQ.lexemes hlm
    obtain ⟨s, hs⟩ := hsome l'.1 (List.mem_map_of_mem hl')
    exact ⟨s, by rw [← wordForms_id hw, ← hf, hs]⟩
  obtain ⟨id, hid⟩ := hid
  refine ⟨id, hid, ?_⟩
  intro forms hf f hfm ps hps
  exact found_of a.env doc hg ls Q hQ num a.bw a.bp a.opts c hcp x.morph hru hlow henv hdict e he id hid forms hf f hfm ps hps

/-- Every form of a joined lexeme is a form of a lemma of the document. -/
theorem joined_form (env : Env) (doc : Elem) (hg : GoodDoc env doc) (ls : List (Option Str × Lexeme)) (Q : Parsed (Option Str)) (hQ : Source env doc ls Q)
    (num : Option Str → Int) (lj : List Lexeme) (hlj : joinLexemes num Q = .ok lj) (L : Lexeme) (hL : L ∈ lj) (q : Str × Str) (hq : q ∈ L) :
    ∃ e ∈ doc.iter (c!"lemma"), ∃ forms, LemmaForms env e forms ∧ ∃ f ∈ kept forms, q.1 = f.1 ∧ meaning q.2 = meaning f.2 := by
  have hac : Acyclic Q := by
    intro x hx
    refine hg.acyclic (x.getD []) (hx.lift (fun x => x.getD []) ?_)
    intro s e h
    obtain ⟨a, b, rfl, rfl, h'⟩ := (hQ.links s e).1 h
    exact h'
  have hk : LinksKnown Q := by
    by_contra hk
    rw [c31_unknown num Q hac hk] at hlj
    cases hlj
  have hkeys : Q.lexemes.map Prod.fst = (doc.iter (c!"lemma")).map fun e => e.get (c!"id") := by
    have h1 : Q.lexemes.map Prod.fst = ls.map Prod.fst := by
      have := hQ.lexemes
      generalize Q.lexemes = ql at this
      generalize ls = l at this
      induction this with
      | nil => rfl
      | cons h1 _ ih => simp only [List.map_cons, ih, h1.1]
    have h2 : ls.map Prod.fst = (doc.iter (c!"lemma")).map fun e => e.get (c!"id") := by
      have := hQ.read
      generalize doc.iter (c!"lemma") = es at this
      generalize ls = l at this
      induction this with
      | nil => rfl
      | cons h1 _ ih => simp only [List.map_cons, ih, wordForms_id h1]
    rw [h1, h2]
  obtain ⟨lj', home, hlj', _, _, _, _, hpm⟩ := c31_join num Q (hkeys ▸ hg.ids) hac hk
  rw [hlj] at hlj'
  cases hlj'
  obtain ⟨L', hL', hq'⟩ := List.mem_flatten.1 (hpm.subset (List.mem_flatten.2 ⟨L, hL, hq⟩))
  obtain ⟨l', hl', rfl⟩ := List.mem_map.1 hL'
  obtain ⟨l, hl, _, h2, _⟩ := forall₂_mem_right hQ.lexemes hl'
  obtain ⟨f, hf, h3, h4⟩ := forall₂_mem_right h2 hq'
  obtain ⟨e, he, hw⟩ := forall₂_mem_right hQ.read hl
  refine ⟨e, he, l.2, lemmaForms_of (id := l.1) hw ?_, f, hf, h3, h4⟩
  rintro h0
  rw [h0] at hf
  simp [kept] at hf

/-- **C65**, the other direction: everything the analyzer on the converted dictionary enumerates as known, and every form of its lexeme, is a form of
a lemma of the document with its meaning; none is of the initials (`Init`). -/
theorem c65_invents_nothing (a : ConvArgs) (doc : Elem) (hg : GoodDoc a.env doc) (overwrite : Bool) (reg : Registry)
    (folder : Option Disk) (hrun : folder = none ∨ overwrite = true) (hok : (a.convert doc overwrite reg folder).outcome = .ok ())
    (hdecl : ∀ g ∈ [c!"ADVB", c!"NOUN", c!"anim", c!"masc", c!"femn", c!"Sgtm", c!"Fixd", c!"Abbr", c!"sing", c!"nomn", c!"gent", c!"datv",
      c!"accs", c!"ablt", c!"loct"], Declared doc g) :
    ∃ d, (a.convert doc overwrite reg folder).folder = some d ∧
      ∀ (s : Sys) (cls : TagCls) (m : MorphArgs S) (path : Str), s.little = a.little → s.env = a.env → s.disk path = d →
        m.path = some path → m.units = none → m.est = .auto →
        ∃ x, construct s cls m = .ok x ∧ ∀ pre : Str, ∃ qs, x.morph.iterKnownWordParses pre = .ok qs ∧ ∀ q ∈ qs,
          ∃ fs, x.morph.lexeme q = .ok fs ∧ ∀ p ∈ q :: fs, ¬ (c!"Init") <:+: p.tag.str ∧
            ∃ e ∈ doc.iter (c!"lemma"), ∃ forms, LemmaForms a.env e forms ∧ ∃ f ∈ forms, ¬ (c!"Init") <:+: f.2 ∧
              p.word = f.1 ∧ meaning p.tag.str = meaning f.2 := by
  obtain ⟨d, ls, Q, num, c, hd, hQ, hsome, hcp, hall⟩ := construct_converted (S := S) a doc hg overwrite reg folder hrun hok hdecl
  refine ⟨d, hd, ?_⟩
  intro s cls m path h1 h2 h3 h4 h5 h6
  obtain ⟨x, hx, hl, hru, henv, hdict, hest, _⟩ := hall s cls m path h1 h2 h3 h4 h5 h6
  refine ⟨x, hx, ?_⟩
  intro pre
  obtain ⟨lj, hlj, qs, hqs, hall⟩ := c29_invents_nothing num a.bw a.bp a.opts Q c hcp x.morph hru hdict pre
  refine ⟨qs, hqs, ?_⟩
  intro q hq
  obtain ⟨L, hL, hmem, _, fs, hfs, hmap⟩ := hall q hq
  refine ⟨fs, hfs, ?_⟩
  have key : ∀ p ∈ q :: fs, (p.word, p.tag.str) ∈ L := by
    intro p hp
    rcases List.mem_cons.1 hp with rfl | hp
    · exact hmem
    · rw [← hmap]; exact List.mem_map.2 ⟨p, hp, rfl⟩
  intro p hp
  obtain ⟨e, he, forms, hf, f, hfm, h7, h8⟩ := joined_form a.env doc hg ls Q hQ num lj hlj L hL _ (key p hp)
  obtain ⟨hff, hfi⟩ := List.mem_filter.1 hfm
  have hni : ¬ (c!"Init") <:+: f.2 := by
    intro h
    rw [(isSub_iff _ _).2 h] at hfi
    cases hfi
  refine ⟨fun h => hni ((init_meaning f.2).2 ?_), e, he, forms, hf, f, hff, hni, h7, h8⟩
  rw [← h8]
  exact (init_meaning _).1 h

end

/-- **C65.** If ADJF is declared as well, this analyzer answers every word (of named letters) without raising, and so finds every form. -/
theorem c65_answers (a : ConvArgs) (doc : Elem) (hg : GoodDoc a.env doc) (hlow : a.env.LowerStable) (overwrite : Bool) (reg : Registry)
    (folder : Option Disk) (hrun : folder = none ∨ overwrite = true) (hok : (a.convert doc overwrite reg folder).outcome = .ok ())
    (hdecl : ∀ g ∈ [c!"ADVB", c!"NOUN", c!"anim", c!"masc", c!"femn", c!"Sgtm", c!"Fixd", c!"Abbr", c!"sing", c!"nomn", c!"gent", c!"datv",
      c!"accs", c!"ablt", c!"loct"], Declared doc g) (hadj : Declared doc (c!"ADJF")) :
    ∃ d, (a.convert doc overwrite reg folder).folder = some d ∧
      ∀ (s : Sys) (cls : TagCls) (m : MorphArgs Rat) (path : Str), s.little = a.little → s.env = a.env → s.disk path = d →
        m.path = some path → m.units = none → m.est = .auto →
        ∃ x, construct s cls m = .ok x ∧
          ∀ w, a.env.Named w → a.env.Named (a.env.lower w) → ∃ ps, x.morph.parse w = .ok ps ∧ ps ≠ [] ∧ ∀ p ∈ ps, 0 < p.score := by
  obtain ⟨d, ls, Q, num, c, hd, hQ, hsome, hcp, hall⟩ := construct_converted (S := Rat) a doc hg overwrite reg folder hrun hok hdecl
  refine ⟨d, hd, ?_⟩
  intro s cls m path h1 h2 h3 h4 h5 h6
  obtain ⟨x, hx, hl, hru, henv, hdict, hest, hknown⟩ := hall s cls m path h1 h2 h3 h4 h5 h6
  refine ⟨x, hx, fun w hw hw' => ?_⟩
  obtain ⟨lj, hlj, hcl⟩ := compile_split hcp
  refine (c01_total x.morph hru ⟨henv ▸ hlow, hdict ▸ c30_sound a.bw a.bp a.opts lj c hcl, ?_, ?_⟩ w (henv ▸ hw) (henv ▸ hw')).1
  · intro g hgm
    apply hknown
    simp only [List.mem_cons, List.not_mem_nil, or_false] at hgm
    rcases hgm with rfl | rfl | rfl
    · exact hadj
    · exact hdecl _ (by simp)
    · exact hdecl _ (by simp)
  · intro dawg hdw; rw [hest] at hdw; cases hdw

/-! ### Conversions that do nothing or fail -/

/-- **C65.** An existing folder is not touched without `overwrite`, and nothing tells the caller. -/
theorem c65_no_overwrite (a : ConvArgs) (doc : Elem) (reg : Registry) (d : Disk) : a.convert doc false reg (some d) = ⟨reg, some d, .ok ()⟩ := rfl

/-- **C65.** When the document cannot be read or compiled, the exception reaches the caller, the tag classes are as before, and an existing folder
that was to be overwritten still has the old dictionary. -/
theorem c65_failure_keeps (a : ConvArgs) (doc : Elem) (reg : Registry) (d : Disk) (e : Fail) (h : a.compile doc = .error e) :
    a.convert doc true reg (some d) = ⟨reg, some d, .error e⟩ := by
  unfold ConvArgs.convert
  rw [if_neg (by simp), h]; rfl

theorem loadDict_fresh (little : Bool) (cls : TagCls) : loadDict little Disk.fresh cls = .error .ioError := rfl

/-- **C65.** (A defect.) If the folder is new, such a failure leaves it behind empty, and every later conversion into it without `overwrite`
does nothing, successfully: there is still no dictionary. -/
theorem c65_retry_silent (a : ConvArgs) (doc : Elem) (overwrite : Bool) (reg : Registry) (e : Fail) (h : a.compile doc = .error e) :
    ∃ d, a.convert doc overwrite reg none = ⟨reg, some d, .error e⟩ ∧
      (∀ (a' : ConvArgs) (doc' : Elem) (reg' : Registry), a'.convert doc' false reg' (some d) = ⟨reg', some d, .ok ()⟩) ∧
      ∀ little cls, loadDict little d cls = .error .ioError := by
  refine ⟨Disk.fresh, ?_, fun _ _ _ => rfl, loadDict_fresh⟩
  unfold ConvArgs.convert
  rw [if_neg (by simp), h]; rfl

theorem decodeLoop_short (little little' : Bool) (qs : List (List Nat)) (hq : ∀ q ∈ qs, q.length ≤ 65535) (n : Nat) (hn : qs.length < n) (r : List (List Nat)) :
    decodeLoop little n (qs.flatMap (paraBytes little')) ≠ .ok r := by
  induction qs generalizing n r with
  | nil =>
    cases n with
    | zero => simp at hn
    | succ n => simp [decodeLoop, readH]
  | cons q qs ih =>
    cases n with
    | zero => simp at hn
    | succ n =>
      intro h
      have hl := items_length little' q
      have hlen : q.length % 256 + 256 * (q.length / 256) = q.length := by omega
      simp only [List.flatMap_cons, decodeLoop, bind_ok_iff, paraBytes, List.cons_append, List.nil_append, List.append_assoc] at h
      obtain ⟨l, h1, it, h2, rest, h3, _⟩ := h
      simp only [readH, Except.ok.injEq] at h1
      subst h1
      simp only [hlen, readItems] at h2
      split at h2
      · cases h2
      · simp only [Except.ok.injEq] at h2
        subst h2
        simp only [] at h3
        rw [← hl, List.drop_left] at h3
        exact ih (fun q hq' => hq q (by simp [hq'])) n (by simpa using hn) rest h3

theorem takeWhile_lt {α : Type} (p : α → Bool) (l : List α) (h : ∃ a ∈ l, p a = false) : (l.takeWhile p).length < l.length := by
  induction l with
  | nil => obtain ⟨a, ha, _⟩ := h; simp at ha
  | cons x l ih =>
    rw [List.takeWhile_cons]
    split
    · next hx =>
      simp only [List.length_cons, Nat.add_lt_add_iff_right]
      apply ih
      obtain ⟨a, ha, hp⟩ := h
      rcases List.mem_cons.1 ha with rfl | ha
      · rw [hp] at hx; cases hx
      · exact ⟨a, ha, hp⟩
    · simp

/-- What a save that failed has written to paradigms.array cannot be read, on whatever machine. -/
theorem writtenParas_unreadable (little little' : Bool) (ps : List (List Nat)) (h : ¬ FitsFormat ps) (r : List (List Nat)) :
    decodeParas little (writtenParas little' ps) ≠ .ok r := by
  unfold writtenParas
  cases hp : packH ps.length with
  | error e => simp [decodeParas, readH]
  | ok hd =>
    obtain ⟨h1, rfl⟩ := (packH_ok_iff _ _).1 hp
    have h2 : ∃ p ∈ ps, decide (p.length ≤ maxH) = false := by
      by_contra hc
      refine h ⟨h1, fun p hpm => ?_⟩
      by_contra hlt
      exact hc ⟨p, hpm, decide_eq_false hlt⟩
    have h3 := takeWhile_lt _ _ h2
    simp only [decodeParas, List.cons_append, List.nil_append, readH, ok_bind]
    rw [show ps.length % 256 + 256 * (ps.length / 256) = ps.length by omega]
    refine decodeLoop_short little little' _ ?_ _ h3 r
    intro q hq
    have := List.all_eq_true.1 (List.all_takeWhile (p := fun p : List Nat => decide (p.length ≤ maxH)) (l := ps)) q hq
    exact of_decide_eq_true this

/-- **C65.** (A defect.) A dictionary the compiler accepts but the file format does not have room for makes the conversion raise `struct.error`
half way: the folder is left without a dictionary that can be loaded, also if there was one before.  It has the tags of the new dictionary next to the words, the
suffixes and the metadata of the old one. -/
theorem c65_failed_save (a : ConvArgs) (doc : Elem) (overwrite : Bool) (reg : Registry) (folder : Option Disk) (hrun : folder = none ∨ overwrite = true)
    (rows : List GramRow) (c : Compiled) (h : a.compile doc = .ok (rows, c)) (hf : ¬ (c.paradigms.length ≤ 65535 ∧ ∀ p ∈ c.paradigms, p.length ≤ 65535)) :
    (a.convert doc overwrite reg folder).outcome = .error (.raised .structError) ∧
    ∃ d, (a.convert doc overwrite reg folder).folder = some d ∧ (∀ little cls r, loadDict little d cls ≠ .ok r) ∧
      d (.named (c!"gramtab-opencorpora-int.json")) = some (.json (.arr (c.gramtab.map Json.str))) ∧
      ∀ n, n ∉ [.grammemes, .paradigms, .named (c!"gramtab-opencorpora-int.json"), .named (c!"gramtab-opencorpora-ext.json")] →
        d n = match folder with
          | some old => old n
          | none => none := by
  have hn : ¬ (folder.isSome ∧ overwrite = false) := by
    rintro ⟨h1, h2⟩
    rcases hrun with rfl | h
    · cases h1
    · rw [h] at h2; cases h2
  have hs : saveOps a.little (a.saveInfo reg rows c) rows c = .error .structError := by
    unfold saveOps
    rw [(c36_save_fails_iff a.little c.paradigms).2 hf]
    rfl
  unfold ConvArgs.convert
  rw [if_neg hn, h]
  simp only [saveTo, hs]
  refine ⟨trivial, _, rfl, ?_, ?_, ?_⟩
  rotate_left
  · exact writeAll_mem _ _ _ (by simp only [List.map_cons, List.map_nil]; decide +kernel) (by simp) _
  · intro n hn
    rw [writeAll_not_mem]
    · cases folder <;> rfl
    · simp only [List.map_cons, List.map_nil, List.mem_cons, List.not_mem_nil, or_false, not_or] at hn ⊢
      exact ⟨hn.1, hn.2.2.2, hn.2.2.1, hn.2.1⟩
  intro little cls r hl
  unfold loadDict at hl
  simp only [bind_ok_iff] at hl
  obtain ⟨_, _, _, _, _, _, _, _, _, _, _, _, _, _, _, _, ps, h9, _⟩ := hl
  unfold loadParas at h9
  rw [writeAll_mem _ FName.paradigms (.bytes (writtenParas a.little c.paradigms)) ?_ ?_] at h9
  · exact writtenParas_unreadable little a.little c.paradigms hf ps h9
  · simp only [List.map_cons, List.map_nil]; decide +kernel
  · simp

/-! ### A concrete document -/

/-- A decimal number. -/
def Demo.int (s : Str) : Option Int := if s ≠ [] ∧ s.all (·.isDigit) then some (s.foldl (fun n c => 10 * n + (c.toNat - 48 : Int)) 0) else none

/-- белый, its superlative наибелый (linked) and the initial а, with the grammemes the units need. -/
def Demo.cdoc : Elem := .mk (c!"dictionary") [(c!"version", c!"0.92"), (c!"revision", c!"1")] none [
  .mk (c!"grammemes") [] none (Demo.fullRows.map fun r => .mk (c!"grammeme") [] none [
    .mk (c!"name") [] (some r.name) [], .mk (c!"alias") [] (some r.alias_) [], .mk (c!"description") [] none []]),
  .mk (c!"lemmata") [] none [
    Demo.lemmaElem (c!"2") [c!"ADJF", c!"Qual"] [(c!"Наибелый", [c!"masc", c!"sing", c!"nomn"])],
    Demo.lemmaElem (c!"1") [c!"ADJF", c!"Qual"] [(c!"БЕЛЫЙ", [c!"masc", c!"sing", c!"nomn"]), (c!"белому", [c!"sing", c!"masc", c!"datv"])],
    Demo.lemmaElem (c!"3") [c!"NOUN", c!"Init"] [(c!"а", [c!"sing", c!"nomn"])]],
  .mk (c!"links") [] none [.mk (c!"link") [(c!"from", c!"1"), (c!"to", c!"2"), (c!"type", c!"3")] none []]]

def Demo.convArgs : ConvArgs where
  little := true
  lx := false
  env := demoEnv
  int := Demo.int
  bw := dedupBuild
  bp := dedupBuild
  opts := Demo.copts
  lang := c!"ru"
  info := fun _ => Demo.info

theorem Demo.declared (g : Str) (h : (Demo.cdoc.iter (c!"grammeme")).any (fun e => match e.find (c!"name") with
    | some n => decide (n.text = some g)
    | none => false) = true) : Declared Demo.cdoc g := by
  obtain ⟨e, he, h⟩ := List.any_eq_true.1 h
  split at h
  · next n hn => exact ⟨e, he, n, hn, of_decide_eq_true h⟩
  · cases h

def Demo.tagsChecked (env : Env) : Bool := (Demo.cdoc.iter (c!"lemma")).all fun e => match wordForms env e with
  | .error _ => false
  | .ok r => r.2.all fun f => (splitTag f.2).all fun g => !isSub (c!"loc1") g && !isSub (c!"gen1") g && !isSub (c!"acc1") g &&
    (Demo.cdoc.iter (c!"grammeme")).any (fun e => match e.find (c!"name") with
      | some n => decide (n.text = some g)
      | none => false)

theorem Demo.cdoc_good_of (env : Env) (key : Demo.tagsChecked env = true) : GoodDoc env Demo.cdoc where
  flat := flatB_flat _ (by decide +kernel)
  ids := by
    have : ((Demo.cdoc.iter (c!"lemma")).map fun e => e.get (c!"id")) = [some (c!"2"), some (c!"1"), some (c!"3")] := by decide +kernel
    rw [this]; decide
  ends := by
    have : ((Demo.cdoc.iter (c!"link")).all fun e => (e.get (c!"from")).isSome && (e.get (c!"to")).isSome) = true := by decide +kernel
    intro e he
    simpa using List.all_eq_true.1 this e he
  acyclic := by
    have h : ∀ a b, DocLinked Demo.cdoc a b → a = c!"1" ∧ b = c!"2" := by
      rintro a b ⟨e, he, h1, h2, _⟩
      have : ((Demo.cdoc.iter (c!"link")).all fun e => decide (e.get (c!"from") = some (c!"1") ∧ e.get (c!"to") = some (c!"2"))) = true := by decide +kernel
      have := of_decide_eq_true (List.all_eq_true.1 this e he)
      rw [h1, h2] at this
      simpa using this
    intro x hx
    have h1 : x = c!"1" := by
      rcases TransGen.head'_iff.1 hx with ⟨y, hy, _⟩
      exact (h _ _ hy).1
    have h2 : x = c!"2" := by
      rcases TransGen.tail'_iff.1 hx with ⟨y, _, hy⟩
      exact (h _ _ hy).2
    rw [h1] at h2
    exact absurd h2 (by decide)
  tags := by
    intro e he forms hf f hfm
    have := List.all_eq_true.1 key e he
    rw [wordForms_of hf] at this
    simp only at this
    have := List.all_eq_true.1 this f hfm
    have hpc : ∀ g ∈ splitTag f.2, NoRedundant g ∧ Declared Demo.cdoc g := by
      intro g hg
      have := List.all_eq_true.1 this g hg
      simp only [Bool.and_eq_true, Bool.not_eq_true'] at this
      refine ⟨⟨?_, ?_, ?_⟩, Demo.declared g this.2⟩ <;> rw [← isSub_iff, Bool.not_eq_true]
      · exact this.1.1.1
      · exact this.1.1.2
      · exact this.1.2
    refine ⟨fun g hg => .inr (.inr (.inr (hpc g hg).1)), fun g hg => (hpc g hg).2, fun g hg => ?_⟩
    obtain ⟨g', hg', rfl⟩ := Finset.mem_image.1 hg
    obtain ⟨n1, d1⟩ := hpc g' (List.mem_toFinset.1 hg')
    have h1 : ¬ g' = c!"loc1" := by rintro rfl; exact n1.1 List.infix_rfl
    have h2 : ¬ g' = c!"gen1" := by rintro rfl; exact n1.2.1 List.infix_rfl
    have h3 : ¬ g' = c!"acc1" := by rintro rfl; exact n1.2.2 List.infix_rfl
    rw [if_neg h1, if_neg h2, if_neg h3]
    exact d1

theorem Demo.cdoc_good : GoodDoc demoEnv Demo.cdoc := Demo.cdoc_good_of _ (by decide +kernel)

/-- The hypotheses of `c65_forms_found` and `c65_answers` hold of this document, and the analyzer finds наибелый in the lexeme of белый; the
initial is not in the dictionary. -/
theorem Demo.converted : GoodDoc Demo.convArgs.env Demo.cdoc ∧ Demo.convArgs.env.LowerStable ∧
    (∀ g ∈ [c!"ADVB", c!"NOUN", c!"anim", c!"masc", c!"femn", c!"Sgtm", c!"Fixd", c!"Abbr", c!"sing", c!"nomn", c!"gent", c!"datv",
      c!"accs", c!"ablt", c!"loct", c!"ADJF"], Declared Demo.cdoc g) ∧
    (let r := Demo.convArgs.convert Demo.cdoc false Registry.initial none
    r.outcome = .ok () ∧ (construct (S := Rat) { Demo.sys with disk := fun _ => r.folder.getD Disk.fresh } TagCls.initial { path := some (c!"/d") }).map
      (fun x => (x.morph.wordIsKnown (c!"а"), Demo.firstLexeme x.morph (c!"наибелый"))) = .ok (false, some [c!"белый", c!"белому", c!"наибелый"])) := by
  refine ⟨Demo.cdoc_good, demoEnv_lowerStable, ?_, by decide +kernel⟩
  intro g hg
  apply Demo.declared
  revert hg
  revert g
  decide +kernel

end Verif
