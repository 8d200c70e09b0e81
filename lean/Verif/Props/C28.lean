/-
C28 — compiling a dictionary loses nothing.  C29 — compiling a dictionary invents nothing.
-/
import Verif.Props.C30
import Verif.Props.C31
import Verif.Props.C41

set_option linter.unusedSectionVars false

namespace Verif
variable {S : Type} [Score S]

/-! ### One lexeme -/

/-- The compiled dictionary `d` has the source lexeme `L` as paradigm `k`: each of its words is stored under `(k, position)` with its
tag, and its first word as normal form. -/
structure Holds (d : Dict) (L : Lexeme) (k : Nat) : Prop where
  stored : ∀ i w t, L[i]? = some (w, t) → (w, (k, i)) ∈ d.words
  tag : ∀ i w t, L[i]? = some (w, t) → d.tagInfo k i = .ok ⟨t⟩
  normal : ∀ i w t, L[i]? = some (w, t) → ∃ w0 t0, L[0]? = some (w0, t0) ∧ d.normalForm k i w = .ok w0

/-- A lexeme whose paradigm has id `k`. -/
def IsPara (pp : List Str) (s : CState) (L : Lexeme) (k : Nat) : Prop :=
  ∃ stem P, toParadigm L pp = .ok (stem, P) ∧ dictGet P s.paraIds = some k

theorem lexeme_get {L : Lexeme} {pp : List Str} {stem : Str} {P : StrPara} (h : toParadigm L pp = .ok (stem, P)) (i : Nat) :
    L[i]? = P[i]?.map fun r => (r.2.2 ++ stem ++ r.1, r.2.1) := by
  conv_lhs => rw [← c33_inverse L pp stem P h]
  rw [List.getElem?_map]

theorem holds_of {pp : List Str} {ls : List Lexeme} {s : CState} {c : Compiled} (T : Tables pp ls s c)
    (hw : ∀ e, e ∈ c.words ↔ e ∈ s.words) {L : Lexeme} (hL : L ∈ ls) {k : Nat} (hk : IsPara pp s L k) : Holds c.toDict L k := by
  obtain ⟨stem, P, hP, hPk⟩ := hk
  obtain ⟨p, hp, hlen, hform⟩ := T.isForm hPk
  refine ⟨?_, ?_, ?_⟩
  · intro i w t hi
    rw [lexeme_get hP, Option.map_eq_some_iff] at hi
    obtain ⟨r, hr, he⟩ := hi
    simp only [Prod.mk.injEq] at he
    exact (hw _).2 ((T.inv.words _).2 ⟨L, hL, stem, P, hP, hPk, r, hr, he.1.symm⟩)
  · intro i w t hi
    rw [lexeme_get hP, Option.map_eq_some_iff] at hi
    obtain ⟨r, hr, he⟩ := hi
    simp only [Prod.mk.injEq] at he
    rw [← he.2]; exact (hform i r hr).htag
  · intro i w t hi
    have hlt : 0 < P.length := by
      rw [lexeme_get hP, Option.map_eq_some_iff] at hi
      obtain ⟨r, hr, -⟩ := hi
      have := (List.getElem?_eq_some_iff.1 hr).1
      omega
    refine ⟨P[0].2.2 ++ stem ++ P[0].1, P[0].2.1, ?_, ?_⟩
    · rw [lexeme_get hP, List.getElem?_eq_getElem hlt]; rfl
    have hi' := hi
    rw [lexeme_get hP, Option.map_eq_some_iff] at hi
    obtain ⟨r, hr, he⟩ := hi
    simp only [Prod.mk.injEq] at he
    obtain ⟨rfl, rfl⟩ := he
    unfold Dict.normalForm
    split
    · next h0 =>
      subst h0
      rw [List.getElem?_eq_getElem hlt] at hr
      simp only [Option.some.injEq] at hr
      rw [hr]
    · have hf := hform i r hr
      have hf0 := hform 0 P[0] (List.getElem?_eq_getElem hlt)
      rw [(pyGet_ok_iff _ _ _).2 hp, ok_bind, stem_rebuild _ _ _ _ _ _ hf.hpre hf.hsuf, ok_bind, hf0.hpre, ok_bind, hf0.hsuf, ok_bind]
      rfl

/-- `parse.lexeme` of an analysis with such an entry is the source lexeme. -/
theorem lexeme_of (m : Morph S) {pp : List Str} {ls : List Lexeme} {s : CState} {c : Compiled} (T : Tables pp ls s c)
    (hd : m.dict = c.toDict) (hwf : c.toDict.WF) {L : Lexeme} {k : Nat} (hk : IsPara pp s L k) {i : Nat} {w t : Str}
    (hi : L[i]? = some (w, t)) (u : UObj) (hu : u.kind = .dict) (q : Parse S) (hq : q.word = w)
    (hst : q.stack = .single (.dict u w k i)) :
    ∃ fs, m.lexeme q = .ok fs ∧ fs.map (fun f => (f.word, f.tag.str)) = L := by
  obtain ⟨stem, P, hP, hPk⟩ := hk
  obtain ⟨p, hp, hlen, hform⟩ := T.isForm hPk
  rw [lexeme_get hP, Option.map_eq_some_iff] at hi
  obtain ⟨r, hr, he⟩ := hi
  simp only [Prod.mk.injEq] at he
  obtain ⟨rfl, rfl⟩ := he
  have hf := hform i r hr
  obtain ⟨fs, hfs, hlex⟩ := dictForms_exist (S := S) c.toDict hwf u k p hp stem q.nf
  refine ⟨fs, ?_, ?_⟩
  · unfold Morph.lexeme
    rw [hst, lexeme_dict m u hu, hd]
    obtain ⟨qw, qt, qn, qs, qst⟩ := q
    dsimp only at *
    subst hq
    exact hlex _ _ _ _ _ _ (stem_rebuild _ _ _ _ _ _ hf.hpre hf.hsuf)
  · rw [← c33_inverse L pp stem P hP]
    apply List.ext_getElem?
    intro j
    rw [List.getElem?_map, List.getElem?_map]
    by_cases hj : j < P.length
    · obtain ⟨pre, tag, suf, g1, g2⟩ := hfs.form j (by rw [hlen]; exact hj)
      have g3 := hform j P[j] (List.getElem?_eq_getElem hj)
      have e1 := g1.hpre.symm.trans g3.hpre
      have e2 := g1.hsuf.symm.trans g3.hsuf
      have e3 := g1.htag.symm.trans g3.htag
      simp only [Except.ok.injEq] at e1 e2 e3
      rw [g2, List.getElem?_eq_getElem hj]
      simp [e1, e2, e3]
    · have h1 : fs[j]? = none := by rw [List.getElem?_eq_none_iff, hfs.len, hlen]; omega
      rw [h1, List.getElem?_eq_none (by omega)]; rfl

theorem compile_split {I : Type} [DecidableEq I] {num : I → Int} {bw : DawgBuild (Nat × Nat)} {bp : DawgBuild (Nat × Nat × Nat)}
    {o : COptions} {p : Parsed I} {c : Compiled} (h : compileParsed num bw bp o p = .ok c) :
    ∃ ls, joinLexemes num p = .ok ls ∧ compileLexemes bw bp o ls = .ok c := by
  unfold compileParsed at h
  split at h
  · simp at h
  · next ls hls =>
    split at h
    · simp at h
    · next c' hc' => simp only [Except.ok.injEq] at h; subst h; exact ⟨ls, hls, hc'⟩

/-! ### C28 -/

/-- **C28, tables.** Every linked lexeme of an accepted source dictionary is in the compiled dictionary. -/
theorem c28_tables {I : Type} [DecidableEq I] (num : I → Int) (bw : DawgBuild (Nat × Nat)) (bp : DawgBuild (Nat × Nat × Nat))
    (o : COptions) (p : Parsed I) (c : Compiled) (h : compileParsed num bw bp o p = .ok c) :
    ∃ ls, joinLexemes num p = .ok ls ∧ ∀ L ∈ ls, ∃ k, Holds c.toDict L k := by
  obtain ⟨ls, h1, h2⟩ := compile_split h
  refine ⟨ls, h1, fun L hL => ?_⟩
  obtain ⟨s, _, _, T, hw, _⟩ := tables_of bw bp o ls c h2
  obtain ⟨stem, P, k, h3, h4⟩ := T.inv.has L hL
  exact ⟨k, holds_of T hw hL ⟨stem, P, h3, h4⟩⟩

/-- **C28.** If the compiler accepts a source dictionary, an analyzer with the default units over the result finds every form of every
linked lexeme: parsing the word gives, among others, an analysis with that word and tag, with the first word of the lexeme as normal
form, and `parse.lexeme` is exactly the source lexeme, in order. -/
theorem c28_lossless {I : Type} [DecidableEq I] (num : I → Int) (bw : DawgBuild (Nat × Nat)) (bp : DawgBuild (Nat × Nat × Nat))
    (o : COptions) (p : Parsed I) (c : Compiled) (h : compileParsed num bw bp o p = .ok c)
    (m : Morph S) (hm : IsRu m ∨ IsUk m) (hlow : m.env.LowerStable) (hd : m.dict = c.toDict) :
    ∃ ls, joinLexemes num p = .ok ls ∧ ∀ L ∈ ls, ∀ (i : Nat) (w t : Str), L[i]? = some (w, t) → m.env.lower w = w → ∀ ps, m.parse w = .ok ps →
      ∃ q ∈ ps, q.word = w ∧ q.tag.str = t ∧ L.head?.map Prod.fst = some q.nf ∧
        ∃ fs, m.lexeme q = .ok fs ∧ fs.map (fun f => (f.word, f.tag.str)) = L := by
  obtain ⟨ls, h1, h2⟩ := compile_split h
  refine ⟨ls, h1, ?_⟩
  intro L hL i w t hi hlw ps hps
  have hwf := c30_sound bw bp o ls c h2
  obtain ⟨s, _, _, T, hw, _⟩ := tables_of bw bp o ls c h2
  obtain ⟨stem, P, k, h3, h4⟩ := T.inv.has L hL
  have hk : IsPara o.paradigmPrefixes s L k := ⟨stem, P, h3, h4⟩
  have H := holds_of T hw hL hk
  obtain ⟨q, hq, hqe⟩ := (c05_lookup_default m hm w ps hps w k i).2
    ⟨by rw [hlw]; exact Spells.refl _ _, by rw [hd]; exact H.stored i w t hi⟩
  have hdv := parse_deriv m hlow _ ps hps q hq
  unfold Parse.dictEntry at hqe
  split at hqe
  swap
  · simp at hqe
  next u v' para' idx' hst =>
  simp only [Option.some.injEq, Prod.mk.injEq] at hqe
  obtain ⟨rfl, rfl, rfl⟩ := hqe
  obtain ⟨e1, e2, e3⟩ := hdv.entry hst
  have hu : u.kind = .dict := by
    obtain ⟨pw, pt, pn, psc, pst⟩ := q
    dsimp only at *
    subst hst
    generalize m.env.lower v' = wl at hdv
    generalize hst : (Stack.nil.push (Method.dict u v' para' idx')) = st at hdv
    cases hdv <;> simp [Stack.single] at hst
    rw [hst.1]
  rw [hd, H.tag _ _ _ hi] at e3
  simp only [Except.ok.injEq] at e3
  obtain ⟨w0, t0, hw0, hn⟩ := H.normal _ _ _ hi
  rw [hd, hn] at e2
  simp only [Except.ok.injEq] at e2
  refine ⟨q, hq, e1, by rw [← e3], ?_, lexeme_of m T hd hwf hk hi u hu q e1 hst⟩
  rw [List.head?_eq_getElem?, hw0, ← e2]; rfl

/-! ### C29 -/

/-- **C29, tables.** Every entry of a compiled dictionary comes from a linked source lexeme: the word is the lexeme's word at that
position, and the whole lexeme is the entry's paradigm. -/
theorem c29_tables {I : Type} [DecidableEq I] (num : I → Int) (bw : DawgBuild (Nat × Nat)) (bp : DawgBuild (Nat × Nat × Nat))
    (o : COptions) (p : Parsed I) (c : Compiled) (h : compileParsed num bw bp o p = .ok c) :
    ∃ ls, joinLexemes num p = .ok ls ∧ c.toDict.words.Nodup ∧ ∀ w k i, (w, (k, i)) ∈ c.toDict.words →
      ∃ L ∈ ls, ∃ t, L[i]? = some (w, t) ∧ Holds c.toDict L k := by
  obtain ⟨ls, h1, h2⟩ := compile_split h
  obtain ⟨s, _, _, T, hw, hnd⟩ := tables_of bw bp o ls c h2
  refine ⟨ls, h1, hnd, ?_⟩
  intro w k i hmem
  obtain ⟨L, hL, stem, P, hP, hPk, r, hr, he⟩ := (T.inv.words _).1 ((hw _).1 hmem)
  dsimp only at he hr hPk
  refine ⟨L, hL, r.2.1, ?_, holds_of T hw hL ⟨stem, P, hP, hPk⟩⟩
  rw [lexeme_get hP, hr, he]; rfl

/-- **C29.** Everything an analyzer with the default units enumerates as known comes from the source: each parse of
`iter_known_word_parses` is a form of a linked source lexeme, with its tag, with the first word as normal form, and with that lexeme as
its lexeme. -/
theorem c29_invents_nothing {I : Type} [DecidableEq I] (num : I → Int) (bw : DawgBuild (Nat × Nat)) (bp : DawgBuild (Nat × Nat × Nat))
    (o : COptions) (p : Parsed I) (c : Compiled) (h : compileParsed num bw bp o p = .ok c)
    (m : Morph S) (hm : IsRu m ∨ IsUk m) (hd : m.dict = c.toDict) (pre : Str) :
    ∃ ls, joinLexemes num p = .ok ls ∧ ∃ qs, m.iterKnownWordParses pre = .ok qs ∧ ∀ q ∈ qs,
      ∃ L ∈ ls, (q.word, q.tag.str) ∈ L ∧ L.head?.map Prod.fst = some q.nf ∧
        ∃ fs, m.lexeme q = .ok fs ∧ fs.map (fun f => (f.word, f.tag.str)) = L := by
  obtain ⟨ls, h1, h2⟩ := compile_split h
  have hwf := c30_sound bw bp o ls c h2
  obtain ⟨s, _, _, T, hw, hnd⟩ := tables_of bw bp o ls c h2
  obtain ⟨qs, hqs, _⟩ := c41_enumerates m hm (hd ▸ hwf) pre
  refine ⟨ls, h1, qs, hqs, ?_⟩
  intro q hq
  obtain ⟨⟨w, k, i⟩, he, g1, g2, g3, g4, g5⟩ := forall₂_mem_right (iter_forall₂ m hm pre qs hqs) hq
  dsimp only at *
  have hmem := List.mem_of_mem_filter he
  rw [hd] at hmem g1 g2
  obtain ⟨L, hL, stem, P, hP, hPk, r, hr, he'⟩ := (T.inv.words _).1 ((hw _).1 hmem)
  dsimp only at he' hr hPk
  have hk : IsPara o.paradigmPrefixes s L k := ⟨stem, P, hP, hPk⟩
  have hi : L[i]? = some (w, r.2.1) := by rw [lexeme_get hP, hr, he']; rfl
  have H := holds_of T hw hL hk
  rw [H.tag _ _ _ hi] at g1
  simp only [Except.ok.injEq] at g1
  obtain ⟨w0, t0, hw0, hn⟩ := H.normal _ _ _ hi
  rw [hn] at g2
  simp only [Except.ok.injEq] at g2
  refine ⟨L, hL, ?_, ?_, lexeme_of m T hd hwf hk hi ⟨0, .dict⟩ rfl q g3 g5⟩
  · rw [g3, ← g1]; exact List.mem_of_getElem? hi
  · rw [List.head?_eq_getElem?, hw0, ← g2]; rfl

/-! ### Non-vacuity -/

/-- A DAWG that keeps the first of equal entries. -/
def dedupBuild {V : Type} [DecidableEq V] : DawgBuild V := ⟨List.dedup, fun _ _ => List.mem_dedup, fun l => List.nodup_dedup l⟩

/-- A source dictionary: three nouns with the same paradigm, an adjective with a linked superlative. -/
def Demo.source : Parsed Nat where
  lexemes := [(1, [(c!"кошка", c!"NOUN,anim,femn sing,nomn"), (c!"кошке", c!"NOUN,anim,femn sing,datv")]),
    (2, [(c!"мышка", c!"NOUN,anim,femn sing,nomn"), (c!"мышке", c!"NOUN,anim,femn sing,datv")]),
    (3, [(c!"книжка", c!"NOUN,anim,femn sing,nomn"), (c!"книжке", c!"NOUN,anim,femn sing,datv")]),
    (5, [(c!"наибелый", c!"ADJF,Qual masc,sing,nomn")]),
    (4, [(c!"белый", c!"ADJF,Qual masc,sing,nomn"), (c!"белому", c!"ADJF,Qual masc,sing,datv")])]
  links := [(4, 5, c!"19"), (1, 2, c!"7")]

def Demo.copts : COptions := { paradigmPrefixes := [c!"", c!"по", c!"наи"], maxSuffixLength := 3 }

def Demo.compiled : Except Fail Compiled := compileParsed (fun n : Nat => (n : Int)) dedupBuild dedupBuild Demo.copts Demo.source

/-- The compiler accepts the demo source, and the result (with a non-empty prediction table) can be used by an analyzer with the
default units, which finds наибелый with the lexeme белый, белому, наибелый. -/
theorem Demo.compiled_ok : ∃ c, Demo.compiled = .ok c ∧ IsRu { Demo.morph with dict := c.toDict } ∧ c.toDict.pred.head?.map List.length = some 6 ∧
    Demo.firstLexeme { Demo.morph with dict := c.toDict } (c!"наибелый") = some [c!"белый", c!"белому", c!"наибелый"] := by
  have h : (match Demo.compiled with
    | .ok c => decide (c.toDict.pred.head?.map List.length = some 6) &&
        decide (Demo.firstLexeme { Demo.morph with dict := c.toDict } (c!"наибелый") = some [c!"белый", c!"белому", c!"наибелый"])
    | _ => false) = true := by decide +kernel
  split at h
  · next c hc =>
    simp only [Bool.and_eq_true, decide_eq_true_eq] at h
    exact ⟨c, hc, Demo.isRu_of _ _, h.1, h.2⟩
  · simp at h

/-- The hypotheses of `c30_sound` and of `c30_failures` (a dictionary that compiles, one that does not). -/
example : (compileLexemes dedupBuild dedupBuild Demo.copts (Demo.source.lexemes.map Prod.snd)).toOption.isSome = true ∧
    (match compileLexemes dedupBuild dedupBuild { Demo.copts with paradigmPrefixes := [c!"по"] } (Demo.source.lexemes.map Prod.snd) with
      | .ok _ => none
      | .error e => some e) = some .keyError := by decide +kernel

end Verif
