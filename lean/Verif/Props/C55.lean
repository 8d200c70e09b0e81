/-
C55 — lexeme extraction from XML.
-/
import Verif.Model.Xml
import Verif.Lemmas.Run

namespace Verif

/-- The grammemes of an element: the `v` attributes of the `g` elements in it, in document order. -/
def GramsOf (x : Elem) (vs : List Str) : Prop := (x.iter (c!"g")).map (fun g => g.get (c!"v")) = vs.map some

theorem mapE_all_ok {α β : Type} (f : α → Except PyErr β) (l : List α) (r : List β) (h : List.Forall₂ (fun a b => f a = .ok b) l r) :
    mapE f l = .ok r := (mapE_ok_iff f l r).2 h

theorem grammemesFromElem_ok (x : Elem) (vs : List Str) (h : GramsOf x vs) : grammemesFromElem x = .ok (joinC ',' vs) := by
  unfold grammemesFromElem
  have : mapE (fun g : Elem => orType (g.get (c!"v"))) (x.iter (c!"g")) = .ok vs := by
    apply mapE_all_ok
    unfold GramsOf at h
    generalize x.iter (c!"g") = l at h
    induction l generalizing vs with
    | nil =>
      cases vs with
      | nil => exact .nil
      | cons v vs => simp at h
    | cons g l ih =>
      cases vs with
      | nil => simp at h
      | cons v vs =>
        simp only [List.map_cons, List.cons.injEq] at h
        exact .cons (by rw [h.1]; rfl) (ih vs h.2)
  rw [this]; rfl

theorem grammemesFromElem_of_ok (x : Elem) (s : Str) (h : grammemesFromElem x = .ok s) : ∃ vs, GramsOf x vs ∧ s = joinC ',' vs := by
  unfold grammemesFromElem at h
  simp only [bind_ok_iff, pure_eq_ok, Except.ok.injEq] at h
  obtain ⟨vs, hvs, rfl⟩ := h
  refine ⟨vs, ?_, rfl⟩
  rw [mapE_ok_iff] at hvs
  unfold GramsOf
  generalize x.iter (c!"g") = l at hvs
  induction hvs with
  | nil => rfl
  | cons h1 _ ih =>
    simp only [List.map_cons, ih]
    unfold orType at h1
    split at h1
    · next v hv => simp at h1; rw [hv, h1]
    · simp at h1

/-- The form elements, with the value of `t` and the grammemes. -/
def FormsData (fs : List Elem) (data : List (Str × List Str)) : Prop :=
  List.Forall₂ (fun (f : Elem) (d : Str × List Str) => f.get (c!"t") = some d.1 ∧ GramsOf f d.2) fs data

theorem formsLoop_ok (env : Env) (base : Str) (fs : List Elem) (data : List (Str × List Str)) (h : FormsData fs data) :
    formsLoop env base fs = .ok (if base = [] ∧ ∃ d ∈ data, joinC ',' d.2 = [] then none
      else some (data.map fun d => (env.lower d.1, pyStrip env (base ++ ' ' :: joinC ',' d.2)))) := by
  induction h with
  | nil => simp [formsLoop]
  | @cons f d fs data h1 _ ih =>
    simp only [formsLoop, grammemesFromElem_ok f _ h1.2, h1.1, orAttr, ih]
    show (if base ++ joinC ',' d.2 = [] then pure none else _) = _
    by_cases hb : base = []
    · by_cases hd : joinC ',' d.2 = []
      · rw [if_pos (by simp [hb, hd])]
        simp [hb, hd]
      · rw [if_neg (by simp [hd])]
        by_cases hx : ∃ d ∈ data, joinC ',' d.2 = []
        · have hx' : ∃ e ∈ d :: data, joinC ',' e.2 = [] := by
            obtain ⟨e, he, h⟩ := hx; exact ⟨e, by simp [he], h⟩
          rw [if_pos ⟨hb, hx⟩, if_pos ⟨hb, hx'⟩]; rfl
        · have hx' : ¬ ∃ e ∈ d :: data, joinC ',' e.2 = [] := by
            rintro ⟨e, he, h⟩
            rcases List.mem_cons.1 he with rfl | he
            · exact hd h
            · exact hx ⟨e, he, h⟩
          rw [if_neg (fun h => hx h.2), if_neg (fun h => hx' h.2)]; rfl
    · rw [if_neg (by simp [hb]), if_neg (fun h => hb h.1), if_neg (fun h => hb h.1)]; rfl

/-- C55: the forms of a lemma in order, lower-cased, each with the grammemes of the lexeme and of the form; no forms at all when one of them
has no grammeme whatsoever. -/
theorem c55_forms (env : Env) (e l : Elem) (lexGrams : List Str) (data : List (Str × List Str)) (hc : e.children ≠ [])
    (hl : e.iter (c!"l") = [l]) (hlg : GramsOf l lexGrams) (hd : FormsData (e.iter (c!"f")) data) :
    wordForms env e = .ok (e.get (c!"id"),
      if joinC ',' lexGrams = [] ∧ ∃ d ∈ data, joinC ',' d.2 = [] then []
      else data.map fun d => (env.lower d.1, pyStrip env (joinC ',' lexGrams ++ ' ' :: joinC ',' d.2))) := by
  unfold wordForms
  rw [if_neg (by simpa using hc), hl]
  simp only [grammemesFromElem_ok l _ hlg, formsLoop_ok env _ _ _ hd]
  show Except.ok _ = _
  congr 2
  split <;> rfl

theorem dropWhile_eq_self_of_head {p : Char → Bool} {s : Str} (h : ∀ c, s.head? = some c → p c = false) : s.dropWhile p = s := by
  cases s with
  | nil => rfl
  | cons c s => rw [List.dropWhile_cons_of_neg]; simp [h c rfl]

/-- The tag: `lexeme grammemes`, a space, `form grammemes`; without the space when one of them is empty. -/
theorem c55_tag (env : Env) (b g : Str) (hs : env.isSpace ' ' = true) (hb : ∀ c ∈ b, env.isSpace c = false) (hg : ∀ c ∈ g, env.isSpace c = false) :
    pyStrip env (b ++ ' ' :: g) = if b = [] then g else if g = [] then b else b ++ ' ' :: g := by
  have hself : ∀ s : Str, (∀ c ∈ s, env.isSpace c = false) → s.dropWhile env.isSpace = s := fun s h =>
    dropWhile_eq_self_of_head fun c hc => h c (List.mem_of_head? hc)
  have hrev : ∀ s : Str, (∀ c ∈ s, env.isSpace c = false) → (s.reverse.dropWhile env.isSpace).reverse = s := fun s h => by
    rw [hself _ (fun c hc => h c (List.mem_reverse.1 hc)), List.reverse_reverse]
  unfold pyStrip
  by_cases h1 : b = []
  · subst h1
    simp only [List.nil_append, if_true]
    rw [List.dropWhile_cons_of_pos hs, hself g hg, hrev g hg]
  · rw [if_neg h1]
    have hd : (b ++ ' ' :: g).dropWhile env.isSpace = b ++ ' ' :: g := by
      apply dropWhile_eq_self_of_head
      cases b with
      | nil => exact absurd rfl h1
      | cons c b => intro c' hc; simp at hc; subst hc; exact hb c (by simp)
    rw [hd]
    by_cases h2 : g = []
    · subst h2
      rw [if_pos rfl]
      simp only [List.reverse_append, List.reverse_cons, List.reverse_nil, List.nil_append, List.singleton_append]
      rw [List.dropWhile_cons_of_pos hs]
      exact hrev b hb
    · rw [if_neg h2]
      have : ((b ++ ' ' :: g).reverse).dropWhile env.isSpace = (b ++ ' ' :: g).reverse := by
        apply dropWhile_eq_self_of_head
        intro c hc
        rcases List.eq_nil_or_concat g with h | ⟨g', z, rfl⟩
        · exact absurd h h2
        · have : z = c := by simpa using hc
          rw [← this]; exact hg z (by simp)
      rw [this, List.reverse_reverse]

/-- C55: a lemma without children gives no forms. -/
theorem c55_deleted (env : Env) (e : Elem) (h : e.children = []) : wordForms env e = .ok (e.get (c!"id"), []) := by
  unfold wordForms; rw [if_pos (by simp [h])]

/-- C55: a lemma with children must have exactly one `l`. -/
theorem c55_one_base (env : Env) (e : Elem) (hc : e.children ≠ []) (hl : (e.iter (c!"l")).length ≠ 1) : wordForms env e = .error .assertionError := by
  unfold wordForms
  rw [if_neg (by simpa using hc)]
  split
  · next l h => rw [h] at hl; exact absurd rfl hl
  · rfl

theorem joinC_no_space (env : Env) (hcomma : env.isSpace ',' = false) (vs : List Str) (h : ∀ v ∈ vs, ∀ c ∈ v, env.isSpace c = false) :
    ∀ c ∈ joinC ',' vs, env.isSpace c = false := by
  induction vs with
  | nil => simp [joinC]
  | cons v vs ih =>
    cases vs with
    | nil => simpa [joinC] using h v (by simp)
    | cons w vs =>
      intro c hc
      have : joinC ',' (v :: w :: vs) = v ++ ',' :: joinC ',' (w :: vs) := rfl
      rw [this, List.mem_append, List.mem_cons] at hc
      rcases hc with hc | rfl | hc
      · exact h v (by simp) c hc
      · exact hcomma
      · exact ih (fun v hv => h v (by simp [hv])) c hc

theorem formsLoop_of_ok (env : Env) (base : Str) (fs : List Elem) (r : Lexeme) (h : formsLoop env base fs = .ok (some r)) :
    ∃ data, FormsData fs data ∧ (∀ d ∈ data, base ++ joinC ',' d.2 ≠ []) ∧
      r = data.map fun d => (env.lower d.1, pyStrip env (base ++ ' ' :: joinC ',' d.2)) := by
  induction fs generalizing r with
  | nil => simp [formsLoop] at h; subst h; exact ⟨[], .nil, by simp, rfl⟩
  | cons f fs ih =>
    simp only [formsLoop, bind_ok_iff] at h
    obtain ⟨gr, hgr, t, ht, h⟩ := h
    split at h
    · simp at h
    · next hne =>
      simp only [bind_ok_iff, pure_eq_ok, Except.ok.injEq] at h
      obtain ⟨rest, hrest, h⟩ := h
      cases rest with
      | none => simp at h
      | some r' =>
        obtain ⟨data, h1, h2, rfl⟩ := ih r' hrest
        obtain ⟨vs, hvs, rfl⟩ := grammemesFromElem_of_ok f gr hgr
        have ht' : f.get (c!"t") = some t := by
          unfold orAttr at ht; split at ht
          · next a ha => simp at ht; rw [ha, ht]
          · simp at ht
        refine ⟨(t, vs) :: data, .cons ⟨ht', hvs⟩ h1, ?_, ?_⟩
        · intro d hd
          rcases List.mem_cons.1 hd with rfl | hd
          · exact hne
          · exact h2 d hd
        · simpa using h.symm

mutual
theorem all_trans (e x : Elem) (hx : x ∈ e.all) (y : Elem) (hy : y ∈ x.all) : y ∈ e.all := by
  match e with
  | .mk t a z cs =>
    simp only [Elem.all, List.mem_cons] at hx ⊢
    rcases hx with rfl | hx
    · simpa [Elem.all] using hy
    · exact .inr (allList_trans cs x hx y hy)
theorem allList_trans (cs : List Elem) (x : Elem) (hx : x ∈ Elem.allList cs) (y : Elem) (hy : y ∈ x.all) : y ∈ Elem.allList cs := by
  match cs with
  | [] => simp [Elem.allList] at hx
  | c :: cs =>
    simp only [Elem.allList, List.mem_append] at hx ⊢
    rcases hx with hx | hx
    · exact .inl (all_trans c x hx y hy)
    · exact .inr (allList_trans cs x hx y hy)
end

/-- C55: whatever the lemma is, a form that is kept is the lower-cased `t` of a form element of it and has a tag that is not empty
(grammeme names contain no whitespace). -/
theorem c55_kept (env : Env) (hs : env.isSpace ' ' = true) (hcomma : env.isSpace ',' = false) (e : Elem) (id : Option Str) (forms : Lexeme)
    (h : wordForms env e = .ok (id, forms)) (hv : ∀ g ∈ e.all, ∀ v, g.get (c!"v") = some v → ∀ c ∈ v, env.isSpace c = false) :
    id = e.get (c!"id") ∧ ∀ f ∈ forms, f.2 ≠ [] ∧ ∃ x ∈ e.all, x.tag = c!"f" ∧ ∃ t, x.get (c!"t") = some t ∧ f.1 = env.lower t := by
  unfold wordForms at h
  split at h
  · simp only [Except.ok.injEq, Prod.mk.injEq] at h; obtain ⟨rfl, rfl⟩ := h; simp
  · split at h
    · next l hl =>
      simp only [bind_ok_iff, pure_eq_ok, Except.ok.injEq, Prod.mk.injEq] at h
      obtain ⟨base, hbase, r, hr, rfl, rfl⟩ := h
      refine ⟨rfl, ?_⟩
      cases r with
      | none => simp
      | some r =>
        obtain ⟨data, h1, h2, rfl⟩ := formsLoop_of_ok env base _ r hr
        obtain ⟨bs, hbs, rfl⟩ := grammemesFromElem_of_ok l base hbase
        have hns : ∀ x ∈ e.all, ∀ vs, GramsOf x vs → ∀ v ∈ vs, ∀ c ∈ v, env.isSpace c = false := by
          intro x hx vs hvs v hvv
          have : some v ∈ (x.iter (c!"g")).map fun g => g.get (c!"v") := by rw [hvs]; exact List.mem_map_of_mem hvv
          obtain ⟨g, hg, hgv⟩ := List.mem_map.1 this
          exact hv g (all_trans e x hx g (List.mem_filter.1 hg).1) v hgv
        have hlm : l ∈ e.all := by
          have : l ∈ e.iter (c!"l") := by rw [hl]; simp
          exact (List.mem_filter.1 this).1
        intro f hf
        simp only [Option.getD_some] at hf
        obtain ⟨d, hd, rfl⟩ := List.mem_map.1 hf
        obtain ⟨x, hx, hxt, hxg⟩ := forall₂_mem_right h1 hd
        rw [Elem.iter, List.mem_filter, decide_eq_true_eq] at hx
        refine ⟨?_, x, hx.1, hx.2, d.1, hxt, rfl⟩
        show pyStrip env _ ≠ []
        rw [c55_tag env _ _ hs (joinC_no_space env hcomma bs (hns l hlm bs hbs)) (joinC_no_space env hcomma d.2 (hns x hx.1 d.2 hxg))]
        have := h2 d hd
        split
        · next hb => rw [hb] at this; simpa using this
        · next hb => split <;> simp_all
    · simp at h

/-! ### The document -/

/-- Reading the elements of a list one after the other. -/
def readList (env : Env) : List Elem → XmlParsed → Except PyErr XmlParsed
  | [], st => .ok st
  | e :: es, st => do
    let st' ← readElem env e st
    readList env es st'

theorem readList_append (env : Env) (a b : List Elem) (st : XmlParsed) :
    readList env (a ++ b) st = (readList env a st >>= readList env b) := by
  induction a generalizing st with
  | nil => rfl
  | cons e a ih =>
    simp only [List.cons_append, readList]
    cases readElem env e st with
    | error x => rfl
    | ok st' => exact ih st'

mutual
theorem readTree_plain (env : Env) (lx : Bool) (e : Elem) (st : XmlParsed) (h : ∀ x ∈ e.all, x.interesting = false) :
    readTree env lx e st = .ok (e, st) := by
  match e with
  | .mk t a x cs =>
    have hcs := readTrees_plain env lx cs [] st (fun y hy => h y (by simp [Elem.all, hy]))
    have hx := h (.mk t a x cs) (by simp [Elem.all])
    simp only [readTree, hcs]
    show (if (Elem.mk t a x ([] ++ cs)).interesting then _ else _) = _
    simp only [List.nil_append, hx]
    rfl
theorem readTrees_plain (env : Env) (lx : Bool) (cs left : List Elem) (st : XmlParsed) (h : ∀ x ∈ Elem.allList cs, x.interesting = false) :
    readTrees env lx cs left st = .ok (left ++ cs, st) := by
  match cs with
  | [] => simp [readTrees]
  | c :: cs =>
    have h1 := readTree_plain env lx c st (fun y hy => h y (by simp [Elem.allList, hy]))
    have h2 := readTrees_plain env lx cs (left ++ [c]) st (fun y hy => h y (by simp [Elem.allList, hy]))
    have hc : c.interesting = false := h c (by cases c; simp [Elem.allList, Elem.all])
    simp only [readTrees, h1]
    show readTrees env lx cs (if lx = true ∧ c.interesting = true then _ else _) st = _
    rw [if_neg (by simp [hc]), h2]; simp
end

/-- No interesting element lies inside another one (as in every OpenCorpora dictionary). -/
def Flat (es : List Elem) : Prop := ∀ x ∈ es, x.interesting = true → ∀ y ∈ Elem.allList x.children, y.interesting = false

theorem Except.map_snd_bind {α β γ : Type} (x : Except PyErr (α × β)) (f : β → Except PyErr γ) :
    (x >>= fun r => f r.2) = (x.map Prod.snd >>= f) := by cases x <;> rfl

mutual
theorem readTree_list (env : Env) (lx : Bool) (e : Elem) (st : XmlParsed) (h : Flat e.all) :
    (readTree env lx e st).map Prod.snd = readList env (e.all.filter Elem.interesting) st := by
  match e with
  | .mk t a x cs =>
    by_cases hi : (Elem.mk t a x cs).interesting = true
    · have hin := h (.mk t a x cs) (by simp [Elem.all]) hi
      have hcs := readTrees_plain env lx cs [] st hin
      have hf : (Elem.mk t a x cs).all.filter Elem.interesting = [.mk t a x cs] := by
        simp only [Elem.all, List.filter_cons, hi, if_true]
        rw [List.filter_eq_nil_iff.2]
        intro y hy; simp [hin y hy]
      rw [hf]
      simp only [readTree, hcs, readList]
      show Except.map Prod.snd (if (Elem.mk t a x ([] ++ cs)).interesting then _ else _) = _
      simp only [List.nil_append, hi, if_true]
      cases readElem env (Elem.mk t a x cs) st <;> rfl
    · have hcs := readTrees_list env lx cs [] st (fun y hy => h y (by simp [Elem.all, hy]))
      have hf : (Elem.mk t a x cs).all.filter Elem.interesting = (Elem.allList cs).filter Elem.interesting := by
        simp only [Elem.all, List.filter_cons, hi]; rfl
      rw [hf, ← hcs]
      have hi' : ∀ l, (Elem.mk t a x l).interesting = false := by
        intro l
        have : (Elem.mk t a x l).interesting = (Elem.mk t a x cs).interesting := rfl
        rw [this]; simpa using hi
      simp only [readTree, hi']
      cases readTrees env lx cs [] st <;> rfl
theorem readTrees_list (env : Env) (lx : Bool) (cs left : List Elem) (st : XmlParsed) (h : Flat (Elem.allList cs)) :
    (readTrees env lx cs left st).map Prod.snd = readList env ((Elem.allList cs).filter Elem.interesting) st := by
  match cs with
  | [] => rfl
  | c :: cs =>
    have h1 := readTree_list env lx c st (fun y hy => h y (by simp [Elem.allList, hy]))
    simp only [readTrees, Elem.allList, List.filter_append, readList_append]
    rw [← h1]
    cases readTree env lx c st with
    | error x => rfl
    | ok r => exact readTrees_list env lx cs _ r.2 (fun y hy => h y (by simp [Elem.allList, hy]))
end

/-- What a list of elements says. -/
structure DocSays (env : Env) (doc : Elem) (p : XmlParsed) : Prop where
  /-- the grammemes in document order -/
  grammemes : List.Forall₂ (fun e g => readGrammeme e = .ok g) (doc.iter (c!"grammeme")) p.grammemes
  /-- the links in document order -/
  links : p.links = (doc.iter (c!"link")).map fun e => (e.get (c!"from"), e.get (c!"to"), e.get (c!"type"))
  /-- the lexemes: a Python dict filled in document order (a later lemma with the same id replaces an earlier one) -/
  lexemes : ∃ ls, List.Forall₂ (fun e l => wordForms env e = .ok l) (doc.iter (c!"lemma")) ls ∧
    p.lexemes = ls.foldl (fun d l => dictSet l.1 l.2 d) []

theorem Forall₂.snoc {α β : Type} {R : α → β → Prop} {l : List α} {r : List β} {a : α} {b : β} (h : List.Forall₂ R l r) (hab : R a b) :
    List.Forall₂ R (l ++ [a]) (r ++ [b]) := by
  induction h with
  | nil => exact .cons hab .nil
  | cons h1 _ ih => exact .cons h1 ih

theorem readList_spec (env : Env) (es : List Elem) (st p : XmlParsed) (h : readList env es st = .ok p) :
    ∃ gs ls, List.Forall₂ (fun e g => readGrammeme e = .ok g) (es.filter fun x => decide (x.tag = c!"grammeme")) gs ∧
      p.grammemes = st.grammemes ++ gs ∧
      p.links = st.links ++ (es.filter fun x => decide (x.tag = c!"link")).map (fun e => (e.get (c!"from"), e.get (c!"to"), e.get (c!"type"))) ∧
      List.Forall₂ (fun e l => wordForms env e = .ok l) (es.filter fun x => decide (x.tag = c!"lemma")) ls ∧
      p.lexemes = ls.foldl (fun d l => dictSet l.1 l.2 d) st.lexemes := by
  induction es generalizing st with
  | nil => simp [readList] at h; subst h; exact ⟨[], [], .nil, by simp, by simp, .nil, rfl⟩
  | cons e es ih =>
    simp only [readList, bind_ok_iff] at h
    obtain ⟨st', hst, h⟩ := h
    obtain ⟨gs, ls, i1, i2, i3, i4, i5⟩ := ih st' h
    unfold readElem at hst
    split at hst
    · next ht =>
      simp only [bind_ok_iff, pure_eq_ok, Except.ok.injEq] at hst
      obtain ⟨g, hg, rfl⟩ := hst
      refine ⟨g :: gs, ls, ?_, by rw [i2]; simp, ?_, ?_, i5⟩
      · rw [List.filter_cons_of_pos (by simpa using ht)]; exact .cons hg i1
      · rw [List.filter_cons_of_neg (by rw [ht]; decide)]; exact i3
      · rw [List.filter_cons_of_neg (by rw [ht]; decide)]; exact i4
    · next h1 =>
      split at hst
      · next ht =>
        simp only [bind_ok_iff, pure_eq_ok, Except.ok.injEq] at hst
        obtain ⟨l, hl, rfl⟩ := hst
        refine ⟨gs, l :: ls, ?_, i2, ?_, ?_, i5⟩
        · rw [List.filter_cons_of_neg (by rw [ht]; decide)]; exact i1
        · rw [List.filter_cons_of_neg (by rw [ht]; decide)]; exact i3
        · rw [List.filter_cons_of_pos (by simpa using ht)]; exact .cons hl i4
      · next h2 =>
        split at hst
        · next ht =>
          simp only [pure_eq_ok, Except.ok.injEq] at hst
          subst hst
          refine ⟨gs, ls, ?_, i2, ?_, ?_, i5⟩
          · rw [List.filter_cons_of_neg (by rw [ht]; decide)]; exact i1
          · rw [List.filter_cons_of_pos (by simpa using ht), i3]; simp
          · rw [List.filter_cons_of_neg (by rw [ht]; decide)]; exact i4
        · next h3 =>
          simp only [pure_eq_ok, Except.ok.injEq] at hst
          subst hst
          refine ⟨gs, ls, ?_, i2, ?_, ?_, i5⟩
          · rw [List.filter_cons_of_neg (by simpa using h1)]; exact i1
          · rw [List.filter_cons_of_neg (by simpa using h3)]; exact i3
          · rw [List.filter_cons_of_neg (by simpa using h2)]; exact i4

/-- C55, the whole document, with either XML library: all lexemes, links and grammemes, in document order. -/
theorem c55_document (env : Env) (lx : Bool) (doc : Elem) (hflat : Flat doc.all) (p : XmlParsed) (v : Option Str × Option Str)
    (h : parseXml env lx doc = .ok (p, v)) : DocSays env doc p := by
  unfold parseXml at h
  simp only [bind_ok_iff, pure_eq_ok, Except.ok.injEq, Prod.mk.injEq] at h
  obtain ⟨r, hr, rfl, _⟩ := h
  have hl := readTree_list env lx doc ⟨[], [], []⟩ hflat
  rw [hr] at hl
  obtain ⟨gs, ls, h1, h2, h3, h4, h5⟩ := readList_spec env _ _ _ hl.symm
  have hf : ∀ t, (t = c!"grammeme" ∨ t = c!"lemma" ∨ t = c!"link") →
      (doc.all.filter Elem.interesting).filter (fun x => decide (x.tag = t)) = doc.iter t := by
    intro t ht
    rw [List.filter_filter, Elem.iter]
    apply List.filter_congr
    intro x _
    by_cases hx : x.tag = t
    · have : x.interesting = true := by unfold Elem.interesting; rw [hx]; simpa using ht
      simp [hx, this]
    · simp [hx]
  rw [hf _ (.inl rfl)] at h1
  rw [hf _ (.inr (.inr rfl))] at h3
  rw [hf _ (.inr (.inl rfl))] at h4
  simp only [List.nil_append] at h2 h3
  exact ⟨h2 ▸ h1, h3, ls, h4, h5⟩

/-- C55: with either XML library the outcome is the same. -/
theorem c55_library_independent (env : Env) (doc : Elem) (hflat : Flat doc.all) : parseXml env true doc = parseXml env false doc := by
  have h1 := readTree_list env true doc ⟨[], [], []⟩ hflat
  have h2 := readTree_list env false doc ⟨[], [], []⟩ hflat
  have key : ∀ lx, parseXml env lx doc = ((readTree env lx doc ⟨[], [], []⟩).map Prod.snd).map fun st => (st, dictionaryInfo doc) := by
    intro lx
    unfold parseXml
    cases readTree env lx doc ⟨[], [], []⟩ <;> rfl
  rw [key, key, h1, h2]

/-- C55: the document is accepted exactly when each grammeme has a name, alias and description element and each lemma can be read. -/
theorem c55_accepted (env : Env) (lx : Bool) (doc : Elem) (hflat : Flat doc.all) :
    (∃ r, parseXml env lx doc = .ok r) ↔
      (∀ e ∈ doc.iter (c!"lemma"), ∃ l, wordForms env e = .ok l) ∧
      ∀ e ∈ doc.iter (c!"grammeme"), (e.find (c!"name")).isSome ∧ (e.find (c!"alias")).isSome ∧ (e.find (c!"description")).isSome := by
  have hgr : ∀ e, (∃ g, readGrammeme e = .ok g) ↔ (e.find (c!"name")).isSome ∧ (e.find (c!"alias")).isSome ∧ (e.find (c!"description")).isSome := by
    intro e
    unfold readGrammeme
    cases h1 : e.find (c!"name") with
    | none => exact ⟨fun ⟨g, h⟩ => (by cases h), fun h => (by cases h.1)⟩
    | some a =>
      cases h2 : e.find (c!"alias") with
      | none => exact ⟨fun ⟨g, h⟩ => (by cases h), fun h => (by cases h.2.1)⟩
      | some b =>
        cases h3 : e.find (c!"description") with
        | none => exact ⟨fun ⟨g, h⟩ => (by cases h), fun h => (by cases h.2.2)⟩
        | some c => exact ⟨fun _ => ⟨rfl, rfl, rfl⟩, fun _ => ⟨_, rfl⟩⟩
  have hlist : ∀ (es : List Elem) (st : XmlParsed), (∃ p, readList env es st = .ok p) ↔
      (∀ e ∈ es, e.tag = c!"lemma" → ∃ l, wordForms env e = .ok l) ∧ ∀ e ∈ es, e.tag = c!"grammeme" → ∃ g, readGrammeme e = .ok g := by
    intro es
    induction es with
    | nil => intro st; simp [readList]
    | cons e es ih =>
      intro st
      simp only [readList, bind_ok_iff, List.forall_mem_cons]
      have hne : (c!"lemma" : Str) ≠ c!"grammeme" := by decide
      constructor
      · rintro ⟨p, st', hst, h⟩
        obtain ⟨i1, i2⟩ := (ih st').1 ⟨p, h⟩
        unfold readElem at hst
        refine ⟨⟨fun ht => ?_, i1⟩, fun ht => ?_, i2⟩
        · rw [if_neg (by rw [ht]; decide), if_pos ht] at hst
          simp only [bind_ok_iff] at hst
          obtain ⟨l, hl, _⟩ := hst; exact ⟨l, hl⟩
        · rw [if_pos ht] at hst
          simp only [bind_ok_iff] at hst
          obtain ⟨l, hl, _⟩ := hst; exact ⟨l, hl⟩
      · rintro ⟨⟨hl, i1⟩, hg, i2⟩
        have : ∃ st', readElem env e st = .ok st' := by
          unfold readElem
          split
          · next ht => obtain ⟨g, h⟩ := hg ht; rw [h]; exact ⟨_, rfl⟩
          · split
            · next ht => obtain ⟨l, h⟩ := hl ht; rw [h]; exact ⟨_, rfl⟩
            · split
              · exact ⟨_, rfl⟩
              · exact ⟨_, rfl⟩
        obtain ⟨st', hst⟩ := this
        obtain ⟨p, hp⟩ := (ih st').2 ⟨i1, i2⟩
        exact ⟨p, st', hst, hp⟩
  have hl := readTree_list env lx doc ⟨[], [], []⟩ hflat
  have h1 : (∃ r, parseXml env lx doc = .ok r) ↔ ∃ p, readList env (doc.all.filter Elem.interesting) ⟨[], [], []⟩ = .ok p := by
    rw [← hl]
    unfold parseXml
    cases readTree env lx doc ⟨[], [], []⟩ with
    | error x => exact ⟨fun ⟨r, h⟩ => (by cases h), fun ⟨r, h⟩ => (by cases h)⟩
    | ok r => exact ⟨fun _ => ⟨_, rfl⟩, fun _ => ⟨_, rfl⟩⟩
  rw [h1, hlist]
  simp only [Elem.iter, List.mem_filter, decide_eq_true_eq, Elem.interesting]
  constructor
  · rintro ⟨a, b⟩
    exact ⟨fun e he => a e ⟨he.1, .inr (.inl he.2)⟩ he.2, fun e he => (hgr e).1 (b e ⟨he.1, .inl he.2⟩ he.2)⟩
  · rintro ⟨a, b⟩
    exact ⟨fun e he ht => a e ⟨he.1, ht⟩, fun e he ht => (hgr e).2 (b e ⟨he.1, ht⟩)⟩

/-- C55: version and revision are those of the root element, if this is a `dictionary`. -/
theorem c55_version (env : Env) (lx : Bool) (doc : Elem) (p : XmlParsed) (v : Option Str × Option Str) (h : parseXml env lx doc = .ok (p, v))
    (hroot : doc.tag = c!"dictionary") : v = (doc.get (c!"version"), doc.get (c!"revision")) := by
  unfold parseXml at h
  simp only [bind_ok_iff, pure_eq_ok, Except.ok.injEq, Prod.mk.injEq] at h
  obtain ⟨r, _, _, rfl⟩ := h
  cases doc with
  | mk t a x cs =>
    have ht : t = c!"dictionary" := hroot
    unfold dictionaryInfo
    simp only [Elem.all, List.take_succ_cons, List.find?_cons, Elem.tag, ht, decide_true]

/-! ### A concrete dictionary -/

def Demo.g (v : Str) : Elem := .mk (c!"g") [(c!"v", v)] none []
def Demo.lemmaElem (id : Str) (base : List Str) (forms : List (Str × List Str)) : Elem :=
  .mk (c!"lemma") [(c!"id", id)] none
    (.mk (c!"l") [] none (base.map Demo.g) :: forms.map fun f => .mk (c!"f") [(c!"t", f.1)] none (f.2.map Demo.g))
def Demo.doc : Elem := .mk (c!"dictionary") [(c!"version", c!"0.92"), (c!"revision", c!"403605")] none [
  .mk (c!"grammemes") [] none [.mk (c!"grammeme") [(c!"parent", c!"POST")] none [
    .mk (c!"name") [] (some (c!"NOUN")) [], .mk (c!"alias") [] (some (c!"СУЩ")) [], .mk (c!"description") [] none []]],
  .mk (c!"lemmata") [] none [
    Demo.lemmaElem (c!"1") [c!"NOUN", c!"anim"] [(c!"Кошка", [c!"sing", c!"nomn"]), (c!"КОШЕК", [c!"plur"])],
    Demo.lemmaElem (c!"2") [] [(c!"а", [c!"CONJ"])],
    Demo.lemmaElem (c!"3") [] [(c!"б", [c!"CONJ"]), (c!"в", [])],
    .mk (c!"lemma") [(c!"id", c!"4")] none []],
  .mk (c!"links") [] none [.mk (c!"link") [(c!"from", c!"1"), (c!"to", c!"2"), (c!"type", c!"3")] none []]]

mutual
def Elem.flatB : Elem → Bool
  | .mk t a x cs => (!(Elem.mk t a x cs).interesting || (Elem.allList cs).all fun y => !y.interesting) && Elem.flatListB cs
def Elem.flatListB : List Elem → Bool
  | [] => true
  | c :: cs => c.flatB && Elem.flatListB cs
end

mutual
theorem flatB_flat (e : Elem) (h : e.flatB = true) : Flat e.all := by
  match e with
  | .mk t a x cs =>
    simp only [Elem.flatB, Bool.and_eq_true, Bool.or_eq_true, Bool.not_eq_true', List.all_eq_true] at h
    intro y hy hi z hz
    simp only [Elem.all, List.mem_cons] at hy
    rcases hy with rfl | hy
    · rcases h.1 with h1 | h1
      · rw [h1] at hi; simp at hi
      · exact h1 z hz
    · exact flatListB_flat cs h.2 y hy hi z hz
theorem flatListB_flat (cs : List Elem) (h : Elem.flatListB cs = true) : Flat (Elem.allList cs) := by
  match cs with
  | [] => intro y hy; simp [Elem.allList] at hy
  | c :: cs =>
    simp only [Elem.flatListB, Bool.and_eq_true] at h
    intro y hy
    simp only [Elem.allList, List.mem_append] at hy
    rcases hy with hy | hy
    · exact flatB_flat c h.1 y hy
    · exact flatListB_flat cs h.2 y hy
end

theorem c55_demo : Flat Demo.doc.all ∧ parseXml demoEnv true Demo.doc = .ok (
    { lexemes := [(some (c!"1"), [(c!"кошка", c!"NOUN,anim sing,nomn"), (c!"кошек", c!"NOUN,anim plur")]), (some (c!"2"), [(c!"а", c!"CONJ")]),
        (some (c!"3"), []), (some (c!"4"), [])]
      links := [(some (c!"1"), some (c!"2"), some (c!"3"))]
      grammemes := [(some (c!"NOUN"), some (c!"POST"), some (c!"СУЩ"), none)] }, some (c!"0.92"), some (c!"403605")) :=
  ⟨flatB_flat _ (by decide +kernel), by decide +kernel⟩

end Verif
