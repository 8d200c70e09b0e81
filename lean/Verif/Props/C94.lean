/-
C94: the values of attributes stand for grammemes.  They are instances of a subclass of `str` with an `__eq__` that raises; this file shows
that sets, dicts, `inflect` and `make_agree_with_number` do not notice.
-/
import Verif.Model.Typed
import Verif.Lemmas.Bind
import Verif.Props.C20
import Verif.Props.C24
import Verif.Props.C75
import Mathlib.Data.Finset.SymmDiff
import Mathlib.Data.Finset.Card

set_option linter.unusedSectionVars false

namespace Verif

variable {S : Type} [Score S]

/-! ### Specification -/

/-- Hash tables as Python keeps them: the entries of a set of strings are its members, each once. -/
structure HashTables.Faithful (T : HashTables) : Prop where
  mem : ∀ s g, g ∈ T.arr s ↔ g ∈ s
  nodup : ∀ s, (T.arr s).Nodup

/-- No two of these strings have the same hash. -/
def HashTables.NoClash (T : HashTables) (U : Str → Prop) : Prop := ∀ g g', U g → U g' → T.hash g = T.hash g' → g = g'

/-- A string that can exist: a typed one is a member of its category (tagset.py:47-54). -/
def GStr.Valid : GStr → Prop
  | .plain _ => True
  | .typed cat s => s ∈ cat

/-- The string, and for a typed one the strings of its category, are among these. -/
def GStr.Within (U : Str → Prop) : GStr → Prop
  | .plain s => U s
  | .typed cat s => U s ∧ ∀ g ∈ cat, U g

/-- A Python set of strings, typed or not: all valid, no two with the same characters. -/
structure IsSet (U : Str → Prop) (l : List GStr) : Prop where
  nodup : (l.map GStr.str).Nodup
  valid : ∀ x ∈ l, x.Valid
  within : ∀ x ∈ l, x.Within U

/-- The characters of the members. -/
def chars (l : List GStr) : Grams := (l.map GStr.str).toFinset

/-! ### Sets -/

theorem GStr.Within.str {U : Str → Prop} {x : GStr} (h : x.Within U) : U x.str := by
  cases x with
  | plain => exact h
  | typed => exact h.1

theorem IsSet.set {T : HashTables} (hT : T.Faithful) {U : Str → Prop} {s : Grams} (h : ∀ g ∈ s, U g) : IsSet U (T.set s) := by
  refine ⟨?_, ?_, ?_⟩
  · unfold HashTables.set
    rw [List.map_map]
    have : (GStr.str ∘ GStr.plain) = id := rfl
    rw [this, List.map_id]
    exact hT.nodup s
  · intro x hx
    obtain ⟨g, _, rfl⟩ := List.mem_map.1 hx
    trivial
  · intro x hx
    obtain ⟨g, hg, rfl⟩ := List.mem_map.1 hx
    exact h g ((hT.mem s g).1 hg)

theorem chars_set {T : HashTables} (hT : T.Faithful) (s : Grams) : chars (T.set s) = s := by
  ext g
  simp [chars, HashTables.set, GStr.str, hT.mem]

theorem mem_chars {l : List GStr} {g : Str} : g ∈ chars l ↔ ∃ x ∈ l, x.str = g := by simp [chars]

theorem IsSet.card {U : Str → Prop} {l : List GStr} (h : IsSet U l) : (chars l).card = l.length := by
  unfold chars
  rw [List.toFinset_card_of_nodup h.nodup, List.length_map]

theorem inCatLoop_ok {T : HashTables} {U : Str → Prop} (hc : T.NoClash U) {cat' : Grams} {s : Str} (hs : s ∈ cat') (hU : U s) (l : List Str)
    (hl : ∀ e ∈ l, U e) : inCatLoop T cat' s l = .ok (decide (s ∈ l)) := by
  induction l with
  | nil => rfl
  | cons e l ih =>
    have ih := ih fun e h => hl e (List.mem_cons_of_mem _ h)
    unfold inCatLoop
    split
    · next h =>
      have := hc _ _ (hl e (List.mem_cons_self ..)) hU h
      subst this
      simp [typedEqPlain, hs]
    · next h =>
      rw [ih]
      have : s ≠ e := by rintro rfl; exact h rfl
      simp [this]

theorem gEq_same {T : HashTables} (hT : T.Faithful) {U : Str → Prop} (hc : T.NoClash U) {x y : GStr} (hx : x.Valid) (hy : y.Valid) (hxU : x.Within U)
    (hyU : y.Within U) (h : T.hash x.str = T.hash y.str) : gEq T x y = .ok true := by
  have e := hc _ _ hxU.str hyU.str h
  cases x with
  | plain a =>
    cases y with
    | plain b => simpa [gEq, GStr.str] using e
    | typed cat s =>
      have e : a = s := e
      subst e
      have hy : a ∈ cat := hy
      simp [gEq, typedEqPlain, hy]
  | typed cat s =>
    have hx : s ∈ cat := hx
    have e : s = y.str := e
    have hk : inCat T cat y = .ok true := by
      cases y with
      | plain b =>
        have e : s = b := e
        subst e
        simp [inCat, hx]
      | typed cat' b =>
        have e : s = b := e
        subst e
        show inCatLoop T cat' s (T.arr cat) = .ok true
        rw [inCatLoop_ok hc hy hyU.1 _ fun e he => hxU.2 e ((hT.mem _ _).1 he)]
        simp [(hT.mem _ _).2 hx]
    simp [gEq, hk, e]

theorem setHas_ok {T : HashTables} (hT : T.Faithful) {U : Str → Prop} (hc : T.NoClash U) {l : List GStr} (hl : ∀ x ∈ l, x.Valid) (hlU : ∀ x ∈ l, x.Within U)
    {k : GStr} (hk : k.Valid) (hkU : k.Within U) : setHas T l k = .ok (decide (k.str ∈ chars l)) := by
  induction l with
  | nil => rfl
  | cons e l ih =>
    have ih := ih (fun x h => hl x (List.mem_cons_of_mem _ h)) (fun x h => hlU x (List.mem_cons_of_mem _ h))
    unfold setHas
    have he := hl e (List.mem_cons_self ..)
    have heU := hlU e (List.mem_cons_self ..)
    split
    · next h =>
      rw [gEq_same hT hc he hk heU hkU h]
      have := hc _ _ heU.str hkU.str h
      simp [chars, this]
    · next h =>
      rw [ih]
      have : k.str ≠ e.str := by intro e; exact h (by rw [e])
      simp [chars, this]

theorem allIn_ok {T : HashTables} (hT : T.Faithful) {U : Str → Prop} (hc : T.NoClash U) {a b : List GStr} (ha : ∀ x ∈ a, x.Valid) (haU : ∀ x ∈ a, x.Within U)
    (hb : IsSet U b) : allIn T b a = .ok (decide (chars a ⊆ chars b)) := by
  induction a with
  | nil => simp [allIn, chars]
  | cons k a ih =>
    have ih := ih (fun x h => ha x (List.mem_cons_of_mem _ h)) (fun x h => haU x (List.mem_cons_of_mem _ h))
    unfold allIn
    rw [setHas_ok hT hc hb.valid hb.within (ha k (List.mem_cons_self ..)) (haU k (List.mem_cons_self ..)), ok_bind]
    have e : chars (k :: a) = insert k.str (chars a) := by simp [chars]
    by_cases h : k.str ∈ chars b
    · simp [h, ih, e, Finset.insert_subset_iff]
    · simp [h, e, Finset.insert_subset_iff]

theorem subsetP_ok {T : HashTables} (hT : T.Faithful) {U : Str → Prop} (hc : T.NoClash U) {a b : List GStr} (ha : IsSet U a) (hb : IsSet U b) :
    subsetP T a b = .ok (decide (chars a ⊆ chars b)) := by
  unfold subsetP
  split
  · next h =>
    have : ¬ chars a ⊆ chars b := by
      intro hs
      have := Finset.card_le_card hs
      rw [ha.card, hb.card] at this
      omega
    simp [this]
  · exact allIn_ok hT hc ha.valid ha.within hb

theorem addP_ok {T : HashTables} (hT : T.Faithful) {U : Str → Prop} (hc : T.NoClash U) {a : List GStr} (ha : IsSet U a) {k : GStr} (hk : k.Valid)
    (hkU : k.Within U) : ∃ r, addP T a k = .ok r ∧ IsSet U r ∧ chars r = insert k.str (chars a) := by
  unfold addP
  rw [setHas_ok hT hc ha.valid ha.within hk hkU, ok_bind]
  by_cases h : k.str ∈ chars a
  · refine ⟨a, by simp [h], ha, ?_⟩
    rw [Finset.insert_eq_of_mem h]
  · refine ⟨a ++ [k], by simp [h], ⟨?_, ?_, ?_⟩, ?_⟩
    · rw [List.map_append, List.nodup_append]
      refine ⟨ha.nodup, by simp, ?_⟩
      intro x hx y hy e
      simp only [List.map_cons, List.map_nil, List.mem_singleton] at hy
      subst hy e
      exact h (by simpa [chars] using hx)
    · intro x hx
      rcases List.mem_append.1 hx with hx | hx
      · exact ha.valid x hx
      · simp only [List.mem_singleton] at hx; subst hx; exact hk
    · intro x hx
      rcases List.mem_append.1 hx with hx | hx
      · exact ha.within x hx
      · simp only [List.mem_singleton] at hx; subst hx; exact hkU
    · ext g; simp [chars, or_comm, eq_comm]

theorem unionP_ok {T : HashTables} (hT : T.Faithful) {U : Str → Prop} (hc : T.NoClash U) {a b : List GStr} (ha : IsSet U a) (hb : ∀ x ∈ b, x.Valid)
    (hbU : ∀ x ∈ b, x.Within U) : ∃ r, unionP T a b = .ok r ∧ IsSet U r ∧ chars r = chars a ∪ chars b := by
  induction b generalizing a with
  | nil => exact ⟨a, rfl, ha, by simp [chars]⟩
  | cons k b ih =>
    obtain ⟨a', h1, h2, h3⟩ := addP_ok hT hc ha (hb k (List.mem_cons_self ..)) (hbU k (List.mem_cons_self ..))
    obtain ⟨r, h4, h5, h6⟩ := ih h2 (fun x h => hb x (List.mem_cons_of_mem _ h)) (fun x h => hbU x (List.mem_cons_of_mem _ h))
    refine ⟨r, ?_, h5, ?_⟩
    · unfold unionP
      rw [h1, ok_bind, h4]
    · rw [h6, h3]
      ext g
      simp [chars]

theorem filterE_pure {α : Type} {f : α → Except PyErr Bool} {p : α → Bool} {l : List α} (h : ∀ a ∈ l, f a = .ok (p a)) :
    filterE f l = .ok (l.filter p) := by
  induction l with
  | nil => rfl
  | cons a l ih =>
    unfold filterE
    rw [h a (List.mem_cons_self ..), ok_bind, ih fun b hb => h b (List.mem_cons_of_mem _ hb), ok_bind]
    cases hp : p a <;> simp [hp, pure_eq_ok]

theorem IsSet.filter {U : Str → Prop} {l : List GStr} (h : IsSet U l) (p : GStr → Bool) : IsSet U (l.filter p) :=
  ⟨h.nodup.sublist (List.Sublist.map _ (List.filter_sublist ..)), fun x hx => h.valid x (List.mem_of_mem_filter hx),
    fun x hx => h.within x (List.mem_of_mem_filter hx)⟩

theorem diffP_ok {T : HashTables} (hT : T.Faithful) {U : Str → Prop} (hc : T.NoClash U) {a b : List GStr} (ha : IsSet U a) (hb : IsSet U b) :
    ∃ r, diffP T a b = .ok r ∧ IsSet U r ∧ chars r = chars a \ chars b := by
  refine ⟨a.filter fun k => !decide (k.str ∈ chars b), ?_, ha.filter _, ?_⟩
  · unfold diffP
    refine filterE_pure fun k hk => ?_
    rw [setHas_ok hT hc hb.valid hb.within (ha.valid k hk) (ha.within k hk)]; rfl
  · ext g
    simp only [mem_chars, List.mem_filter, Finset.mem_sdiff]
    constructor
    · rintro ⟨x, ⟨h1, h2⟩, rfl⟩
      exact ⟨⟨x, h1, rfl⟩, by simpa [mem_chars] using h2⟩
    · rintro ⟨⟨x, h1, rfl⟩, h2⟩
      exact ⟨x, ⟨h1, by simpa [mem_chars] using h2⟩, rfl⟩

theorem interP_ok {T : HashTables} (hT : T.Faithful) {U : Str → Prop} (hc : T.NoClash U) {a b : List GStr} (ha : IsSet U a) (hb : IsSet U b) :
    ∃ r, interP T a b = .ok r ∧ r.length = (chars a ∩ chars b).card := by
  refine ⟨a.filter fun k => decide (k.str ∈ chars b), ?_, ?_⟩
  · unfold interP
    refine filterE_pure fun k hk => ?_
    rw [setHas_ok hT hc hb.valid hb.within (ha.valid k hk) (ha.within k hk)]
  · rw [← (ha.filter _).card]
    congr 1
    ext g
    simp only [mem_chars, List.mem_filter, Finset.mem_inter]
    constructor
    · rintro ⟨x, ⟨h1, h2⟩, rfl⟩
      exact ⟨⟨x, h1, rfl⟩, by simpa [mem_chars] using h2⟩
    · rintro ⟨⟨x, h1, rfl⟩, h2⟩
      exact ⟨x, ⟨h1, by simpa [mem_chars] using h2⟩, rfl⟩

theorem xorLenP_ok {T : HashTables} (hT : T.Faithful) {U : Str → Prop} (hc : T.NoClash U) {a b : List GStr} (ha : IsSet U a) (hb : IsSet U b) :
    xorLenP T a b = .ok (symmDiff (chars a) (chars b)).card := by
  obtain ⟨x, h1, h2, h3⟩ := diffP_ok hT hc ha hb
  obtain ⟨y, h4, h5, h6⟩ := diffP_ok hT hc hb ha
  unfold xorLenP
  rw [h1, ok_bind, h4, ok_bind, ← h2.card, ← h5.card, h3, h6]
  have : symmDiff (chars a) (chars b) = (chars a \ chars b) ∪ (chars b \ chars a) := rfl
  rw [this, Finset.card_union_of_disjoint]
  · rfl
  · rw [Finset.disjoint_left]
    intro g h1 h2
    simp only [Finset.mem_sdiff] at h1 h2
    exact h1.2 h2.1

/-! ### `inflect` -/

theorem rareLoop_ok {T : HashTables} (hT : T.Faithful) {U : Str → Prop} (hc : T.NoClash U) {g : GStr} (hg : g.Valid) (hgU : g.Within U) (ks : List (Str × Str))
    (hk : ∀ kv ∈ ks, U kv.1 ∧ U kv.2) :
    ∃ r, rareLoop T g ks = .ok r ∧ r.str = (dictGet g.str ks).getD g.str ∧ r.Valid ∧ r.Within U := by
  induction ks with
  | nil => exact ⟨g, rfl, rfl, hg, hgU⟩
  | cons kv ks ih =>
    obtain ⟨k, v⟩ := kv
    obtain ⟨h1, h2⟩ := hk _ (List.mem_cons_self ..)
    obtain ⟨r, e1, e2, e3, e4⟩ := ih fun kv h => hk kv (List.mem_cons_of_mem _ h)
    unfold rareLoop
    split
    · next h =>
      have e := hc _ _ h1 hgU.str h
      rw [gEq_same hT hc (x := .plain k) trivial hg h1 hgU h]
      refine ⟨.plain v, rfl, ?_, trivial, h2⟩
      dsimp only at e
      simp [dictGet, e, GStr.str]
    · next h =>
      refine ⟨r, e1, ?_, e3, e4⟩
      have : k ≠ g.str := by rintro rfl; exact h rfl
      rw [e2]
      simp [dictGet, this]

theorem mapE_each {α β : Type} {f : α → Except PyErr β} {P : α → β → Prop} {l : List α} (h : ∀ a ∈ l, ∃ b, f a = .ok b ∧ P a b) :
    ∃ r, mapE f l = .ok r ∧ List.Forall₂ P l r := by
  induction l with
  | nil => exact ⟨[], rfl, .nil⟩
  | cons a l ih =>
    obtain ⟨b, h1, h2⟩ := h a (List.mem_cons_self ..)
    obtain ⟨r, h3, h4⟩ := ih fun x hx => h x (List.mem_cons_of_mem _ hx)
    refine ⟨b :: r, ?_, .cons h2 h4⟩
    unfold mapE
    rw [h1, ok_bind, h3, ok_bind]; rfl

theorem fixRareP_ok {T : HashTables} (hT : T.Faithful) {U : Str → Prop} (hc : T.NoClash U) {req : List GStr} (hr : IsSet U req)
    (hk : ∀ kv ∈ RARE_CASES, U kv.1 ∧ U kv.2) :
    ∃ r, fixRareP T req = .ok r ∧ IsSet U r ∧ chars r = ((req.map GStr.str).map fixRare1).toFinset := by
  obtain ⟨l, h1, h2⟩ := mapE_each (f := fun g => rareLoop T g RARE_CASES) (l := req)
    (P := fun g r => r.str = (dictGet g.str RARE_CASES).getD g.str ∧ r.Valid ∧ r.Within U)
    fun g hg => rareLoop_ok hT hc (hr.valid g hg) (hr.within g hg) RARE_CASES hk
  obtain ⟨r, h3, h4, h5⟩ := unionP_ok hT hc (a := []) ⟨by simp, by simp, by simp⟩
    (fun x hx => by obtain ⟨y, _, h⟩ := forall₂_mem_right h2 hx; exact h.2.1) (fun x hx => by obtain ⟨y, _, h⟩ := forall₂_mem_right h2 hx; exact h.2.2)
  refine ⟨r, by unfold fixRareP; rw [h1, ok_bind, h3], h4, ?_⟩
  rw [h5]
  have : l.map GStr.str = (req.map GStr.str).map fixRare1 := by
    clear h1 h3 h5 h4
    induction h2 with
    | nil => rfl
    | @cons g x _ _ hx _ ih =>
      have ih := ih ⟨(List.nodup_cons.1 hr.nodup).2, fun x h => hr.valid x (List.mem_cons_of_mem _ h), fun x h => hr.within x (List.mem_cons_of_mem _ h)⟩
      simp only [List.map_cons, ih]
      rw [hx.1]; rfl
  simp [chars, this]

theorem updatedLoopP_ok {T : HashTables} (hT : T.Faithful) {U : Str → Prop} (hc : T.NoClash U) (c : TagCls) (hk : ∀ g ∈ c.known, U g)
    (hi : ∀ r, ∀ g ∈ c.incompat r, U g) (req g : List GStr) (hr : IsSet U req) (hg : IsSet U g) :
    (∀ e, updatedLoop c (req.map GStr.str) (chars g) = .error e → updatedLoopP T c req g = .error e) ∧
    ∀ g', updatedLoop c (req.map GStr.str) (chars g) = .ok g' → ∃ r, updatedLoopP T c req g = .ok r ∧ IsSet U r ∧ chars r = g' := by
  induction req generalizing g with
  | nil =>
    refine ⟨fun e h => by simp [updatedLoop] at h, fun g' h => ⟨g, rfl, hg, ?_⟩⟩
    simpa [updatedLoop] using h
  | cons r rs ih =>
    have hrs : IsSet U rs := ⟨(List.nodup_cons.1 hr.nodup).2, fun x h => hr.valid x (List.mem_cons_of_mem _ h), fun x h => hr.within x (List.mem_cons_of_mem _ h)⟩
    simp only [List.map_cons, updatedLoop, updatedLoopP, TagCls.isKnown]
    cases hinit : c.assertInit with
    | error e0 => simp
    | ok =>
      simp only [ok_bind, pure_eq_ok]
      rw [setHas_ok hT hc (IsSet.set hT hk).valid (IsSet.set hT hk).within (hr.valid r (List.mem_cons_self ..)) (hr.within r (List.mem_cons_self ..)),
        chars_set hT]
      by_cases h : r.str ∈ c.known
      · simp only [h, decide_true, if_true, ok_bind]
        obtain ⟨g1, d1, d2, d3⟩ := diffP_ok hT hc hg (IsSet.set hT (hi r.str))
        rw [d1, ok_bind]
        rw [chars_set hT] at d3
        rw [← d3]
        exact ih g1 hrs d2
      · simp [h]

theorem updatedGrammemes_congr (c : TagCls) (t : Tag) (req req' : List Str) (h : ∀ x, x ∈ req ↔ x ∈ req') :
    updatedGrammemes c t req = updatedGrammemes c t req' := by
  have hne : req ≠ [] ↔ req' ≠ [] := by
    simp only [ne_eq, List.eq_nil_iff_forall_not_mem, h]
  obtain ⟨a1, a2, a3⟩ := c24_error c t req
  obtain ⟨b1, b2, b3⟩ := c24_error c t req'
  cases hr : updatedGrammemes c t req with
  | ok g => exact ((c24_order_irrelevant c t req req' h g).1 hr).symm
  | error e =>
    rcases a3 e hr with rfl | rfl
    · obtain ⟨⟨r, h1, h2⟩, h3⟩ := a1.1 hr
      exact (b1.2 ⟨⟨r, (h r).1 h1, h2⟩, h3⟩).symm
    · obtain ⟨h1, h2⟩ := a2.1 hr
      exact (b2.2 ⟨hne.1 h1, h2⟩).symm

theorem updatedP_ok {T : HashTables} (hT : T.Faithful) {U : Str → Prop} (hc : T.NoClash U) (c : TagCls) (hk : ∀ g ∈ c.known, U g)
    (hi : ∀ r, ∀ g ∈ c.incompat r, U g) (t : Tag) (ht : ∀ g ∈ t.grammemes, U g) (req : List GStr) (hr : IsSet U req) (req' : List Str)
    (he : chars req = req'.toFinset) :
    (∀ e, updatedGrammemes c t req' = .error e → updatedP T c t req = .error e) ∧
    ∀ g, updatedGrammemes c t req' = .ok g → ∃ r, updatedP T c t req = .ok r ∧ IsSet U r ∧ chars r = g := by
  have hsame : updatedGrammemes c t req' = updatedGrammemes c t (req.map GStr.str) := by
    refine updatedGrammemes_congr c t _ _ fun x => ?_
    rw [← List.mem_toFinset, ← he]
    simp [chars]
  rw [hsame]
  unfold updatedP updatedGrammemes
  obtain ⟨g0, h1, h2, h3⟩ := unionP_ok hT hc (IsSet.set hT ht) hr.valid hr.within
  rw [h1, ok_bind]
  rw [chars_set hT] at h3
  have : t.grammemes ∪ (req.map GStr.str).toFinset = chars g0 := h3.symm
  rw [this]
  exact updatedLoopP_ok hT hc c hk hi req g0 hr h2

theorem similarityP_ok {T : HashTables} (hT : T.Faithful) {U : Str → Prop} (hc : T.NoClash U) (sim : Sim) {g : List GStr} (hg : IsSet U g) (t : Tag)
    (ht : ∀ g ∈ t.grammemes, U g) : similarityP T sim g t = .ok (similarity sim (chars g) t) := by
  obtain ⟨i, h1, h2⟩ := interP_ok hT hc hg (IsSet.set hT ht)
  unfold similarityP similarity
  rw [h1, ok_bind, xorLenP_ok hT hc hg (IsSet.set hT ht), ok_bind, h2, chars_set hT]; rfl

theorem nlargest1_pairs {α : Type} (sim : Sim) (k : α → sim.K) (l : List α) :
    (nlargest1 sim Prod.snd (l.map fun a => (a, k a))).map Prod.fst = nlargest1 sim k l := by
  have loop : ∀ (l : List α) (a : α), maxLoop sim Prod.snd (l.map fun a => (a, k a)) (a, k a) = (maxLoop sim k l a, k (maxLoop sim k l a)) := by
    intro l
    induction l with
    | nil => intro a; rfl
    | cons b l ih =>
      intro a
      simp only [List.map_cons, maxLoop]
      split
      · exact ih b
      · exact ih a
  cases l with
  | nil => rfl
  | cons a l =>
    simp only [List.map_cons, nlargest1, loop]
    rfl

theorem nlargestP_ok {T : HashTables} (hT : T.Faithful) {U : Str → Prop} (hc : T.NoClash U) (sim : Sim) {g : List GStr} (hg : IsSet U g) (l : List (Parse S))
    (hl : ∀ f ∈ l, ∀ g ∈ f.tag.grammemes, U g) : nlargestP T sim g l = .ok (nlargest1 sim (fun f => similarity sim (chars g) f.tag) l) := by
  have : mapE (fun f : Parse S => do let k ← similarityP T sim g f.tag; pure (f, k)) l =
      .ok (l.map fun f : Parse S => (f, similarity sim (chars g) f.tag)) := by
    rw [← mapE_pure]
    refine mapE_congr _ _ _ fun f hf => ?_
    rw [similarityP_ok hT hc sim hg f.tag (hl f hf)]; rfl
  unfold nlargestP
  rw [this, ok_bind, nlargest1_pairs sim (fun f : Parse S => similarity sim (chars g) f.tag) l]; rfl

theorem matchingP_ok {T : HashTables} (hT : T.Faithful) {U : Str → Prop} (hc : T.NoClash U) (fs : List (Parse S))
    (hl : ∀ f ∈ fs, ∀ g ∈ f.tag.grammemes, U g) {req : List GStr} (hr : IsSet U req) (r : Grams) (he : chars req = r) :
    matchingP T fs req = .ok (matching fs r) := by
  unfold matchingP matching
  refine filterE_pure fun f hf => ?_
  rw [subsetP_ok hT hc hr (IsSet.set hT (hl f hf)), chars_set hT, he]

/-! ### C94: comparing values -/

/-- **C94.** Without collisions of hashes, asking whether a string or an attribute value is in a set of strings and attribute values never
raises, whatever the categories, and looks at the characters only. -/
theorem c94_in_set (T : HashTables) (hT : T.Faithful) (U : Str → Prop) (hc : T.NoClash U) (l : List GStr) (hl : IsSet U l) (k : GStr) (hk : k.Valid)
    (hkU : k.Within U) : setHas T l k = .ok (decide (∃ x ∈ l, x.str = k.str)) := by
  rw [setHas_ok hT hc hl.valid hl.within hk hkU]
  simp [mem_chars]

/-- The grammemes `inflect` has to do with. -/
def InPlay (m : Morph S) (p : Parse S) (fs : List (Parse S)) (req : List GStr) (g : Str) : Prop :=
  g ∈ m.cls.known ∨ (∃ r, g ∈ m.cls.incompat r) ∨ g ∈ p.tag.grammemes ∨ (∃ f ∈ fs, g ∈ f.tag.grammemes) ∨ (∃ kv ∈ RARE_CASES, g = kv.1 ∨ g = kv.2) ∨
    (∃ x ∈ req, g = x.str ∨ ∃ cat s, x = .typed cat s ∧ g ∈ cat)

/-- **C94.** `inflect` with attribute values in the required set is `inflect` with the plain strings. -/
theorem c94_inflect (T : HashTables) (hT : T.Faithful) (m : Morph S) (sim : Sim) (p : Parse S) (req : List GStr) (hv : ∀ x ∈ req, x.Valid)
    (hn : (req.map GStr.str).Nodup) (hc : ∀ fs, m.lexeme p = .ok fs → T.NoClash (InPlay m p fs req)) :
    m.inflectP T sim p req = m.inflect sim p (req.map GStr.str) := by
  unfold Morph.inflectP Morph.inflect
  cases hl : m.lexeme p with
  | error e => rfl
  | ok fs =>
    have hc := hc fs hl
    rw [ok_bind, ok_bind]
    have hr : IsSet (InPlay m p fs req) req := ⟨hn, hv, fun x hx => by
      cases x with
      | plain s => exact .inr (.inr (.inr (.inr (.inr ⟨_, hx, .inl rfl⟩))))
      | typed cat s =>
        exact ⟨.inr (.inr (.inr (.inr (.inr ⟨_, hx, .inl rfl⟩)))), fun g hg => .inr (.inr (.inr (.inr (.inr ⟨_, hx, .inr ⟨cat, s, rfl, hg⟩⟩))))⟩⟩
    have hfs : ∀ f ∈ fs, ∀ g ∈ f.tag.grammemes, InPlay m p fs req g := fun f hf g hg => .inr (.inr (.inr (.inl ⟨f, hf, hg⟩)))
    have hm : ∀ r : Grams, ∀ f ∈ matching fs r, f ∈ fs := fun r f hf => List.mem_of_mem_filter hf
    have fin : ∀ (l : List GStr) (l' : List Str), IsSet (InPlay m p fs req) l → chars l = l'.toFinset → ∀ r : Grams,
        (updatedP T m.cls p.tag l >>= fun g => nlargestP T sim g (matching fs r)) =
        (updatedGrammemes m.cls p.tag l' >>= fun g => pure (nlargest1 sim (fun f => similarity sim g f.tag) (matching fs r))) := by
      intro l l' hs he r
      obtain ⟨u1, u2⟩ := updatedP_ok hT hc m.cls (fun g hg => .inl hg) (fun r g hg => .inr (.inl ⟨r, hg⟩)) p.tag (fun g hg => .inr (.inr (.inl hg))) l hs l' he
      cases hu : updatedGrammemes m.cls p.tag l' with
      | error e => rw [u1 e hu]; rfl
      | ok g =>
        obtain ⟨x, h1, h2, h3⟩ := u2 g hu
        rw [h1, ok_bind, ok_bind, nlargestP_ok hT hc sim h2 _ (fun f hf => hfs f (hm r f hf)), h3]; rfl
    rw [matchingP_ok hT hc fs hfs hr (req.map GStr.str).toFinset rfl, ok_bind]
    dsimp only
    by_cases hp : matching fs (req.map GStr.str).toFinset = []
    · rw [if_pos hp, if_pos hp]
      obtain ⟨r', h1, h2, h3⟩ := fixRareP_ok hT hc hr fun kv hkv =>
        ⟨.inr (.inr (.inr (.inr (.inl ⟨kv, hkv, .inl rfl⟩)))), .inr (.inr (.inr (.inr (.inl ⟨kv, hkv, .inr rfl⟩))))⟩
      rw [h1, ok_bind, matchingP_ok hT hc fs hfs h2 _ h3, ok_bind]
      exact fin r' _ h2 h3 _
    · rw [if_neg hp, if_neg hp]
      exact fin req _ hr rfl _

/-! ### Comparing and agreement -/

theorem inCatLoop_other {T : HashTables} {cat' : Grams} {s : Str} {l : List Str} (hs : s ∉ l) (x : Except PyErr Bool) (h : inCatLoop T cat' s l = x) :
    x = .ok false ∨ x = .error .valueError := by
  induction l with
  | nil => exact .inl h.symm
  | cons e l ih =>
    have hne : s ≠ e := fun h => hs (by rw [h]; exact List.mem_cons_self ..)
    have ih := ih fun h => hs (List.mem_cons_of_mem _ h)
    unfold inCatLoop typedEqPlain at h
    by_cases he : e ∈ cat'
    · simp only [he, if_true, ok_bind, hne, decide_false, Bool.false_eq_true, if_false, ite_self] at h
      exact ih h
    · split at h
      · simp only [error_bind] at h
        exact .inr h.symm
      · exact ih h

theorem inCatLoop_own {T : HashTables} {cat : Grams} {s : Str} {l : List Str} (hs : s ∈ l) (hl : ∀ e ∈ l, e ∈ cat) : inCatLoop T cat s l = .ok true := by
  induction l with
  | nil => simp at hs
  | cons e l ih =>
    unfold inCatLoop typedEqPlain
    have he := hl e (List.mem_cons_self ..)
    by_cases hse : s = e
    · subst hse
      simp [he]
    · have ih := ih (by simpa [hse] using hs) fun e h => hl e (List.mem_cons_of_mem _ h)
      simp only [he, if_true, ok_bind, hse, decide_false, Bool.false_eq_true, if_false, ite_self, ih]

/-- **C94.** Comparing the values of two attributes (of one or two tags): the same attribute — equality of the characters; different attributes —
`ValueError`, however the strings are hashed.  `None` equals only `None`. -/
theorem c94_two_values (T : HashTables) (hT : T.Faithful) (pick : Grams → Option Str) (hp : IsChoice pick) (t t' : Tag) (a b : Attr) (x y : GStr)
    (hx : t.attrG true pick a = some x) (hy : t'.attrG true pick b = some y) :
    (a = b → gEq T x y = .ok (decide (x.str = y.str))) ∧ (a ≠ b → gEq T x y = .error .valueError) := by
  unfold Tag.attrG at hx hy
  rw [Option.map_eq_some_iff] at hx hy
  obtain ⟨s, hs, rfl⟩ := hx
  obtain ⟨s', hs', rfl⟩ := hy
  have h1 := (mem_cat a s).2 ((c75_value pick hp t a).2.1 s hs).2
  have h2 := (mem_cat b s').2 ((c75_value pick hp t' b).2.1 s' hs').2
  simp only [if_true]
  constructor
  · rintro rfl
    unfold gEq inCat
    dsimp only
    rw [inCatLoop_own ((hT.mem _ _).2 h2) fun e he => (hT.mem _ _).1 he, ok_bind]; rfl
  · intro hne
    have hdisj : s' ∉ a.cat := by
      have key : ∀ g ∈ a.value, g ∈ b.value → a = b := by cases a <;> cases b <;> decide
      intro h
      exact hne (key s' ((mem_cat _ _).1 h) ((mem_cat _ _).1 h2))
    unfold gEq inCat
    dsimp only
    rcases inCatLoop_other (T := T) (cat' := b.cat) (l := T.arr a.cat) (fun h => hdisj ((hT.mem _ _).1 h)) _ rfl with h | h <;> rw [h] <;> rfl

/-- **C94, `typed_grammemes = False`.** The switch changes nothing but the errors: without it comparing an attribute value with a string never raises and
is equality of characters, and whenever the comparison does not raise with it, the answers are the same. -/
theorem c94_switch (T : HashTables) (pick : Grams → Option Str) (t : Tag) (a : Attr) (o : Str) :
    (∃ b, isG T (t.attrG false pick a) o = .ok b ∧ (b = true ↔ t.attr pick a = some o)) ∧
    isG T (t.attrG true pick a) o = t.attrIs pick a (some o) ∧
    ∀ b, isG T (t.attrG true pick a) o = .ok b → isG T (t.attrG false pick a) o = .ok b := by
  unfold isG Tag.attrG Tag.attrIs attrEq
  cases h : t.attr pick a with
  | none => simp
  | some s =>
    simp only [Option.map_some, Bool.false_eq_true, if_false, if_true, gEq, inCat, ok_bind, GStr.str, pure_eq_ok]
    refine ⟨⟨_, rfl, by simp⟩, by by_cases ho : o ∈ a.cat <;> by_cases hs : s = o <;> simp [ho, hs], ?_⟩
    intro b
    split
    · exact id
    · intro h; cases h

theorem isG_value (T : HashTables) (on : Bool) (pick : Grams → Option Str) (t : Tag) (a : Attr) (o : Str) (ho : o ∈ a.cat) :
    isG T (t.attrG on pick a) o = .ok (decide (t.category pick a.cat = some o)) := by
  unfold isG Tag.attrG Tag.attr
  cases h : t.category pick a.cat with
  | none => simp
  | some s => cases on <;> by_cases hs : s = o <;> simp [gEq, inCat, ho, GStr.str, hs]

theorem inG_value (T : HashTables) (on : Bool) (pick : Grams → Option Str) (t : Tag) (a : Attr) (l : List Str) (hl : ∀ o ∈ l, o ∈ a.cat) :
    inG T (t.attrG on pick a) l = .ok (decide (∃ o ∈ l, t.category pick a.cat = some o)) := by
  induction l with
  | nil => simp [inG]
  | cons o l ih =>
    unfold inG
    rw [isG_value T on pick t a o (hl o (List.mem_cons_self ..)), ok_bind, ih fun o h => hl o (List.mem_cons_of_mem _ h)]
    by_cases h : t.category pick a.cat = some o
    · simp [h]
    · simp [h]

/-- The comparisons inside `numeral_agreement_grammemes` never raise, and it gives the same strings with and without typed values. -/
theorem agreement_plain (T : HashTables) (on : Bool) (pick : Grams → Option Str) (t : Tag) (num : Int) :
    ∃ l, numeralAgreementG T on pick t num = .ok l ∧ l.map (Option.map GStr.str) = numeralAgreement pick t num ∧
      (l = [] ∨ ∃ a b, l = [some (.plain a), b] ∧ (a = c!"sing" ∨ a = c!"plur") ∧
        (b = t.attrG on pick .case ∨ ∃ s, b = some (.plain s) ∧ (s = c!"nomn" ∨ s = c!"gent" ∨ s = c!"accs"))) := by
  have n1 := inG_value T on pick t .pos [c!"NOUN", c!"ADJF", c!"PRTF"] (by decide +kernel)
  have n2 := isG_value T on pick t .pos (c!"NOUN") (by decide +kernel)
  have n3 := inG_value T on pick t .case [c!"nomn", c!"accs"] (by decide +kernel)
  have n4 := isG_value T on pick t .case (c!"nomn") (by decide +kernel)
  have n5 := inG_value T on pick t .pos [c!"ADJF", c!"PRTF"] (by decide +kernel)
  have n6 := isG_value T on pick t .gender (c!"femn") (by decide +kernel)
  have nc : (t.attrG on pick .case).map GStr.str = t.category pick CASES := by
    unfold Tag.attrG Tag.attr
    show Option.map _ (Option.map _ (t.category pick CASES)) = _
    cases t.category pick CASES with
    | none => rfl
    | some s => cases on <;> rfl
  have e1 : Attr.cat .pos = PARTS_OF_SPEECH := rfl
  have e2 : Attr.cat .case = CASES := rfl
  have e3 : Attr.cat .gender = GENDERS := rfl
  rw [e1] at n1 n2 n5
  rw [e2] at n3 n4
  rw [e3] at n6
  unfold numeralAgreementG numeralAgreement obliqueNoun femnTwo
  dsimp only
  rw [n1, n2, n3, n4, n5, n6]
  generalize t.category pick PARTS_OF_SPEECH = pos at *
  generalize hcase : t.category pick CASES = case at *
  generalize t.category pick GENDERS = gender at *
  generalize t.attrG on pick .case = cg at *
  generalize numeralIndex num = index
  clear n1 n2 n3 n4 n5 n6
  by_cases p1 : pos = some (c!"NOUN")
  · subst p1
    by_cases c1 : case = some (c!"nomn")
    · rcases index with _ | _ | n <;> simp [c1, GStr.str, pure_eq_ok]
    · by_cases c2 : case = some (c!"accs")
      · rcases index with _ | _ | n <;> simp [c2, GStr.str, pure_eq_ok]
      · rcases index with _ | _ | n <;> simp [c1, c2, nc, GStr.str, pure_eq_ok]
  by_cases p2 : pos = some (c!"ADJF") ∨ pos = some (c!"PRTF")
  · by_cases c1 : case = some (c!"nomn") <;> by_cases g1 : gender = some (c!"femn") <;> rcases index with _ | _ | n <;>
      rcases p2 with rfl | rfl <;> simp [c1, g1, GStr.str, pure_eq_ok]
  · push Not at p2
    simp [p1, p2, pure_eq_ok]

/-- The grammemes `make_agree_with_number` has to do with. -/
def AgreeInPlay (m : Morph S) (p : Parse S) (fs : List (Parse S)) (g : Str) : Prop :=
  InPlay m p fs [] g ∨ g = c!"sing" ∨ g = c!"plur" ∨ g ∈ Attr.value .case

/-- **C94.** `make_agree_with_number` puts an attribute value into the required set and compares attributes with strings; it does what it would do
with plain strings, whether `typed_grammemes` is on or off, and never raises because of a comparison. -/
theorem c94_agree (T : HashTables) (hT : T.Faithful) (on : Bool) (m : Morph S) (sim : Sim) (pick : Grams → Option Str) (hp : IsChoice pick) (p : Parse S)
    (num : Int) (hc : ∀ fs, m.lexeme p = .ok fs → T.NoClash (AgreeInPlay m p fs)) :
    m.makeAgreeP T on sim pick p num = m.makeAgree sim pick p num := by
  obtain ⟨l, h1, h2, h3⟩ := agreement_plain T on pick p.tag num
  unfold Morph.makeAgreeP Morph.makeAgree
  rw [h1, ok_bind, ← h2]
  have hcase : ∀ x, p.tag.attrG on pick .case = some x → x.Valid ∧ x.str ∈ CASES ∧ ∀ cat s, x = .typed cat s → cat = CASES := by
    intro x hx
    unfold Tag.attrG at hx
    rw [Option.map_eq_some_iff] at hx
    obtain ⟨s, hs, rfl⟩ := hx
    have hs' : s ∈ CASES := (mem_cat .case s).2 ((c75_value pick hp p.tag .case).2.1 s hs).2
    cases on
    · exact ⟨trivial, hs', by simp⟩
    · refine ⟨hs', hs', ?_⟩
      intro cat s e
      simp at e
      exact e.1.symm
  have three : c!"nomn" ∈ CASES ∧ c!"gent" ∈ CASES ∧ c!"accs" ∈ CASES ∧ c!"sing" ∉ CASES ∧ c!"plur" ∉ CASES := by decide +kernel
  have ask : ∀ req : List GStr, req = [] ∨ (∃ a x, req = [.plain a, x] ∧ (a = c!"sing" ∨ a = c!"plur") ∧ x.Valid ∧ x.str ∈ CASES ∧
      ∀ cat s, x = .typed cat s → cat = CASES) → m.inflectP T sim p req = m.inflect sim p (req.map GStr.str) := by
    intro req hreq
    refine c94_inflect T hT m sim p req ?_ ?_ ?_
    · rcases hreq with rfl | ⟨a, x, rfl, _, hv, _, _⟩
      · simp
      · intro y hy
        simp only [List.mem_cons, List.not_mem_nil, or_false] at hy
        rcases hy with rfl | rfl
        · trivial
        · exact hv
    · rcases hreq with rfl | ⟨a, x, rfl, ha, _, hx, _⟩
      · simp
      · simp only [List.map_cons, List.map_nil, List.nodup_cons, List.mem_singleton, List.not_mem_nil, not_false_eq_true, List.nodup_nil, and_true]
        show a ≠ x.str
        rintro rfl
        rcases ha with h | h
        · rw [h] at hx; exact three.2.2.2.1 hx
        · rw [h] at hx; exact three.2.2.2.2 hx
    · intro fs hfs
      have sub : ∀ g, InPlay m p fs req g → AgreeInPlay m p fs g := by
        rintro g (h | h | h | h | h | ⟨x, hx, h⟩)
        · exact .inl (.inl h)
        · exact .inl (.inr (.inl h))
        · exact .inl (.inr (.inr (.inl h)))
        · exact .inl (.inr (.inr (.inr (.inl h))))
        · exact .inl (.inr (.inr (.inr (.inr (.inl h)))))
        · rcases hreq with rfl | ⟨a, y, rfl, ha, _, hy, hcat⟩
          · simp at hx
          · simp only [List.mem_cons, List.not_mem_nil, or_false] at hx
            rcases hx with rfl | rfl
            · rcases h with rfl | ⟨cat, s, e, _⟩
              · rcases ha with rfl | rfl
                · exact .inr (.inl rfl)
                · exact .inr (.inr (.inl rfl))
              · cases e
            · rcases h with rfl | ⟨cat, s, e, hg⟩
              · exact .inr (.inr (.inr ((mem_cat .case _).1 hy)))
              · rw [hcat cat s e] at hg
                exact .inr (.inr (.inr ((mem_cat .case _).1 hg)))
      exact fun g g' hg hg' => hc fs hfs g g' (sub g hg) (sub g' hg')
  rcases h3 with rfl | ⟨a, b, rfl, ha, hb⟩
  · exact ask [] (.inl rfl)
  · cases b with
    | none => rfl
    | some x =>
      show m.inflectP T sim p [.plain a, x] = m.inflect sim p [a, x.str]
      refine ask [.plain a, x] (.inr ⟨a, x, rfl, ha, ?_⟩)
      rcases hb with hb | ⟨s, hb, hs⟩
      · exact hcase x hb.symm
      · cases hb
        refine ⟨trivial, ?_, by simp⟩
        show s ∈ CASES
        rcases hs with rfl | rfl | rfl
        · exact three.1
        · exact three.2.1
        · exact three.2.2.1

/-- **C94, collisions.** The assumption about hashes is needed: if the hash of a case and of another string in a set are the same, asking whether the
attribute value is in the set raises `ValueError`. -/
theorem c94_collision (T : HashTables) (a : Attr) (s o : Str) (ho : o ∉ a.value) (h : T.hash o = T.hash s) :
    setHas T [.plain o] (.typed a.cat s) = .error .valueError ∧ (o ≠ s → setHas T [.plain o] (.plain s) = .ok false) := by
  have : o ∉ a.cat := fun hh => ho ((mem_cat a o).1 hh)
  refine ⟨by simp [setHas, gEq, typedEqPlain, this, GStr.str, h], fun hne => ?_⟩
  simp [setHas, gEq, GStr.str, h, hne]

/-! ### Non-vacuity -/

/-- Hash tables without collisions: the hash is the text read as a number. -/
noncomputable def Demo.hashTables : HashTables := ⟨fun l => (l.foldr (fun c n => c.toNat + 1 + 1114113 * n) 0 : Nat), Finset.toList⟩

theorem Demo.hashTables_faithful : Demo.hashTables.Faithful := ⟨fun _ _ => Finset.mem_toList, Finset.nodup_toList⟩

theorem Demo.hashTables_noClash (U : Str → Prop) : Demo.hashTables.NoClash U := by
  suffices H : ∀ g g' : Str, Demo.hashTables.hash g = Demo.hashTables.hash g' → g = g' from fun g g' _ _ h => H g g' h
  intro g g' h
  have h : (g.foldr (fun c n => c.toNat + 1 + 1114113 * n) 0 : Nat) = g'.foldr (fun c n => c.toNat + 1 + 1114113 * n) 0 := by
    exact Int.ofNat.inj h
  have lt : ∀ c : Char, c.toNat < 1114112 := fun c => by
    have := c.valid
    unfold UInt32.isValidChar Nat.isValidChar at this
    show c.val.toNat < 1114112
    omega
  clear U
  induction g generalizing g' with
  | nil =>
    cases g' with
    | nil => rfl
    | cons c g' => simp only [List.foldr_nil, List.foldr_cons] at h; omega
  | cons c g ih =>
    cases g' with
    | nil => simp only [List.foldr_nil, List.foldr_cons] at h; omega
    | cons c' g' =>
      simp only [List.foldr_cons] at h
      have h1 := lt c
      have h2 := lt c'
      have e1 : c.toNat = c'.toNat := by omega
      have e2 : (g.foldr (fun c n => c.toNat + 1 + 1114113 * n) 0 : Nat) = g'.foldr (fun c n => c.toNat + 1 + 1114113 * n) 0 := by omega
      have : c = c' := by
        apply Char.ext
        exact UInt32.toNat_inj.1 e1
      rw [this, ih g' (congrArg Int.ofNat e2) e2]

/-- Two values of attributes in a set, and its inflection: кошка, inflected into the case and the number of another noun. -/
example : Demo.morph.inflectP Demo.hashTables Sim.exact Demo.koshka [.typed CASES (c!"gent"), .typed NUMBERS (c!"plur")] =
    .ok (some ⟨c!"кошек", ⟨c!"NOUN,anim,femn plur,gent"⟩, c!"кошка", 1, .single (.dict ⟨0, .dict⟩ (c!"кошек") 0 1)⟩) := by
  rw [c94_inflect Demo.hashTables Demo.hashTables_faithful Demo.morph Sim.exact Demo.koshka _ (by
    intro x hx
    simp only [List.mem_cons, List.not_mem_nil, or_false] at hx
    rcases hx with rfl | rfl
    · show c!"gent" ∈ CASES; decide +kernel
    · show c!"plur" ∈ NUMBERS; decide +kernel) (by decide +kernel) fun fs _ => Demo.hashTables_noClash _]
  decide +kernel

/-- Two tags with cases: the values can be compared. -/
example (pick : Grams → Option Str) (hp : IsChoice pick) : ∃ x y, (⟨c!"NOUN,anim,femn sing,nomn"⟩ : Tag).attrG true pick .case = some x ∧
    (⟨c!"NOUN,anim,femn plur,gent"⟩ : Tag).attrG true pick .case = some y ∧ gEq Demo.hashTables x y = .ok false := by
  have h1 : (⟨c!"NOUN,anim,femn sing,nomn"⟩ : Tag).attr pick .case = some (c!"nomn") :=
    (c75_value pick hp _ .case).2.2 _ (by decide +kernel) (by decide +kernel) (by decide +kernel)
  have h2 : (⟨c!"NOUN,anim,femn plur,gent"⟩ : Tag).attr pick .case = some (c!"gent") :=
    (c75_value pick hp _ .case).2.2 _ (by decide +kernel) (by decide +kernel) (by decide +kernel)
  refine ⟨.typed CASES (c!"nomn"), .typed CASES (c!"gent"), by simp only [Tag.attrG, h1]; rfl, by simp only [Tag.attrG, h2]; rfl, ?_⟩
  rw [(c94_two_values Demo.hashTables Demo.hashTables_faithful pick hp ⟨c!"NOUN,anim,femn sing,nomn"⟩ ⟨c!"NOUN,anim,femn plur,gent"⟩ .case .case _ _
    (by simp only [Tag.attrG, h1]; rfl) (by simp only [Tag.attrG, h2]; rfl)).1 rfl]
  decide

end Verif
