/-
C24 — `updated_grammemes`; C18 — `inflect` rejects misspelled grammemes; C17 — `inflect` returns the best matching form;
C19 — inflecting into what the form already is.
-/
import Verif.Model.Inflect
import Verif.Lemmas.DictCheck

set_option linter.unusedSectionVars false

namespace Verif

variable {S : Type} [Score S]

/-! ### C24 -/

/-- The set `updated_grammemes` is meant to compute: everything the tag has or is required, minus whatever is incompatible
with something required. -/
def Updated (c : TagCls) (t : Tag) (req : List Str) (g : Grams) : Prop :=
  ∀ x, x ∈ g ↔ (x ∈ t.tuple ∨ x ∈ req) ∧ ∀ r ∈ req, x ∉ c.incompat r

theorem updatedLoop_ok (c : TagCls) (req : List Str) (g0 g : Grams) :
    updatedLoop c req g0 = .ok g ↔ (∀ r ∈ req, r ∈ c.known) ∧ ∀ x, x ∈ g ↔ x ∈ g0 ∧ ∀ r ∈ req, x ∉ c.incompat r := by
  induction req generalizing g0 with
  | nil =>
    simp only [updatedLoop, Except.ok.injEq, List.not_mem_nil, false_implies, implies_true, and_true, true_and]
    exact ⟨fun h => by rw [h]; simp, fun h => by ext x; exact (h x).symm⟩
  | cons r rs ih =>
    simp only [updatedLoop, TagCls.isKnown, TagCls.assertInit]
    by_cases h1 : c.known = ∅
    · simp only [h1, if_true, error_bind, reduceCtorEq, false_iff, not_and]
      intro h; exact absurd (h r (by simp)) (by simp)
    · by_cases h2 : r ∈ c.known
      · simp only [h1, if_false, ok_bind, pure_eq_ok, h2, decide_true, if_true, ih, List.mem_cons, forall_eq_or_imp,
          true_and, Finset.mem_sdiff, and_assoc]
      · simp [h1, h2]

/-- C24: the value, for every enumeration of the required set (so the iteration order of the Python set does not matter). -/
theorem c24_value (c : TagCls) (t : Tag) (req : List Str) (g : Grams) :
    updatedGrammemes c t req = .ok g ↔ (∀ r ∈ req, r ∈ c.known) ∧ Updated c t req g := by
  unfold updatedGrammemes Updated
  rw [updatedLoop_ok]
  simp [Tag.grammemes]

theorem c24_order_irrelevant (c : TagCls) (t : Tag) (req req' : List Str) (h : ∀ x, x ∈ req ↔ x ∈ req') :
    (∀ g, updatedGrammemes c t req = .ok g ↔ updatedGrammemes c t req' = .ok g) := by
  intro g; simp only [c24_value, Updated, h]

/-- C24: it raises `ValueError` iff some required grammeme is unknown (`RuntimeError` when the class was never
initialised and something is required). -/
theorem c24_error (c : TagCls) (t : Tag) (req : List Str) :
    (updatedGrammemes c t req = .error .valueError ↔ (∃ r ∈ req, r ∉ c.known) ∧ c.known ≠ ∅) ∧
    (updatedGrammemes c t req = .error .runtimeError ↔ req ≠ [] ∧ c.known = ∅) ∧
    (∀ e, updatedGrammemes c t req = .error e → e = .valueError ∨ e = .runtimeError) := by
  unfold updatedGrammemes
  generalize t.grammemes ∪ req.toFinset = g0
  induction req generalizing g0 with
  | nil => simp [updatedLoop]
  | cons r rs ih =>
    simp only [updatedLoop, TagCls.isKnown, TagCls.assertInit]
    by_cases h1 : c.known = ∅
    · simp [h1]
    · by_cases h2 : r ∈ c.known
      · simp only [h1, if_false, ok_bind, pure_eq_ok, h2, decide_true, if_true]
        obtain ⟨i1, i2, i3⟩ := ih (g0 \ c.incompat r)
        refine ⟨?_, ?_, i3⟩
        · rw [i1]; simp [h2]
        · rw [i2]; simp [h1]
      · simp [h1, h2]

/-! ### C18 -/

/-- Names of rare cases. -/
def isRareCase (g : Str) : Prop := g = c!"gen1" ∨ g = c!"gen2" ∨ g = c!"acc1" ∨ g = c!"acc2" ∨ g = c!"loc1" ∨
  g = c!"loc2" ∨ g = c!"voct"

instance (g : Str) : Decidable (isRareCase g) := by unfold isRareCase; infer_instance

theorem fixRare1_common (g : Str) (h : ¬ isRareCase g) : fixRare1 g = g := by
  unfold isRareCase at h
  simp only [not_or] at h
  obtain ⟨h1, h2, h3, h4, h5, h6, h7⟩ := h
  unfold fixRare1 RARE_CASES
  simp [dictGet, Ne.symm h1, Ne.symm h2, Ne.symm h3, Ne.symm h4, Ne.symm h5, Ne.symm h6, Ne.symm h7]

/-- What replaces a rare case. -/
theorem fixRare1_values : fixRare1 (c!"gen1") = c!"gent" ∧ fixRare1 (c!"gen2") = c!"gent" ∧ fixRare1 (c!"acc1") = c!"accs" ∧
    fixRare1 (c!"acc2") = c!"accs" ∧ fixRare1 (c!"loc1") = c!"loct" ∧ fixRare1 (c!"loc2") = c!"loct" ∧
    fixRare1 (c!"voct") = c!"nomn" := by decide

/-- C18: an unknown grammeme (that is not a rare-case name) makes `inflect` raise; it never returns `None` or a form. -/
theorem c18_unknown_grammeme (m : Morph S) (sim : Sim) (p : Parse S) (req : List Str) (g : Str) (hg : g ∈ req)
    (hk : g ∉ m.cls.known) (hr : ¬ isRareCase g) : ∀ r, m.inflect sim p req ≠ .ok r := by
  intro r h
  simp only [Morph.inflect, bind_ok_iff] at h
  obtain ⟨fs, _, h⟩ := h
  split at h
  · simp only [bind_ok_iff] at h
    obtain ⟨x, hx, _⟩ := h
    exact hk (((c24_value _ _ _ _).1 hx).1 g (List.mem_map.2 ⟨g, hg, fixRare1_common g hr⟩))
  · simp only [bind_ok_iff] at h
    obtain ⟨x, hx, _⟩ := h
    exact hk (((c24_value _ _ _ _).1 hx).1 g hg)

/-- C18: and the exception is `ValueError` (once a dictionary was loaded and the lexeme can be built). -/
theorem c18_value_error (m : Morph S) (sim : Sim) (p : Parse S) (req : List Str) (g : Str) (hg : g ∈ req)
    (hk : g ∉ m.cls.known) (hr : ¬ isRareCase g) (hinit : m.cls.known ≠ ∅) (hl : ∃ fs, m.lexeme p = .ok fs) :
    m.inflect sim p req = .error .valueError := by
  obtain ⟨fs, hl⟩ := hl
  have h1 : updatedGrammemes m.cls p.tag req = .error .valueError := (c24_error _ _ _).1.2 ⟨⟨g, hg, hk⟩, hinit⟩
  have h2 : updatedGrammemes m.cls p.tag (req.map fixRare1) = .error .valueError :=
    (c24_error _ _ _).1.2 ⟨⟨g, List.mem_map.2 ⟨g, hg, fixRare1_common g hr⟩, hk⟩, hinit⟩
  unfold Morph.inflect
  rw [hl, ok_bind]
  dsimp only
  split
  · rw [h2]; rfl
  · rw [h1]; rfl

/-! ### C17 -/

/-- `<` on similarity values behaves like `<` on numbers: irreflexive, transitive, and incomparability is transitive. -/
structure Sim.Ordered (sim : Sim) : Prop where
  irrefl : ∀ a, sim.lt a a = false
  trans : ∀ a b c, sim.lt a b = true → sim.lt b c = true → sim.lt a c = true
  weak : ∀ a b c, sim.lt a b = false → sim.lt b c = false → sim.lt a c = false

theorem Sim.exact_ordered : Sim.exact.Ordered := by
  refine ⟨?_, ?_, ?_⟩ <;> simp only [Sim.exact, decide_eq_true_eq, decide_eq_false_iff_not]
  · intro a; exact Int.lt_irrefl a
  · intro a b c; exact Int.lt_trans
  · intro a b c h1 h2; omega

/-- `f` is the first among the elements of `l` whose key is maximal. -/
def FirstMax {α : Type} (sim : Sim) (key : α → sim.K) (l : List α) (f : α) : Prop :=
  ∃ before after, l = before ++ f :: after ∧ (∀ x ∈ before, sim.lt (key x) (key f) = true) ∧
    ∀ x ∈ after, sim.lt (key f) (key x) = false

theorem maxLoop_firstMax {α : Type} (sim : Sim) (ho : sim.Ordered) (key : α → sim.K) (as : List α) (cur : α) :
    FirstMax sim key (cur :: as) (maxLoop sim key as cur) := by
  induction as generalizing cur with
  | nil => exact ⟨[], [], rfl, by simp, by simp⟩
  | cons a as ih =>
    rw [maxLoop]
    split
    · next hlt =>
      obtain ⟨b, e, h1, h2, h3⟩ := ih a
      refine ⟨cur :: b, e, by rw [h1]; rfl, ?_, h3⟩
      intro x hx
      rcases List.mem_cons.1 hx with rfl | hx
      · cases b with
        | nil => simp only [List.nil_append, List.cons.injEq] at h1; rw [← h1.1]; exact hlt
        | cons y ys =>
          simp only [List.cons_append, List.cons.injEq] at h1
          exact ho.trans _ _ _ hlt (h2 a (by rw [h1.1]; simp))
      · exact h2 x hx
    · next hlt =>
      have hlt : sim.lt (key cur) (key a) = false := by simpa using hlt
      obtain ⟨b, e, h1, h2, h3⟩ := ih cur
      cases b with
      | nil =>
        simp only [List.nil_append, List.cons.injEq] at h1
        refine ⟨[], a :: e, by simp [← h1.1, ← h1.2], by simp, ?_⟩
        intro x hx
        rcases List.mem_cons.1 hx with rfl | hx
        · rw [← h1.1]; exact hlt
        · exact h3 x hx
      | cons y ys =>
        simp only [List.cons_append, List.cons.injEq] at h1
        refine ⟨cur :: a :: ys, e, by rw [List.cons_append, List.cons_append, ← h1.2], ?_, h3⟩
        have hc : sim.lt (key cur) (key (maxLoop sim key as cur)) = true := h2 cur (by rw [h1.1]; simp)
        intro x hx
        rcases List.mem_cons.1 hx with rfl | hx
        · exact hc
        · rcases List.mem_cons.1 hx with rfl | hx
          · by_contra hn
            have hn : sim.lt (key x) (key (maxLoop sim key as cur)) = false := by simpa using hn
            rw [ho.weak _ _ _ hlt hn] at hc
            exact absurd hc (by simp)
          · exact h2 x (by simp [hx])

/-- A form carries all the grammemes of a list. -/
def Parse.carries (f : Parse S) (req : List Str) : Prop := ∀ g ∈ req, g ∈ f.tag.tuple

instance (f : Parse S) (req : List Str) : Decidable (f.carries req) := by unfold Parse.carries; infer_instance

theorem matching_eq (fs : List (Parse S)) (req : List Str) :
    matching fs req.toFinset = fs.filter fun f => decide (f.carries req) := by
  unfold matching
  refine List.filter_congr fun f _ => ?_
  rw [decide_eq_decide]
  unfold Parse.carries Tag.grammemes
  rw [Finset.subset_iff]
  simp

/-- The grammemes `inflect` looks for: the required ones if some form carries them, else with rare cases replaced. -/
def effective (fs : List (Parse S)) (req : List Str) : List Str :=
  if ∃ f ∈ fs, f.carries req then req else req.map fixRare1

/-- C17, for every way of computing similarities (floating point or exact) whose comparison is a strict weak order.
`inflect` on a form with lexeme `fs`, all involved grammemes known: it is `None` iff no form carries the required
grammemes nor their rare-case replacement; otherwise it is the first among the forms carrying them (the replacement only
when no form carries the originals) whose similarity with the updated grammemes is maximal. -/
theorem c17_inflect (m : Morph S) (sim : Sim) (ho : sim.Ordered) (p : Parse S) (req : List Str) (fs : List (Parse S))
    (hl : m.lexeme p = .ok fs) (hk : ∀ g ∈ effective fs req, g ∈ m.cls.known) :
    ∃ res g, m.inflect sim p req = .ok res ∧ Updated m.cls p.tag (effective fs req) g ∧
      (res = none ↔ ∀ f ∈ fs, ¬ f.carries (effective fs req)) ∧
      (res = none ↔ ∀ f ∈ fs, ¬ f.carries req ∧ ¬ f.carries (req.map fixRare1)) ∧
      (∀ f, res = some f → f ∈ fs ∧ f.carries (effective fs req) ∧
        FirstMax sim (fun f => similarity sim g f.tag) (fs.filter fun f => decide (f.carries (effective fs req))) f) := by
  have hempty : (matching fs req.toFinset = []) ↔ ¬ ∃ f ∈ fs, f.carries req := by
    rw [matching_eq, List.filter_eq_nil_iff]; simp
  have hboth : (∀ f ∈ fs, ¬ f.carries (effective fs req)) ↔
      ∀ f ∈ fs, ¬ f.carries req ∧ ¬ f.carries (req.map fixRare1) := by
    unfold effective
    split
    · next h =>
      obtain ⟨f, hf, hc⟩ := h
      exact ⟨fun hh => absurd hc (hh f hf), fun hh => absurd hc (hh f hf).1⟩
    · next h =>
      constructor
      · intro hh f hf; exact ⟨fun hc => h ⟨f, hf, hc⟩, hh f hf⟩
      · intro hh f hf; exact (hh f hf).2
  -- the common part of the two branches
  have core : ∀ (R : List Str) (g : Grams) (poss : List (Parse S)), poss = fs.filter (fun f => decide (f.carries R)) →
      (nlargest1 sim (fun f => similarity sim g f.tag) poss = none ↔ ∀ f ∈ fs, ¬ f.carries R) ∧
      (∀ f, nlargest1 sim (fun f => similarity sim g f.tag) poss = some f → f ∈ fs ∧ f.carries R ∧
        FirstMax sim (fun f => similarity sim g f.tag) (fs.filter fun f => decide (f.carries R)) f) := by
    intro R g poss hposs
    constructor
    · have : poss = [] ↔ ∀ f ∈ fs, ¬ f.carries R := by
        rw [hposs, List.filter_eq_nil_iff]; simp
      rw [← this]
      cases poss <;> simp [nlargest1]
    · intro f hf
      cases hp : poss with
      | nil => rw [hp] at hf; simp [nlargest1] at hf
      | cons a as =>
        rw [hp] at hf
        simp only [nlargest1, Option.some.injEq] at hf
        have hm := maxLoop_firstMax sim ho (fun f => similarity sim g f.tag) as a
        rw [hf, ← hp, hposs] at hm
        have hmem : f ∈ fs.filter fun f => decide (f.carries R) := by
          obtain ⟨b, e, h1, _⟩ := hm; rw [h1]; simp
        have hmem := List.mem_filter.1 hmem
        exact ⟨hmem.1, by simpa using hmem.2, hm⟩
  have hupd : ∃ g, updatedGrammemes m.cls p.tag (effective fs req) = .ok g := by
    refine ⟨(p.tag.grammemes ∪ (effective fs req).toFinset).filter
      (fun x => ∀ r ∈ effective fs req, x ∉ m.cls.incompat r), (c24_value _ _ _ _).2 ⟨hk, ?_⟩⟩
    intro x; simp [Tag.grammemes]
  obtain ⟨g, hg⟩ := hupd
  have hU := ((c24_value _ _ _ _).1 hg).2
  unfold Morph.inflect
  rw [hl, ok_bind]
  dsimp only
  by_cases he : ∃ f ∈ fs, f.carries req
  · have heff : effective fs req = req := by unfold effective; rw [if_pos he]
    rw [heff] at hg hU
    rw [if_neg (fun e => (hempty.1 e) he), hg, ok_bind]
    obtain ⟨c1, c2⟩ := core req g _ (matching_eq fs req)
    refine ⟨_, g, rfl, by rw [heff]; exact hU, by rw [heff]; exact c1, ?_, by rw [heff]; exact c2⟩
    rw [← hboth, heff]; exact c1
  · have heff : effective fs req = req.map fixRare1 := by unfold effective; rw [if_neg he]
    rw [heff] at hg hU
    rw [if_pos (hempty.2 he), hg, ok_bind]
    obtain ⟨c1, c2⟩ := core (req.map fixRare1) g _ (matching_eq fs _)
    refine ⟨_, g, rfl, by rw [heff]; exact hU, by rw [heff]; exact c1, ?_, by rw [heff]; exact c2⟩
    rw [← hboth, heff]; exact c1

/-- The similarity that C17 speaks about (documented in the docstring of analyzer.py:382): number of common grammemes
minus a tenth of the number of grammemes that only one side has. -/
theorem c17_similarity_exact (g : Grams) (t : Tag) :
    (similarity Sim.exact g t : Int) =
      10 * ((g ∩ t.grammemes).card : Int) - (((g \ t.grammemes).card + (t.grammemes \ g).card : Nat) : Int) := by
  show 10 * ((g ∩ t.grammemes).card : Int) - ((symmDiff g t.grammemes).card : Int) = _
  congr 2
  show ((g \ t.grammemes) ∪ (t.grammemes \ g)).card = _
  rw [Finset.card_union_of_disjoint]
  exact disjoint_sdiff_sdiff

/-! ### C19 -/

/-- C19 (exact arithmetic): if the lexeme of `p` contains a form with the grammemes of `p`, `req` is contained in them, and
`p` carries nothing that is incompatible with `req`, then `p.inflect(req)` has exactly the grammemes of `p`. -/
theorem c19_identity (m : Morph S) (p : Parse S) (req : List Str) (fs : List (Parse S)) (hl : m.lexeme p = .ok fs)
    (hself : ∃ f ∈ fs, f.tag.grammemes = p.tag.grammemes) (hreq : p.carries req)
    (hinc : ∀ r ∈ req, ∀ x ∈ p.tag.tuple, x ∉ m.cls.incompat r) (hk : ∀ g ∈ req, g ∈ m.cls.known) :
    ∃ f ∈ fs, m.inflect Sim.exact p req = .ok (some f) ∧ f.tag.grammemes = p.tag.grammemes := by
  obtain ⟨f0, hf0, hg0⟩ := hself
  have hc0 : f0.carries req := by
    intro g hg
    have h1 : g ∈ p.tag.grammemes := by simpa [Tag.grammemes] using hreq g hg
    rw [← hg0] at h1; simpa [Tag.grammemes] using h1
  have heff : effective fs req = req := by unfold effective; rw [if_pos ⟨f0, hf0, hc0⟩]
  obtain ⟨res, g, hr, hU, hnone, _, hsome⟩ := c17_inflect m Sim.exact Sim.exact_ordered p req fs hl (by rw [heff]; exact hk)
  rw [heff] at hU hnone hsome
  cases res with
  | none => exact absurd hc0 (hnone.1 rfl f0 hf0)
  | some f =>
    obtain ⟨hf, hc, before, after, hsplit, h1, h2⟩ := hsome f rfl
    refine ⟨f, hf, hr, ?_⟩
    have hg : g = p.tag.grammemes := by
      ext x
      rw [hU x]
      simp only [Tag.grammemes, List.mem_toFinset]
      constructor
      · rintro ⟨h | h, _⟩
        · exact h
        · exact hreq x h
      · intro h; exact ⟨.inl h, fun r hr => hinc r hr x h⟩
    have hmem : f0 ∈ fs.filter fun f => decide (f.carries req) := List.mem_filter.2 ⟨hf0, by simpa using hc0⟩
    have hle : ¬ @LT.lt Int _ (similarity Sim.exact g f.tag) (similarity Sim.exact g f0.tag) := by
      rw [hsplit, List.mem_append, List.mem_cons] at hmem
      rcases hmem with hm | rfl | hm
      · have := h1 f0 hm
        simp only [Sim.exact, decide_eq_true_eq] at this ⊢
        exact fun hh => absurd (Int.lt_trans this hh) (Int.lt_irrefl _)
      · exact Int.lt_irrefl _
      · have := h2 f0 hm
        simpa [Sim.exact] using this
    rw [c17_similarity_exact, c17_similarity_exact, hg0, ← hg] at hle
    simp only [Finset.inter_self, Finset.sdiff_self, Finset.card_empty] at hle
    have hb : (g ∩ f.tag.grammemes).card ≤ g.card := Finset.card_le_card Finset.inter_subset_left
    have hz1 : (g \ f.tag.grammemes).card = 0 := by omega
    have hz2 : (f.tag.grammemes \ g).card = 0 := by omega
    rw [Finset.card_eq_zero, Finset.sdiff_eq_empty_iff_subset] at hz1 hz2
    rw [← hg]
    exact Finset.Subset.antisymm hz2 hz1

/-- C19, twice: if `inflect(req)` found a form `f` carrying `req` and `f` is in its own lexeme, then `f.inflect(req)` is
again a form carrying `req` (never `None`). -/
theorem c19_twice (m : Morph S) (sim : Sim) (ho : sim.Ordered) (p f : Parse S) (req : List Str) (fs fs' : List (Parse S))
    (_hl : m.lexeme p = .ok fs) (_hf : m.inflect sim p req = .ok (some f)) (hc : f.carries req)
    (hk : ∀ g ∈ req, g ∈ m.cls.known) (hl' : m.lexeme f = .ok fs') (hself : ∃ f' ∈ fs', f'.tag.grammemes = f.tag.grammemes) :
    ∃ f', m.inflect sim f req = .ok (some f') ∧ f'.carries req := by
  obtain ⟨f0, hf0, hg0⟩ := hself
  have hc0 : f0.carries req := by
    intro g hg
    have h1 : g ∈ f.tag.grammemes := by simpa [Tag.grammemes] using hc g hg
    rw [← hg0] at h1; simpa [Tag.grammemes] using h1
  have heff : effective fs' req = req := by unfold effective; rw [if_pos ⟨f0, hf0, hc0⟩]
  obtain ⟨res, g, hr, _, hnone, _, hsome⟩ := c17_inflect m sim ho f req fs' hl' (by rw [heff]; exact hk)
  rw [heff] at hnone hsome
  cases res with
  | none => exact absurd hc0 (hnone.1 rfl f0 hf0)
  | some f' => exact ⟨f', hr, (hsome f' rfl).2.1⟩

/-! Non-vacuity (tests): the demo analyzer inflects a dictionary word; a rare case falls back; a typo raises. -/
def Demo.koshka : Parse Rat := ⟨c!"кошка", ⟨c!"NOUN,anim,femn sing,nomn"⟩, c!"кошка", 1,
  .single (.dict ⟨0, .dict⟩ (c!"кошка") 0 0)⟩

example : Demo.koshka ∈ ((Demo.morph.parse (c!"Кошка")).toOption.getD []) := by decide +kernel
example : ((Demo.morph.inflect Sim.exact Demo.koshka [c!"plur", c!"gent"]).toOption.map (·.map Parse.word)) =
    some (some (c!"кошек")) := by decide +kernel
example : ((Demo.morph.inflect Sim.exact Demo.koshka [c!"plur", c!"gen1"]).toOption.map (·.map Parse.word)) =
    some (some (c!"кошек")) := by decide +kernel
example : ((Demo.morph.inflect Sim.exact Demo.koshka [c!"datv"]).toOption.map (·.map Parse.word)) =
    some none := by decide +kernel
example : (Demo.morph.inflect Sim.exact Demo.koshka [c!"genitive"]) = .error .valueError := by decide +kernel
example : ((Demo.morph.inflect Sim.exact Demo.koshka [c!"sing"]).toOption.map (·.map Parse.word)) =
    some (some (c!"кошка")) := by decide +kernel
example : Demo.koshka.carries [c!"sing"] := by decide +kernel

end Verif
