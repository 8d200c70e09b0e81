/-
C84 — which forms of a lexeme `inflect()` can reach.
-/
import Verif.Props.C13
import Verif.Props.C24

set_option linter.unusedSectionVars false

namespace Verif

variable {S : Type} [Score S]

/-- The two forms have the same grammemes (in any order). -/
def SameGrams (a b : Parse S) : Prop := ∀ g, g ∈ a.tag.tuple ↔ g ∈ b.tag.tuple

/-- `f` is the first form in the list with its grammemes. -/
def FirstOfItsKind (fs : List (Parse S)) (f : Parse S) : Prop := ∃ before after, fs = before ++ f :: after ∧ ∀ x ∈ before, ¬ SameGrams x f

/-- No form of the list has all the grammemes of `f` and others besides. -/
def Widest (fs : List (Parse S)) (f : Parse S) : Prop := ∀ x ∈ fs, x.carries f.tag.tuple → SameGrams x f

theorem sameGrams_similarity (sim : Sim) (g : Grams) (a b : Parse S) (h : SameGrams a b) : similarity sim g a.tag = similarity sim g b.tag := by
  have : a.tag.grammemes = b.tag.grammemes := by
    ext x
    simpa [Tag.grammemes] using h x
  unfold similarity
  rw [this]

theorem SameGrams.symm {a b : Parse S} (h : SameGrams a b) : SameGrams b a := fun g => (h g).symm

theorem filter_first {α : Type} (p : α → Bool) : ∀ (l before after : List α) (f : α), l.filter p = before ++ f :: after →
    ∃ b a, l = b ++ f :: a ∧ b.filter p = before
  | [], before, after, f, h => by simp at h
  | x :: l, before, after, f, h => by
    by_cases hx : p x = true
    · rw [List.filter_cons_of_pos hx] at h
      cases before with
      | nil =>
        simp only [List.nil_append, List.cons.injEq] at h
        exact ⟨[], l, by rw [h.1]; rfl, rfl⟩
      | cons y before =>
        simp only [List.cons_append, List.cons.injEq] at h
        obtain ⟨b, a, h1, h2⟩ := filter_first p l before after f h.2
        exact ⟨x :: b, a, by rw [h1]; rfl, by rw [List.filter_cons_of_pos hx, h2, h.1]⟩
    · rw [List.filter_cons_of_neg hx] at h
      obtain ⟨b, a, h1, h2⟩ := filter_first p l before after f h
      exact ⟨x :: b, a, by rw [h1]; rfl, by rw [List.filter_cons_of_neg hx, h2]⟩

/-- **C84.** Asking for all grammemes of a form `f` of the lexeme (known to the tag class) never fails and never gives `None`: the result is a form of the
lexeme with all of these grammemes.  If no form of the lexeme has still more grammemes, the result is the first form with exactly those of `f`. -/
theorem c84_reach (m : Morph S) (sim : Sim) (ho : sim.Ordered) (p : Parse S) (fs : List (Parse S)) (hl : m.lexeme p = .ok fs) (f : Parse S) (hf : f ∈ fs)
    (hk : ∀ g ∈ f.tag.tuple, g ∈ m.cls.known) :
    ∃ r, m.inflect sim p f.tag.tuple = .ok (some r) ∧ r ∈ fs ∧ r.carries f.tag.tuple ∧
      (Widest fs f → SameGrams r f ∧ FirstOfItsKind fs r ∧ (FirstOfItsKind fs f → r = f)) := by
  have hself : f.carries f.tag.tuple := fun g hg => hg
  have heff : effective fs f.tag.tuple = f.tag.tuple := by
    unfold effective
    rw [if_pos ⟨f, hf, hself⟩]
  obtain ⟨res, g, h1, _, h3, _, h5⟩ := c17_inflect m sim ho p f.tag.tuple fs hl (by rw [heff]; exact hk)
  rw [heff] at h3 h5
  cases res with
  | none => exact absurd hself (h3.1 rfl f hf)
  | some r =>
    obtain ⟨k1, k2, before, after, k3, k4, k5⟩ := h5 r rfl
    refine ⟨r, h1, k1, k2, fun hw => ?_⟩
    have hsame := hw r k1 k2
    have hfirst : FirstOfItsKind fs r := by
      obtain ⟨b, a, e1, e2⟩ := filter_first _ _ _ _ _ k3
      refine ⟨b, a, e1, fun x hx hxr => ?_⟩
      have hxf : x.carries f.tag.tuple := fun g hg => (hxr g).2 (k2 g hg)
      have hxb : x ∈ before := by
        rw [← e2]
        exact List.mem_filter.2 ⟨hx, decide_eq_true hxf⟩
      have := k4 x hxb
      dsimp only at this
      rw [sameGrams_similarity sim g x r hxr, ho.irrefl] at this
      cases this
    refine ⟨hsame, hfirst, ?_⟩
    rintro ⟨b, a, e1, e2⟩
    obtain ⟨b', a', e1', e2'⟩ := hfirst
    rw [e1] at e1'
    rcases List.append_eq_append_iff.1 e1' with ⟨c, hc1, hc2⟩ | ⟨c, hc1, hc2⟩
    · cases c with
      | nil => simp only [List.nil_append, List.cons.injEq] at hc2; exact hc2.1.symm
      | cons y c =>
        simp only [List.cons_append, List.cons.injEq] at hc2
        refine absurd hsame.symm (e2' f ?_)
        rw [hc1, hc2.1]; simp
    · cases c with
      | nil => simp only [List.nil_append, List.cons.injEq] at hc2; exact hc2.1
      | cons y c =>
        simp only [List.cons_append, List.cons.injEq] at hc2
        refine absurd hsame (e2 r ?_)
        rw [hc1, hc2.1]; simp

/-- **C84, defect.** Of two forms of a lexeme with the same grammemes the later one can never be obtained: whatever grammemes are asked for, from whichever form,
`inflect` does not return it. -/
theorem c84_unreachable (m : Morph S) (sim : Sim) (ho : sim.Ordered) (p : Parse S) (fs : List (Parse S)) (hl : m.lexeme p = .ok fs) (f : Parse S)
    (hf : ∀ before after, fs = before ++ f :: after → ∃ x ∈ before, SameGrams x f) (req : List Str) : m.inflect sim p req ≠ .ok (some f) := by
  intro h
  have hk : ∀ g ∈ effective fs req, g ∈ m.cls.known := by
    have hm : (matching fs req.toFinset = []) ↔ ¬ ∃ f ∈ fs, f.carries req := by
      rw [matching_eq, List.filter_eq_nil_iff]; simp
    unfold Morph.inflect at h
    rw [hl, ok_bind] at h
    dsimp only at h
    unfold effective
    split at h
    · next he =>
      rw [if_neg (hm.1 he)]
      rw [bind_ok_iff] at h
      obtain ⟨x, hx, _⟩ := h
      exact ((c24_value _ _ _ _).1 hx).1
    · next he =>
      rw [hm, not_not] at he
      rw [if_pos he]
      rw [bind_ok_iff] at h
      obtain ⟨x, hx, _⟩ := h
      exact ((c24_value _ _ _ _).1 hx).1
  obtain ⟨res, g, h1, _, _, _, h5⟩ := c17_inflect m sim ho p req fs hl hk
  rw [h] at h1
  simp only [Except.ok.injEq] at h1
  obtain ⟨k1, k2, before, after, k3, k4, k5⟩ := h5 f h1.symm
  obtain ⟨b, a, e1, e2⟩ := filter_first _ _ _ _ _ k3
  obtain ⟨x, hx, hxf⟩ := hf b a e1
  have hxb : x ∈ before := by
    rw [← e2]
    exact List.mem_filter.2 ⟨hx, decide_eq_true fun g hg => (hxf g).2 (k2 g hg)⟩
  have := k4 x hxb
  dsimp only at this
  rw [sameGrams_similarity sim g x f hxf, ho.irrefl] at this
  cases this

/-- **C84, there and back.** For a word without a hyphen, the forms of the lexeme reach each other: from any form `a` to any widest form `b` that is the first of its
kind, and back if `a` is so too. -/
theorem c84_there_and_back (m : Morph S) (hm : IsRu m ∨ IsUk m) (hlow : m.env.LowerStable) (hd : m.dict.WF) (sim : Sim) (ho : sim.Ordered)
    (w : Str) (hw : '-' ∉ m.env.lower w) (ps : List (Parse S)) (h : m.parse w = .ok ps) (p : Parse S) (hp : p ∈ ps) (fs : List (Parse S))
    (hfs : m.lexeme p = .ok fs) (hk : ∀ f ∈ fs, ∀ g ∈ f.tag.tuple, g ∈ m.cls.known) (a b : Parse S) (ha : a ∈ fs) (hb : b ∈ fs)
    (hwb : Widest fs b) (hfb : FirstOfItsKind fs b) :
    m.inflect sim p b.tag.tuple = .ok (some b) ∧ m.inflect sim a b.tag.tuple = .ok (some b) ∧
    (Widest fs a → FirstOfItsKind fs a → m.inflect sim b a.tag.tuple = .ok (some a)) := by
  have hla := c13_same_lexeme_no_hyphen m hm hlow hd w hw ps h p hp fs hfs a ha
  have hlb := c13_same_lexeme_no_hyphen m hm hlow hd w hw ps h p hp fs hfs b hb
  refine ⟨?_, ?_, fun hwa hfa => ?_⟩
  · obtain ⟨r, h1, _, _, h4⟩ := c84_reach m sim ho p fs hfs b hb (hk b hb)
    rw [h1, (h4 hwb).2.2 hfb]
  · obtain ⟨r, h1, _, _, h4⟩ := c84_reach m sim ho a fs hla b hb (hk b hb)
    rw [h1, (h4 hwb).2.2 hfb]
  · obtain ⟨r, h1, _, _, h4⟩ := c84_reach m sim ho b fs hlb a ha (hk a ha)
    rw [h1, (h4 hwa).2.2 hfa]

/-! ### Non-vacuity -/

/-- The demo dictionary with рука, рукой and рукою (the last two with the same tag). -/
def Demo.dict84 : Dict :=
  { Demo.dict with
    gramtab := Demo.dict.gramtab ++ [⟨c!"NOUN,femn sing,nomn"⟩, ⟨c!"NOUN,femn sing,ablt"⟩]
    paradigms := Demo.dict.paradigms ++ [[7, 8, 9, 7, 8, 8, 0, 0, 0]]
    suffixes := Demo.dict.suffixes ++ [c!"а", c!"ой", c!"ою"]
    words := [(c!"рука", (4, 0)), (c!"рукой", (4, 1)), (c!"рукою", (4, 2))]
    pred := [[], [], []] }

def Demo.morph84 : Morph Rat := { Demo.morph with dict := Demo.dict84 }

/-- The forms of рука. -/
def Demo.hand (w tag : Str) (i : Nat) : Parse Rat := ⟨w, ⟨tag⟩, c!"рука", 1, .single (.dict ⟨0, .dict⟩ w 4 i)⟩

def Demo.hand1 : Parse Rat := Demo.hand (c!"рука") (c!"NOUN,femn sing,nomn") 0
def Demo.hand2 : Parse Rat := Demo.hand (c!"рукой") (c!"NOUN,femn sing,ablt") 1
def Demo.hand3 : Parse Rat := Demo.hand (c!"рукою") (c!"NOUN,femn sing,ablt") 2

theorem Demo.hand_lexeme : Demo.morph84.parse (c!"Рукою") = .ok [Demo.hand3] ∧
    Demo.morph84.lexeme Demo.hand3 = .ok [Demo.hand1, Demo.hand2, Demo.hand3] := by
  constructor
  · have h : (match Demo.morph84.parse (c!"Рукою") with
      | .ok ps => decide (ps = [Demo.hand3])
      | .error _ => false) = true := by decide +kernel
    split at h
    · next ps hp => rw [hp, of_decide_eq_true h]
    · cases h
  · have h : (match Demo.morph84.lexeme Demo.hand3 with
      | .ok ps => decide (ps = [Demo.hand1, Demo.hand2, Demo.hand3])
      | .error _ => false) = true := by decide +kernel
    split at h
    · next ps hp => rw [hp, of_decide_eq_true h]
    · cases h

theorem Demo.hand12 : ¬ SameGrams Demo.hand1 Demo.hand2 := by
  intro h
  exact absurd ((h (c!"nomn")).1 (by decide +kernel)) (by decide +kernel)

theorem Demo.hand23 : SameGrams Demo.hand2 Demo.hand3 := by
  intro g
  rw [show Demo.hand3.tag = Demo.hand2.tag from rfl]

/-- From рукою one gets to рука and to рукой (and from рука to рукой and back), but рукою itself is never obtained, whatever is asked for. -/
example : Demo.morph84.inflect Sim.exact Demo.hand3 Demo.hand1.tag.tuple = .ok (some Demo.hand1) ∧
    Demo.morph84.inflect Sim.exact Demo.hand1 Demo.hand2.tag.tuple = .ok (some Demo.hand2) ∧
    Demo.morph84.inflect Sim.exact Demo.hand2 Demo.hand1.tag.tuple = .ok (some Demo.hand1) ∧
    ∀ req, Demo.morph84.inflect Sim.exact Demo.hand3 req ≠ .ok (some Demo.hand3) := by
  obtain ⟨hp, hl⟩ := Demo.hand_lexeme
  have hkn : ∀ f ∈ [Demo.hand1, Demo.hand2, Demo.hand3], ∀ g ∈ f.tag.tuple, g ∈ Demo.morph84.cls.known := by decide +kernel
  have carry1 : ∀ x ∈ [Demo.hand1, Demo.hand2, Demo.hand3], x.carries Demo.hand1.tag.tuple → x = Demo.hand1 := by decide +kernel
  have carry2 : ∀ x ∈ [Demo.hand1, Demo.hand2, Demo.hand3], x.carries Demo.hand2.tag.tuple → x = Demo.hand2 ∨ x = Demo.hand3 := by decide +kernel
  have w1 : Widest [Demo.hand1, Demo.hand2, Demo.hand3] Demo.hand1 := fun x hx hc => by
    rw [carry1 x hx hc]; exact fun g => Iff.rfl
  have w2 : Widest [Demo.hand1, Demo.hand2, Demo.hand3] Demo.hand2 := fun x hx hc => by
    rcases carry2 x hx hc with rfl | rfl
    · exact fun g => Iff.rfl
    · exact Demo.hand23.symm
  have f1 : FirstOfItsKind [Demo.hand1, Demo.hand2, Demo.hand3] Demo.hand1 := ⟨[], _, rfl, by simp⟩
  have f2 : FirstOfItsKind [Demo.hand1, Demo.hand2, Demo.hand3] Demo.hand2 := ⟨[Demo.hand1], _, rfl, by simpa using Demo.hand12⟩
  have hwf : Demo.dict84.WF := Dict.check_wf _ (by decide +kernel)
  have hru : IsRu Demo.morph84 := Demo.isRu_of _ _
  have key := fun a b ha hb => c84_there_and_back Demo.morph84 (.inl hru) demoEnv_lowerStable hwf Sim.exact Sim.exact_ordered (c!"Рукою") (by decide +kernel) _ hp
    Demo.hand3 (by simp) _ hl hkn a b ha hb
  obtain ⟨k1, _, k3⟩ := key Demo.hand2 Demo.hand1 (by simp) (by simp) w1 f1
  refine ⟨k1, k3 w2 f2, (key Demo.hand2 Demo.hand1 (by simp) (by simp) w1 f1).2.1, fun req => ?_⟩
  refine c84_unreachable Demo.morph84 Sim.exact Sim.exact_ordered Demo.hand3 _ hl Demo.hand3 ?_ req
  intro before after he
  refine ⟨Demo.hand2, ?_, Demo.hand23⟩
  match before, he with
  | [], he => exact absurd (List.cons.inj he).1 (by decide +kernel)
  | [a], he => exact absurd (List.cons.inj (List.cons.inj he).2).1 (by decide +kernel)
  | a :: b :: l, he =>
    have := (List.cons.inj (List.cons.inj he).2).1
    rw [← this]; simp

end Verif
