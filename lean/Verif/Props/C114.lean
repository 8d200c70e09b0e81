/-
C114: results belong to the analyzer that made them.  Whatever classes and analyzers a process makes, in whatever order, the methods of a result are
answered by the analyzer whose class it is, and the result type changes nothing but the class.
-/
import Verif.Model.Results
import Verif.Props.C93

set_option linter.unusedSectionVars false

namespace Verif

variable {S : Type} [Score S]

/-! ### Specification -/

/-- `w'` is `w` after any number of classes and analyzers have been made. -/
inductive Process.Later (w : Process S) : Process S → Prop
  | now : Later w w
  | subclass {w' : Process S} (name : Str) (base : Nat) : Later w w' → Later w (w'.subclass name base)
  | new {w' : Process S} (m : Morph S) (rt : Option Nat) : Later w w' → Later w (w'.new m rt)
  | copy {w' : Process S} (a : Nat) (m : Morph S) : Later w w' → Later w (w'.copy a m)

/-- `w` is a process that has imported the library and made some classes and analyzers. -/
def Process.Real (w : Process S) : Prop := Process.start.Later w

/-- `isinstance(x, b)` for an instance of the class `c`. -/
def Process.IsSubclass (w : Process S) (c b : Nat) : Prop := ∃ k, w.classes[c]? = some k ∧ b ∈ k.mro

/-- `c` is the class of the results of the analyzer `a`. -/
def Process.ClassOf (w : Process S) (a c : Nat) : Prop := ∃ x, w.morphs[a]? = some x ∧ x.resultType = some c

/-- `r` was obtained from the analyzer `a` by a chain of operations, while the process went on making other classes and analyzers. -/
inductive Obtains (sim : Sim) (a : Nat) : Process S → Str → Result S → Prop
  /-- `a.parse(word)[i]` -/
  | parse {w : Process S} {word : Str} {rs : List (Result S)} {r : Result S} : w.Real → w.parse a word = .ok rs → r ∈ rs → Obtains sim a w word r
  /-- other classes and analyzers are made -/
  | later {w w' : Process S} {word : Str} {r : Result S} : Obtains sim a w word r → w.Later w' → Obtains sim a w' word r
  /-- `a.get_lexeme(r)[i]` -/
  | got {w : Process S} {word : Str} {r f : Result S} {fs : List (Result S)} : Obtains sim a w word r → w.getLexeme a r = .ok fs → f ∈ fs →
      Obtains sim a w word f
  /-- `r.lexeme[i]` -/
  | form {w : Process S} {word : Str} {r f : Result S} {fs : List (Result S)} : Obtains sim a w word r → w.lexeme r = .ok fs → f ∈ fs →
      Obtains sim a w word f
  /-- `r.normalized` -/
  | normalized {w : Process S} {word : Str} {r q : Result S} : Obtains sim a w word r → w.normalized r = .ok q → Obtains sim a w word q
  /-- `r.inflect(required)` -/
  | inflected {w : Process S} {word : Str} {r f : Result S} {req : List Str} : Obtains sim a w word r → w.inflect sim r req = .ok (some f) →
      Obtains sim a w word f
  /-- `r.make_agree_with_number(num)` -/
  | agreed {w : Process S} {word : Str} {r f : Result S} {pick : Grams → Option Str} {num : Int} : Obtains sim a w word r →
      w.makeAgree sim pick r num = .ok (some f) → Obtains sim a w word f

/-! ### What holds in every process -/

/-- The invariant. -/
structure Process.Inv (w : Process S) : Prop where
  root : w.classes[0]? = some parseClass
  mro : ∀ (c : Nat) (k : PyCls), w.classes[c]? = some k → (∃ t, k.mro = c :: t) ∧ 0 ∈ k.mro ∧ ∀ i ∈ k.mro, i < w.classes.length
  owns : ∀ (a : Nat) (x : MorphObj S), w.morphs[a]? = some x → (x.resultType = none ∧ x.resultTypeOrig = none) ∨
    ∃ (rt : Nat) (b : PyCls) (c : Nat), x.resultTypeOrig = some rt ∧ w.classes[rt]? = some b ∧ x.resultType = some c ∧
      w.classes[c]? = some ⟨b.name, c :: b.mro, some (some a), some (some a)⟩
  binds : ∀ (c : Nat) (k : PyCls), w.classes[c]? = some k → k.morph = k.dict ∧
    (k.morph = none ∨ k.morph = some none ∨ ∃ a, k.morph = some (some a) ∧ w.ClassOf a c)

theorem Process.inv_start : (Process.start : Process S).Inv where
  root := rfl
  mro := by
    intro c k h
    cases c with
    | zero =>
      simp only [Process.start, List.getElem?_cons_zero, Option.some.injEq] at h
      subst h
      exact ⟨⟨[], rfl⟩, by simp [parseClass], by simp [parseClass, Process.start]⟩
    | succ n => simp [Process.start] at h
  owns := by intro a x h; simp [Process.start] at h
  binds := by
    intro c k h
    cases c with
    | zero =>
      simp only [Process.start, List.getElem?_cons_zero, Option.some.injEq] at h
      subst h
      exact ⟨rfl, .inr (.inl rfl)⟩
    | succ n => simp [Process.start] at h

/-- Looking up in a list with one more element. -/
theorem getElem?_concat {α : Type} {l : List α} {y x : α} {i : Nat} (h : (l ++ [y])[i]? = some x) : l[i]? = some x ∨ (i = l.length ∧ y = x) := by
  rcases lt_trichotomy i l.length with hi | hi | hi
  · rw [List.getElem?_append_left hi] at h; exact .inl h
  · subst hi; simp at h; exact .inr ⟨rfl, h⟩
  · rw [List.getElem?_eq_none (by simp; omega)] at h; simp at h

theorem getElem?_old {α : Type} {l l' : List α} {x : α} {i : Nat} (h : l[i]? = some x) : (l ++ l')[i]? = some x := by
  rw [List.getElem?_append_left (List.getElem?_eq_some_iff.1 h).1]; exact h

theorem Process.Inv.subclass {w : Process S} (h : w.Inv) (name : Str) (base : Nat) : (w.subclass name base).Inv := by
  unfold Process.subclass
  cases hb : w.classes[base]? with
  | none => exact h
  | some b =>
    dsimp only
    have hm := h.mro base b hb
    refine ⟨getElem?_old h.root, ?_, ?_, ?_⟩
    · intro c k hk
      rcases getElem?_concat hk with hk | ⟨rfl, rfl⟩
      · obtain ⟨h1, h2, h3⟩ := h.mro c k hk
        exact ⟨h1, h2, fun i hi => by have := h3 i hi; simp; omega⟩
      · refine ⟨⟨b.mro, rfl⟩, List.mem_cons_of_mem _ hm.2.1, fun i hi => ?_⟩
        rcases List.mem_cons.1 hi with rfl | hi
        · simp
        · have := hm.2.2 i hi; simp; omega
    · intro a x hx
      rcases h.owns a x hx with h1 | ⟨rt, b', c, h1, h2, h3, h4⟩
      · exact .inl h1
      · exact .inr ⟨rt, b', c, h1, getElem?_old h2, h3, getElem?_old h4⟩
    · intro c k hk
      rcases getElem?_concat hk with hk | ⟨rfl, rfl⟩
      · exact h.binds c k hk
      · exact ⟨rfl, .inl rfl⟩

theorem Process.Inv.new {w : Process S} (h : w.Inv) (m : Morph S) (rt : Option Nat) : (w.new m rt).Inv := by
  unfold Process.new
  cases rt with
  | none =>
    refine ⟨h.root, h.mro, ?_, ?_⟩
    · intro a x hx
      rcases getElem?_concat hx with hx | ⟨rfl, rfl⟩
      · exact h.owns a x hx
      · exact .inl ⟨rfl, rfl⟩
    · intro c k hk
      obtain ⟨h1, h2⟩ := h.binds c k hk
      refine ⟨h1, h2.imp_right fun h2 => h2.imp_right ?_⟩
      rintro ⟨a, e, x, hx, hc⟩
      exact ⟨a, e, x, getElem?_old hx, hc⟩
  | some rt =>
    cases hb : w.classes[rt]? with
    | none => simpa only [hb] using h
    | some b =>
      simp only [hb]
      have hm := h.mro rt b hb
      refine ⟨getElem?_old h.root, ?_, ?_, ?_⟩
      · intro c k hk
        rcases getElem?_concat hk with hk | ⟨rfl, rfl⟩
        · obtain ⟨h1, h2, h3⟩ := h.mro c k hk
          exact ⟨h1, h2, fun i hi => by have := h3 i hi; simp; omega⟩
        · refine ⟨⟨b.mro, rfl⟩, List.mem_cons_of_mem _ hm.2.1, fun i hi => ?_⟩
          rcases List.mem_cons.1 hi with rfl | hi
          · simp
          · have := hm.2.2 i hi; simp; omega
      · intro a x hx
        rcases getElem?_concat hx with hx | ⟨rfl, rfl⟩
        · rcases h.owns a x hx with h1 | ⟨rt, b', c, h1, h2, h3, h4⟩
          · exact .inl h1
          · exact .inr ⟨rt, b', c, h1, getElem?_old h2, h3, getElem?_old h4⟩
        · exact .inr ⟨rt, b, w.classes.length, rfl, getElem?_old hb, rfl, by simp⟩
      · intro c k hk
        rcases getElem?_concat hk with hk | ⟨rfl, rfl⟩
        · obtain ⟨h1, h2⟩ := h.binds c k hk
          refine ⟨h1, h2.imp_right fun h2 => h2.imp_right ?_⟩
          rintro ⟨a, e, x, hx, hc⟩
          exact ⟨a, e, x, getElem?_old hx, hc⟩
        · exact ⟨rfl, .inr (.inr ⟨_, rfl, ⟨m, some w.classes.length, some rt⟩, by simp, rfl⟩)⟩

theorem Process.Inv.later {w w' : Process S} (h : w.Inv) (hl : w.Later w') : w'.Inv := by
  induction hl with
  | now => exact h
  | subclass name base _ ih => exact ih.subclass name base
  | new m rt _ ih => exact ih.new m rt
  | copy a m _ ih =>
    unfold Process.copy
    split
    · exact ih.new m _
    · exact ih

theorem Process.Real.inv {w : Process S} (h : w.Real) : w.Inv := Process.inv_start.later h

theorem Process.Later.trans {w w' w'' : Process S} (h : w.Later w') (h' : w'.Later w'') : w.Later w'' := by
  induction h' with
  | now => exact h
  | subclass name base _ ih => exact ih.subclass name base
  | new m rt _ ih => exact ih.new m rt
  | copy a m _ ih => exact ih.copy a m

theorem Process.Real.later {w w' : Process S} (h : w.Real) (hl : w.Later w') : w'.Real := Process.Later.trans h hl

/-- Objects stay as they are. -/
theorem Process.Later.keeps {w w' : Process S} (h : w.Later w') :
    (∀ (c : Nat) (k : PyCls), w.classes[c]? = some k → w'.classes[c]? = some k) ∧ ∀ (a : Nat) (x : MorphObj S), w.morphs[a]? = some x → w'.morphs[a]? = some x := by
  have hnew : ∀ (v : Process S) (m : Morph S) (rt : Option Nat), (∀ (c : Nat) (k : PyCls), v.classes[c]? = some k → (v.new m rt).classes[c]? = some k) ∧
      ∀ (a : Nat) (x : MorphObj S), v.morphs[a]? = some x → (v.new m rt).morphs[a]? = some x := by
    intro v m rt
    unfold Process.new
    cases rt with
    | none => exact ⟨fun c k hk => hk, fun a x hx => getElem?_old hx⟩
    | some rt =>
      cases hb : v.classes[rt]? with
      | none => simp only [hb]; exact ⟨fun c k hk => hk, fun a x hx => hx⟩
      | some b => simp only [hb]; exact ⟨fun c k hk => getElem?_old hk, fun a x hx => getElem?_old hx⟩
  induction h with
  | now => exact ⟨fun _ _ h => h, fun _ _ h => h⟩
  | @subclass w' name base _ ih =>
    unfold Process.subclass
    cases hb : w'.classes[base]? with
    | none => exact ih
    | some b => exact ⟨fun c k hk => getElem?_old (ih.1 c k hk), ih.2⟩
  | @new w' m rt _ ih => exact ⟨fun c k hk => (hnew w' m rt).1 c k (ih.1 c k hk), fun a x hx => (hnew w' m rt).2 a x (ih.2 a x hx)⟩
  | @copy w' a m _ ih =>
    unfold Process.copy
    cases hx : w'.morphs[a]? with
    | none => exact ih
    | some x => exact ⟨fun c k hk => (hnew w' m _).1 c k (ih.1 c k hk), fun a x hx => (hnew w' m _).2 a x (ih.2 a x hx)⟩

/-- What the class of an analyzer looks like. -/
theorem Process.Inv.classOf {w : Process S} (h : w.Inv) {a c : Nat} (hc : w.ClassOf a c) :
    ∃ (name : Str) (t : List Nat), w.classes[c]? = some ⟨name, c :: t, some (some a), some (some a)⟩ := by
  obtain ⟨x, hx, e⟩ := hc
  rcases h.owns a x hx with h1 | ⟨rt, b, c', h1, h2, h3, h4⟩
  · rw [h1.1] at e; simp at e
  · rw [h3] at e; obtain rfl : c' = c := by simpa using e
    exact ⟨_, _, h4⟩

theorem Process.Inv.bound {w : Process S} (h : w.Inv) {a c : Nat} (hc : w.ClassOf a c) (r : Result S) (hr : r.cls = some c) :
    w.boundMorph r = .ok a ∧ w.boundDict r = .ok a := by
  obtain ⟨name, t, hk⟩ := h.classOf hc
  constructor
  · unfold Process.boundMorph Process.getAttr
    rw [hr]; simp [hk]
  · unfold Process.boundDict Process.getAttr
    rw [hr]; simp [hk]

theorem Process.obj_ok {w : Process S} {a : Nat} {x : MorphObj S} (h : w.morphs[a]? = some x) : w.obj a = .ok x := (pyGet_ok_iff _ _ _).2 h

theorem returnsForm_lexeme (m : Morph S) (p : Parse S) (h : p.stack.returnsForm = true) : m.lexeme p = .ok [p] := by
  obtain ⟨word, tag, nf, score, st⟩ := p
  cases st with
  | nil => simp [Stack.returnsForm] at h
  | push rest x =>
    cases x with
    | dict => simp [Stack.returnsForm] at h
    | fixed => simp [Stack.returnsForm] at h
    | both => simp [Stack.returnsForm] at h
    | simple u arg =>
      obtain ⟨id, kind⟩ := u
      cases kind <;> simp [Stack.returnsForm] at h <;> simp [Morph.lexeme, lexemeOf]

/-- The lexeme that an analyzer `a` gives for any result, its own or not. -/
theorem Process.getLexeme_eq {w : Process S} {a : Nat} {x y : MorphObj S} {r : Result S} (hx : w.morphs[a]? = some x)
    (hy : w.morphs[r.owner]? = some y) {c : Nat} (hc : x.resultType = some c) :
    w.getLexeme a r = (y.morph.lexeme r.fields).map fun fs => fs.map fun f => ⟨f, some c, r.owner⟩ := by
  unfold Process.getLexeme
  rw [Process.obj_ok hx, ok_bind]
  unfold Process.unitLexeme
  by_cases hf : r.fields.stack.returnsForm = true
  · rw [if_pos hf, returnsForm_lexeme _ _ hf]
    simp [MorphObj.wrap, hc, Except.map]
  · rw [if_neg hf, Process.obj_ok hy, ok_bind]
    cases y.morph.lexeme r.fields with
    | error e => rfl
    | ok fs => simp [Except.map, MorphObj.wrap, hc, Function.comp_def]

theorem maxLoop_map {α β : Type} (sim : Sim) (g : α → β) (key : β → sim.K) (as : List α) (cur : α) :
    maxLoop sim key (as.map g) (g cur) = g (maxLoop sim (fun a => key (g a)) as cur) := by
  induction as generalizing cur with
  | nil => rfl
  | cons a as ih =>
    simp only [List.map_cons, maxLoop]
    split
    · exact ih a
    · exact ih cur

theorem nlargest1_map {α β : Type} (sim : Sim) (g : α → β) (key : β → sim.K) (as : List α) :
    nlargest1 sim key (as.map g) = (nlargest1 sim (fun a => key (g a)) as).map g := by
  cases as with
  | nil => rfl
  | cons a as => simp [nlargest1, maxLoop_map]

/-- `_inflect` in terms of the lexeme as `getLexeme` gives it. -/
theorem Process.inflect_eq {w : Process S} (sim : Sim) {a : Nat} {y : MorphObj S} {r : Result S} (hy : w.morphs[r.owner]? = some y)
    (g : Parse S → Result S) (hg : ∀ f, (g f).fields = f)
    (hl : w.getLexeme a r = (y.morph.lexeme r.fields).map fun fs => fs.map g) (req : List Str) :
    w.inflect_ sim a r req = (y.morph.inflect sim r.fields req).map fun o => o.map g := by
  unfold Process.inflect_ Morph.inflect
  rw [hl]
  cases h0 : y.morph.lexeme r.fields with
  | error e => rfl
  | ok fs =>
    have hfil : ∀ q : Grams, (fs.map g).filter (fun f => decide (q ⊆ f.fields.tag.grammemes)) = (matching fs q).map g := by
      intro q
      rw [List.filter_map]
      simp [matching, Function.comp_def, hg]
    simp only [Except.map, ok_bind, hfil]
    by_cases hm : matching fs req.toFinset = []
    · simp only [hm, List.map_nil, List.isEmpty_nil, if_true]
      rw [Process.obj_ok hy, ok_bind]
      cases updatedGrammemes y.morph.cls r.fields.tag (req.map fixRare1) with
      | error e => rfl
      | ok gr => simp [nlargest1_map, hg, pure, Except.pure]
    · have : ((matching fs req.toFinset).map g).isEmpty = false := by
        cases h : matching fs req.toFinset with
        | nil => exact absurd h hm
        | cons => rfl
      simp only [this, if_neg hm, Bool.false_eq_true, if_false]
      rw [Process.obj_ok hy, ok_bind]
      cases updatedGrammemes y.morph.cls r.fields.tag req with
      | error e => rfl
      | ok gr => simp [nlargest1_map, hg, pure, Except.pure]

/-! ### The property -/

/-- **The class of the results.**  A new analyzer gets a class of its own: an instance of it is an instance of the class that was asked for and
of `Parse`, the name is the same, and no other analyzer that exists, or that is made later, gives its results that class. -/
theorem c114_class (w : Process S) (h : w.Real) (m : Morph S) (rt : Nat) (b : PyCls) (hb : w.classes[rt]? = some b) (w' : Process S)
    (hl : (w.new m (some rt)).Later w') :
    ∃ (c : Nat) (k : PyCls), w'.ClassOf w.morphs.length c ∧ w'.classes[c]? = some k ∧ k.name = b.name ∧ w'.IsSubclass c rt ∧ w'.IsSubclass c 0 ∧
      w.classes[c]? = none ∧ ∀ a, w'.ClassOf a c → a = w.morphs.length := by
  have hi := h.inv
  have hw' := (hi.new m (some rt)).later hl
  have hk := hl.keeps
  have hm : (w.new m (some rt)).morphs[w.morphs.length]? = some ⟨m, some w.classes.length, some rt⟩ := by
    simp [Process.new, hb]
  have hc : (w.new m (some rt)).classes[w.classes.length]? =
      some ⟨b.name, w.classes.length :: b.mro, some (some w.morphs.length), some (some w.morphs.length)⟩ := by
    simp [Process.new, hb]
  obtain ⟨⟨t, ht⟩, h0, _⟩ := hi.mro rt b hb
  refine ⟨w.classes.length, _, ⟨_, hk.2 _ _ hm, rfl⟩, hk.1 _ _ hc, rfl, ⟨_, hk.1 _ _ hc, ?_⟩, ⟨_, hk.1 _ _ hc, ?_⟩, by simp, ?_⟩
  · simp [ht]
  · simp [h0]
  · intro a ha
    obtain ⟨name, t', e⟩ := hw'.classOf ha
    rw [hk.1 _ _ hc] at e
    simp only [Option.some.injEq, PyCls.mk.injEq] at e
    exact e.2.2.1.symm

/-- **What an analyzer hands out.**  The fields are what the model of the analysis says, whatever the result type; the class is that of the
analyzer, or none. -/
theorem c114_made (w : Process S) (a : Nat) (x : MorphObj S) (hx : w.morphs[a]? = some x) (word pre : Str) :
    w.parse a word = (x.morph.parse word).map (fun ps => ps.map fun p => ⟨p, x.resultType, a⟩) ∧
    w.iterKnown a pre = (x.morph.iterKnownWordParses pre).map fun ps => ps.map fun p => ⟨p, x.resultType, a⟩ := by
  obtain ⟨m, rt, o⟩ := x
  constructor
  · unfold Process.parse
    rw [Process.obj_ok hx, ok_bind]
    cases m.parse word with
    | error e => rfl
    | ok ps => cases rt <;> simp [Except.map, MorphObj.wrap, pure, Except.pure]
  · unfold Process.iterKnown
    rw [Process.obj_ok hx, ok_bind]
    cases m.iterKnownWordParses pre with
    | error e => rfl
    | ok ps => cases rt <;> simp [Except.map, MorphObj.wrap, pure, Except.pure]

/-- **The methods of a result are answered by its own analyzer**, at any later time, and give results of the same class. -/
theorem c114_methods (w : Process S) (h : w.Real) (a c : Nat) (x : MorphObj S) (hx : w.morphs[a]? = some x) (hc : x.resultType = some c)
    (w' : Process S) (hl : w.Later w') (p : Parse S) (sim : Sim) (pick : Grams → Option Str) (req : List Str) (num : Int) :
    w'.lexeme ⟨p, some c, a⟩ = (x.morph.lexeme p).map (fun fs => fs.map fun f => ⟨f, some c, a⟩) ∧
    w'.normalized ⟨p, some c, a⟩ = (x.morph.normalized p).map (fun f => ⟨f, some c, a⟩) ∧
    w'.inflect sim ⟨p, some c, a⟩ req = (x.morph.inflect sim p req).map (fun o => o.map fun f => ⟨f, some c, a⟩) ∧
    w'.makeAgree sim pick ⟨p, some c, a⟩ num = (x.morph.makeAgree sim pick p num).map (fun o => o.map fun f => ⟨f, some c, a⟩) ∧
    w'.isKnown ⟨p, some c, a⟩ = .ok (x.morph.isKnown p) := by
  have hx' : w'.morphs[a]? = some x := hl.keeps.2 a x hx
  have hw' := h.inv.later hl
  obtain ⟨hbm, hbd⟩ := hw'.bound ⟨x, hx', hc⟩ ⟨p, some c, a⟩ rfl
  have hgl : w'.getLexeme a ⟨p, some c, a⟩ = (x.morph.lexeme p).map (fun fs => fs.map fun f => ⟨f, some c, a⟩) :=
    Process.getLexeme_eq (r := ⟨p, some c, a⟩) hx' hx' hc
  have hin : ∀ req, w'.inflect_ sim a ⟨p, some c, a⟩ req = (x.morph.inflect sim p req).map (fun o => o.map fun f => ⟨f, some c, a⟩) := fun req =>
    Process.inflect_eq (r := ⟨p, some c, a⟩) sim hx' (fun f => ⟨f, some c, a⟩) (fun _ => rfl) hgl req
  refine ⟨?_, ?_, ?_, ?_, ?_⟩
  · unfold Process.lexeme
    rw [hbm, ok_bind, hgl]
  · unfold Process.normalized
    simp only
    rw [Process.obj_ok hx', ok_bind]
    cases x.morph.normalized p <;> rfl
  · unfold Process.inflect
    rw [hbm, ok_bind, hin]
  · unfold Process.makeAgree Morph.makeAgree
    rw [hbm, ok_bind]
    simp only
    cases allSome (numeralAgreement pick p.tag num) with
    | some req => exact hin req
    | none =>
      simp only
      rw [hgl]
      cases x.morph.lexeme p with
      | error e => rfl
      | ok fs =>
        simp only [Except.map, ok_bind]
        rw [Process.obj_ok hx', ok_bind]
        cases x.morph.cls.assertInit <;> rfl
  · unfold Process.isKnown
    rw [hbd, ok_bind, hbm, ok_bind, Process.obj_ok hx', ok_bind, ok_bind]
    rfl

/-- **Chains.**  Everything that is obtained from a result by operations, however long the chain and whatever else the process makes meanwhile, has
the class of the analyzer that made the first, and its fields are what the same operations of that analyzer give. -/
theorem c114_chain (sim : Sim) (a : Nat) (w : Process S) (word : Str) (r : Result S) (h : Obtains sim a w word r) :
    ∃ x, w.Real ∧ w.morphs[a]? = some x ∧ r.cls = x.resultType ∧ r.owner = a ∧
      ∃ ps p0, x.morph.parse word = .ok ps ∧ p0 ∈ ps ∧ Obtained x.morph sim p0 r.fields := by
  induction h with
  | @parse w word rs r hw hp hr =>
    cases hx : w.morphs[a]? with
    | none =>
      unfold Process.parse Process.obj pyGet at hp
      rw [hx] at hp
      simp [bind, Except.bind] at hp
    | some x =>
      rw [(c114_made w a x hx word []).1] at hp
      cases hps : x.morph.parse word with
      | error e => rw [hps] at hp; simp [Except.map] at hp
      | ok ps =>
        rw [hps] at hp
        simp only [Except.map, Except.ok.injEq] at hp
        subst hp
        obtain ⟨p, hpm, rfl⟩ := List.mem_map.1 hr
        exact ⟨x, hw, rfl, rfl, rfl, ps, p, hps, hpm, .start⟩
  | @later w w' word r _ hl ih =>
    obtain ⟨x, hw, hx, h1, h2, h3⟩ := ih
    exact ⟨x, Process.Real.later hw hl, hl.keeps.2 a x hx, h1, h2, h3⟩
  | @got w word r f fs _ hg hf ih =>
    obtain ⟨x, hw, hx, h1, h2, ps, p0, h4, h5, h6⟩ := ih
    obtain ⟨p, cls, owner⟩ := r
    obtain rfl : owner = a := h2
    cases hc : x.resultType with
    | some c =>
      rw [Process.getLexeme_eq (r := ⟨p, cls, owner⟩) hx hx hc] at hg
      cases hlx : x.morph.lexeme p with
      | error e => simp [hlx, Except.map] at hg
      | ok gs =>
        simp only [hlx, Except.map, Except.ok.injEq] at hg
        subst hg
        obtain ⟨q, hq, rfl⟩ := List.mem_map.1 hf
        exact ⟨x, hw, hx, hc.symm, rfl, ps, p0, h4, h5, .form h6 hlx hq⟩
    | none =>
      rw [hc] at h1
      unfold Process.getLexeme at hg
      rw [Process.obj_ok hx, ok_bind] at hg
      unfold Process.unitLexeme at hg
      have hwrap : ∀ z : Result S, x.wrap z = z := fun z => by simp [MorphObj.wrap, hc]
      by_cases hrf : p.stack.returnsForm = true
      · simp only [if_pos hrf, ok_bind, pure, Except.pure, Except.ok.injEq, List.map_cons, List.map_nil, hwrap] at hg
        subst hg
        obtain rfl : f = ⟨p, cls, owner⟩ := by simpa using hf
        exact ⟨x, hw, hx, h1.trans hc.symm, rfl, ps, p0, h4, h5, h6⟩
      · simp only [if_neg hrf] at hg
        rw [Process.obj_ok hx, ok_bind] at hg
        cases hlx : x.morph.lexeme p with
        | error e => simp [hlx, bind, Except.bind] at hg
        | ok gs =>
          simp only [hlx, ok_bind, pure, Except.pure, Except.ok.injEq, List.map_map] at hg
          subst hg
          obtain ⟨q, hq, rfl⟩ := List.mem_map.1 hf
          exact ⟨x, hw, hx, by simp [Function.comp, hwrap, hc], by simp [Function.comp, hwrap], ps, p0, h4, h5, by
            simp only [Function.comp, hwrap]; exact .form h6 hlx hq⟩
  | @form w word r f fs _ hg hf ih =>
    obtain ⟨x, hw, hx, h1, h2, ps, p0, h4, h5, h6⟩ := ih
    obtain ⟨p, cls, owner⟩ := r
    obtain rfl : owner = a := h2
    cases hc : x.resultType with
    | none => rw [hc] at h1; simp only at h1; subst h1; simp [Process.lexeme, Process.boundMorph, bind, Except.bind] at hg
    | some c =>
      rw [hc] at h1; simp only at h1; subst h1
      rw [(c114_methods w hw owner c x hx hc w .now p sim (fun _ => none) [] 0).1] at hg
      cases hlx : x.morph.lexeme p with
      | error e => simp [hlx, Except.map] at hg
      | ok gs =>
        simp only [hlx, Except.map, Except.ok.injEq] at hg
        subst hg
        obtain ⟨q, hq, rfl⟩ := List.mem_map.1 hf
        exact ⟨x, hw, hx, hc.symm, rfl, ps, p0, h4, h5, .form h6 hlx hq⟩
  | @normalized w word r q _ hg ih =>
    obtain ⟨x, hw, hx, h1, h2, ps, p0, h4, h5, h6⟩ := ih
    obtain ⟨p, cls, owner⟩ := r
    obtain rfl : owner = a := h2
    cases hc : x.resultType with
    | none => rw [hc] at h1; simp only at h1; subst h1; simp [Process.normalized] at hg
    | some c =>
      rw [hc] at h1; simp only at h1; subst h1
      rw [(c114_methods w hw owner c x hx hc w .now p sim (fun _ => none) [] 0).2.1] at hg
      cases hlx : x.morph.normalized p with
      | error e => simp [hlx, Except.map] at hg
      | ok q' =>
        simp only [hlx, Except.map, Except.ok.injEq] at hg
        subst hg
        exact ⟨x, hw, hx, hc.symm, rfl, ps, p0, h4, h5, .normalized h6 hlx⟩
  | @inflected w word r f req _ hg ih =>
    obtain ⟨x, hw, hx, h1, h2, ps, p0, h4, h5, h6⟩ := ih
    obtain ⟨p, cls, owner⟩ := r
    obtain rfl : owner = a := h2
    cases hc : x.resultType with
    | none => rw [hc] at h1; simp only at h1; subst h1; simp [Process.inflect, Process.boundMorph, bind, Except.bind] at hg
    | some c =>
      rw [hc] at h1; simp only at h1; subst h1
      rw [(c114_methods w hw owner c x hx hc w .now p sim (fun _ => none) req 0).2.2.1] at hg
      cases hlx : x.morph.inflect sim p req with
      | error e => simp [hlx, Except.map] at hg
      | ok o =>
        cases o with
        | none => simp [hlx, Except.map] at hg
        | some q =>
          simp only [hlx, Except.map, Except.ok.injEq, Option.map_some, Option.some.injEq] at hg
          subst hg
          exact ⟨x, hw, hx, hc.symm, rfl, ps, p0, h4, h5, .inflected h6 hlx⟩
  | @agreed w word r f pick num _ hg ih =>
    obtain ⟨x, hw, hx, h1, h2, ps, p0, h4, h5, h6⟩ := ih
    obtain ⟨p, cls, owner⟩ := r
    obtain rfl : owner = a := h2
    cases hc : x.resultType with
    | none => rw [hc] at h1; simp only at h1; subst h1; simp [Process.makeAgree, Process.boundMorph, bind, Except.bind] at hg
    | some c =>
      rw [hc] at h1; simp only at h1; subst h1
      rw [(c114_methods w hw owner c x hx hc w .now p sim pick [] num).2.2.2.1] at hg
      cases hlx : x.morph.makeAgree sim pick p num with
      | error e => simp [hlx, Except.map] at hg
      | ok o =>
        cases o with
        | none => simp [hlx, Except.map] at hg
        | some q =>
          simp only [hlx, Except.map, Except.ok.injEq, Option.map_some, Option.some.injEq] at hg
          subst hg
          exact ⟨x, hw, hx, hc.symm, rfl, ps, p0, h4, h5, .agreed h6 hlx⟩

/-- The fields of what `getLexeme` gives, whatever the classes. -/
theorem Process.getLexeme_fields (w : Process S) (a : Nat) (x y : MorphObj S) (r : Result S) (hx : w.morphs[a]? = some x)
    (hy : w.morphs[r.owner]? = some y) :
    ∃ g : Parse S → Result S, (∀ f, (g f).fields = f ∧ (g f).owner = r.owner) ∧
      w.getLexeme a r = (y.morph.lexeme r.fields).map (fun fs => fs.map g) ∧
      (∀ f, (g f).cls = x.resultType ∨ (x.resultType = none ∧ r.fields.stack.returnsForm = true ∧ (g f).cls = r.cls)) := by
  cases hc : x.resultType with
  | some c => exact ⟨fun f => ⟨f, some c, r.owner⟩, fun _ => ⟨rfl, rfl⟩, Process.getLexeme_eq hx hy hc, fun _ => .inl rfl⟩
  | none =>
    have hwrap : ∀ z : Result S, x.wrap z = z := fun z => by simp [MorphObj.wrap, hc]
    by_cases hrf : r.fields.stack.returnsForm = true
    · refine ⟨fun f => ⟨f, r.cls, r.owner⟩, fun _ => ⟨rfl, rfl⟩, ?_, fun _ => .inr ⟨rfl, hrf, rfl⟩⟩
      unfold Process.getLexeme
      rw [Process.obj_ok hx, ok_bind]
      unfold Process.unitLexeme
      rw [if_pos hrf, returnsForm_lexeme _ _ hrf]
      simp [hwrap, Except.map, pure, Except.pure]
    · refine ⟨fun f => ⟨f, none, r.owner⟩, fun _ => ⟨rfl, rfl⟩, ?_, fun _ => .inl rfl⟩
      unfold Process.getLexeme
      rw [Process.obj_ok hx, ok_bind]
      unfold Process.unitLexeme
      rw [if_neg hrf, Process.obj_ok hy, ok_bind]
      cases y.morph.lexeme r.fields with
      | error e => rfl
      | ok fs => simp [Except.map, hwrap, Function.comp_def, pure, Except.pure]

/-- **Across analyzers.**  `a.get_lexeme(r)` and inflection through `a` are answered by the analyzer whose units are in `r` — not by `a` — but the results
have the class of `a`, so `is_known` of those asks the dictionary of `a`. -/
theorem c114_foreign (w : Process S) (h : w.Real) (a c : Nat) (x y : MorphObj S) (r : Result S) (hx : w.morphs[a]? = some x)
    (hy : w.morphs[r.owner]? = some y) (hc : x.resultType = some c) (sim : Sim) (req : List Str) :
    w.getLexeme a r = (y.morph.lexeme r.fields).map (fun fs => fs.map fun f => ⟨f, some c, r.owner⟩) ∧
    w.inflect_ sim a r req = (y.morph.inflect sim r.fields req).map (fun o => o.map fun f => ⟨f, some c, r.owner⟩) ∧
    ∀ fs, w.getLexeme a r = .ok fs → ∀ f ∈ fs, w.isKnown f = .ok (x.morph.isKnown f.fields) ∧ ∃ gs, y.morph.lexeme f.fields = gs ∧
      w.lexeme f = gs.map fun gs => gs.map fun g => ⟨g, some c, r.owner⟩ := by
  have hgl := Process.getLexeme_eq hx hy hc
  refine ⟨hgl, Process.inflect_eq sim hy _ (fun _ => rfl) hgl req, ?_⟩
  intro fs hfs f hf
  rw [hgl] at hfs
  cases hlx : y.morph.lexeme r.fields with
  | error e => simp [hlx, Except.map] at hfs
  | ok gs =>
    simp only [hlx, Except.map, Except.ok.injEq] at hfs
    subst hfs
    obtain ⟨q, hq, rfl⟩ := List.mem_map.1 hf
    obtain ⟨hbm, hbd⟩ := h.inv.bound ⟨x, hx, hc⟩ ⟨q, some c, r.owner⟩ rfl
    refine ⟨?_, _, rfl, ?_⟩
    · unfold Process.isKnown
      rw [hbd, ok_bind, hbm, ok_bind, Process.obj_ok hx, ok_bind, ok_bind]
      rfl
    · unfold Process.lexeme
      rw [hbm, ok_bind]
      exact Process.getLexeme_eq (r := ⟨q, some c, r.owner⟩) hx hy hc

/-- **Plain tuples** (`result_type=None`) have no methods, but the analyzer's own methods take them, and give the same fields whatever the result type
of the analyzer that is asked. -/
theorem c114_tuples (w : Process S) (p : Parse S) (o : Nat) (sim : Sim) (pick : Grams → Option Str) (req : List Str) (num : Int) :
    (w.lexeme ⟨p, none, o⟩ = .error .attributeError ∧ w.normalized ⟨p, none, o⟩ = .error .attributeError ∧
      w.inflect sim ⟨p, none, o⟩ req = .error .attributeError ∧ w.makeAgree sim pick ⟨p, none, o⟩ num = .error .attributeError ∧
      w.isKnown ⟨p, none, o⟩ = .error .attributeError) ∧
    ∀ (a : Nat) (x y : MorphObj S) (r : Result S), w.morphs[a]? = some x → w.morphs[r.owner]? = some y →
      (w.getLexeme a r).map (fun fs => fs.map Result.fields) = y.morph.lexeme r.fields ∧
      (w.inflect_ sim a r req).map (fun o => o.map Result.fields) = y.morph.inflect sim r.fields req ∧
      (x.resultType = none → r.cls = none → ∀ fs, w.getLexeme a r = .ok fs → ∀ f ∈ fs, f.cls = none) := by
  refine ⟨⟨rfl, rfl, rfl, rfl, rfl⟩, ?_⟩
  intro a x y r hx hy
  obtain ⟨g, hg, hgl, hcls⟩ := Process.getLexeme_fields w a x y r hx hy
  refine ⟨?_, ?_, ?_⟩
  · rw [hgl]
    cases y.morph.lexeme r.fields with
    | error e => rfl
    | ok fs => simp [Except.map, Function.comp_def, hg]
  · rw [Process.inflect_eq sim hy g (fun f => (hg f).1) hgl req]
    cases y.morph.inflect sim r.fields req with
    | error e => rfl
    | ok o => cases o <;> simp [Except.map, hg]
  · intro hn hr fs hfs f hf
    rw [hgl] at hfs
    cases hlx : y.morph.lexeme r.fields with
    | error e => simp [hlx, Except.map] at hfs
    | ok gs =>
      simp only [hlx, Except.map, Except.ok.injEq] at hfs
      subst hfs
      obtain ⟨q, _, rfl⟩ := List.mem_map.1 hf
      rcases hcls q with e | ⟨_, _, e⟩
      · rw [e, hn]
      · rw [e, hr]

/-- **Unbound classes.**  An instance of `Parse` itself, or of a class written by the user — of any class none of whose bases is the class of an
analyzer — can be normalized, but its other methods raise `AttributeError`. -/
theorem c114_unbound (w : Process S) (h : w.Real) (c : Nat) (k : PyCls) (hk : w.classes[c]? = some k)
    (hu : ∀ i ∈ k.mro, ∀ a, ¬ w.ClassOf a i) (p : Parse S) (o : Nat) (y : MorphObj S) (hy : w.morphs[o]? = some y)
    (sim : Sim) (pick : Grams → Option Str) (req : List Str) (num : Int) :
    w.lexeme ⟨p, some c, o⟩ = .error .attributeError ∧ w.inflect sim ⟨p, some c, o⟩ req = .error .attributeError ∧
    w.makeAgree sim pick ⟨p, some c, o⟩ num = .error .attributeError ∧ w.isKnown ⟨p, some c, o⟩ = .error .attributeError ∧
    w.normalized ⟨p, some c, o⟩ = (y.morph.normalized p).map fun f => ⟨f, some c, o⟩ := by
  have hi := h.inv
  have hno : ∀ (attr : PyCls → Option (Option Nat)), (∀ (i : Nat) (k' : PyCls), w.classes[i]? = some k' → attr k' = k'.morph) →
      ∀ a, w.getAttr attr c ≠ some (some a) := by
    intro attr hattr a e
    unfold Process.getAttr at e
    rw [hk] at e
    simp only at e
    obtain ⟨l1, i, l2, e1, e2, _⟩ := List.findSome?_eq_some_iff.1 e
    have him : i ∈ k.mro := by simp [e1]
    cases hki : w.classes[i]? with
    | none => simp [hki] at e2
    | some k' =>
      rw [hki, Option.bind_some, hattr i k' hki] at e2
      rcases (hi.binds i k' hki).2 with e3 | e3 | ⟨a', e3, e4⟩
      · rw [e3] at e2; simp at e2
      · rw [e3] at e2; simp at e2
      · exact hu i him a' e4
  have hbm : w.boundMorph ⟨p, some c, o⟩ = .error .attributeError := by
    unfold Process.boundMorph
    simp only [Option.bind_some]
    split
    · rename_i a e; exact absurd e (hno PyCls.morph (fun _ _ _ => rfl) a)
    · rfl
  have hbd : w.boundDict ⟨p, some c, o⟩ = .error .attributeError := by
    unfold Process.boundDict
    simp only [Option.bind_some]
    split
    · rename_i a e; exact absurd e (hno PyCls.dict (fun i k' e => (hi.binds i k' e).1.symm) a)
    · rfl
  refine ⟨?_, ?_, ?_, ?_, ?_⟩
  · unfold Process.lexeme; rw [hbm]; rfl
  · unfold Process.inflect; rw [hbm]; rfl
  · unfold Process.makeAgree; rw [hbm]; rfl
  · unfold Process.isKnown; rw [hbd]; rfl
  · unfold Process.normalized
    simp only
    rw [Process.obj_ok hy, ok_bind]
    cases y.morph.normalized p <;> rfl

/-- **Classes derived by the user** answer like the class they are derived from: an instance of `class My(base): pass` asks the analyzer that an
instance of `base` asks (none, if `base` is not bound). -/
theorem c114_inherited (w : Process S) (h : w.Real) (name : Str) (base : Nat) (b : PyCls) (hb : w.classes[base]? = some b) (p : Parse S) (o : Nat) :
    (w.subclass name base).boundMorph ⟨p, some w.classes.length, o⟩ = w.boundMorph ⟨p, some base, o⟩ ∧
    (w.subclass name base).boundDict ⟨p, some w.classes.length, o⟩ = w.boundDict ⟨p, some base, o⟩ ∧
    (w.subclass name base).IsSubclass w.classes.length base := by
  have hi := h.inv
  have hm := hi.mro base b hb
  have hd : (w.subclass name base).classes = w.classes ++ [⟨name, w.classes.length :: b.mro, none, none⟩] := by simp [Process.subclass, hb]
  have hattr : ∀ attr : PyCls → Option (Option Nat), attr ⟨name, w.classes.length :: b.mro, none, none⟩ = none →
      (w.subclass name base).getAttr attr w.classes.length = w.getAttr attr base := by
    intro attr ha
    unfold Process.getAttr
    rw [hd, hb]
    simp only [List.getElem?_concat_length, List.findSome?_cons, Option.bind_some, ha]
    have : ∀ l : List Nat, (∀ i ∈ l, i < w.classes.length) →
        l.findSome? (fun i => ((w.classes ++ [⟨name, w.classes.length :: b.mro, none, none⟩])[i]?).bind attr) =
          l.findSome? fun i => (w.classes[i]?).bind attr := by
      intro l hl
      induction l with
      | nil => rfl
      | cons i l ih =>
        rw [List.findSome?_cons, List.findSome?_cons, List.getElem?_append_left (hl i (by simp)), ih fun j hj => hl j (by simp [hj])]
    exact this b.mro hm.2.2
  refine ⟨?_, ?_, ⟨⟨name, w.classes.length :: b.mro, none, none⟩, by rw [hd]; simp, ?_⟩⟩
  · unfold Process.boundMorph
    simp only [Option.bind_some, hattr PyCls.morph rfl]
  · unfold Process.boundDict
    simp only [Option.bind_some, hattr PyCls.dict rfl]
  · obtain ⟨t, ht⟩ := hm.1
    simp [ht]

/-- **Copies.**  The class of the results of an unpickled analyzer is derived from the class that was asked for in the first place — not from the
class of the original's results — and is its own; so the results of a copy ask the copy. -/
theorem c114_copy (w : Process S) (h : w.Real) (m m' : Morph S) (rt : Nat) (b : PyCls) (hb : w.classes[rt]? = some b) (w' : Process S)
    (hl : (w.new m (some rt)).Later w') :
    ∃ (c : Nat) (k : PyCls), (w'.copy w.morphs.length m').ClassOf w'.morphs.length c ∧ (w'.copy w.morphs.length m').classes[c]? = some k ∧
      k = ⟨b.name, c :: b.mro, some (some w'.morphs.length), some (some w'.morphs.length)⟩ ∧
      ∀ p, (w'.copy w.morphs.length m').boundMorph ⟨p, some c, w'.morphs.length⟩ = .ok w'.morphs.length := by
  have hi := h.inv
  have hw' := (hi.new m (some rt)).later hl
  have hk := hl.keeps
  have hm : (w.new m (some rt)).morphs[w.morphs.length]? = some ⟨m, some w.classes.length, some rt⟩ := by
    simp [Process.new, hb]
  have hb0 : (w.new m (some rt)).classes[rt]? = some b := by
    simp only [Process.new, hb]; exact getElem?_old hb
  have hb' : w'.classes[rt]? = some b := hk.1 _ _ hb0
  have e : w'.copy w.morphs.length m' = w'.new m' (some rt) := by simp only [Process.copy, hk.2 _ _ hm]
  rw [e]
  have hc : (w'.new m' (some rt)).ClassOf w'.morphs.length w'.classes.length := ⟨⟨m', some w'.classes.length, some rt⟩, by simp [Process.new, hb'], rfl⟩
  refine ⟨w'.classes.length, _, hc, by simp only [Process.new, hb']; simp, rfl, fun p => ?_⟩
  exact ((hw'.new m' (some rt)).bound hc _ rfl).1

/-- **Equality.**  Equality of results does not depend on their classes; results of the same analyzer for the same word are equal to themselves on
every call; results of different analyzers are never equal, even if everything that can be seen of them is the same. -/
theorem c114_equal (w : Process S) (a b : Nat) (x y : MorphObj S) (hx : w.morphs[a]? = some x) (hy : w.morphs[b]? = some y)
    (hlow : x.morph.env.LowerStable) (v v' : Str) (rs rs' : List (Result S)) (h : w.parse a v = .ok rs) (h' : w.parse b v' = .ok rs') :
    (∀ r ∈ rs, ∀ cls, r.pyEq { r with cls := cls }) ∧ ∀ r ∈ rs, ∀ r' ∈ rs', r.pyEq r' → a = b := by
  refine ⟨fun r _ cls => ⟨rfl, rfl, rfl, rfl, rfl, .inr rfl⟩, ?_⟩
  intro r hr r' hr' he
  rw [(c114_made w a x hx v []).1] at h
  rw [(c114_made w b y hy v' []).1] at h'
  cases hp : x.morph.parse v with
  | error e => simp [hp, Except.map] at h
  | ok ps =>
    cases hp' : y.morph.parse v' with
    | error e => simp [hp', Except.map] at h'
    | ok ps' =>
      simp only [hp, Except.map, Except.ok.injEq] at h
      simp only [hp', Except.map, Except.ok.injEq] at h'
      subst h h'
      obtain ⟨p, hpm, rfl⟩ := List.mem_map.1 hr
      obtain ⟨p', _, rfl⟩ := List.mem_map.1 hr'
      have hne := (parse_deriv x.morph hlow v ps hp p hpm).stack_ne
      rcases he.2.2.2.2.2 with e | e
      · exact absurd e hne
      · exact e

/-- **Operations on result objects never fail.**  For an analyzer with the default units: whatever has been done to its results, and whatever else the
process has made since, `lexeme` is a non-empty list of results of the same class, `normalized` and `is_known` have answers, and `inflect` with known
grammemes gives a result of the class or `None`. -/
theorem c114_never_fails (sim : Sim) (a : Nat) (w : Process S) (word : Str) (r : Result S) (h : Obtains sim a w word r) (c : Nat) (hc : w.ClassOf a c)
    (hdef : ∀ x, w.morphs[a]? = some x → (IsRu x.morph ∨ IsUk x.morph) ∧ x.morph.env.LowerStable ∧ x.morph.env.CapitalInitials ∧ x.morph.dict.WF ∧
      x.morph.SmallTags)
    (req : List Str) (hk : ∀ x, w.morphs[a]? = some x → ∀ g ∈ req, g ∈ x.morph.cls.known ∧ fixRare1 g ∈ x.morph.cls.known) :
    (∃ fs, w.lexeme r = .ok fs ∧ fs ≠ [] ∧ ∀ f ∈ fs, f.cls = some c) ∧ (∃ q, w.normalized r = .ok q ∧ q.cls = some c) ∧ (∃ b, w.isKnown r = .ok b) ∧
    ∃ res, w.inflect sim r req = .ok res ∧ ∀ f, res = some f → f.cls = some c := by
  obtain ⟨x, hw, hx, h1, h2, ps, p0, h4, h5, h6⟩ := c114_chain sim a w word r h
  obtain ⟨x', hx', hc'⟩ := hc
  obtain rfl : x = x' := by rw [hx] at hx'; simpa using hx'
  obtain ⟨hm, hlow, hcap, hd, hsm⟩ := hdef x hx
  obtain ⟨p, cls, owner⟩ := r
  obtain rfl : owner = a := h2
  rw [hc'] at h1; simp only at h1; subst h1
  obtain ⟨⟨fs, e1, e2⟩, ⟨q, e3⟩, e4⟩ := c93_never_fails x.morph hm hlow hcap hd hsm word ps h4 p0 h5 sim p h6
  obtain ⟨res, e5⟩ := e4 sim req (hk x hx)
  obtain ⟨f1, f2, f3, _, f5⟩ := c114_methods w hw owner c x hx hc' w .now p sim (fun _ => none) req 0
  rw [f1, f2, f3, f5, e1, e3, e5]
  refine ⟨⟨_, rfl, by simpa using e2, ?_⟩, ⟨_, rfl, rfl⟩, ⟨_, rfl⟩, ⟨_, rfl, ?_⟩⟩
  · intro f hf
    obtain ⟨_, _, rfl⟩ := List.mem_map.1 hf
    rfl
  · intro f hf
    obtain ⟨g, _, rfl⟩ := Option.map_eq_some_iff.1 hf
    rfl

/-- **Results are not found by name.**  The class of an analyzer's results is never the class `Parse` of the module, whose name it may bear: what refers to
classes by module and name, as `pickle` does, finds another class (or none), and refuses. -/
theorem c114_by_name (w : Process S) (h : w.Real) (a c : Nat) (hc : w.ClassOf a c) : c ≠ 0 := by
  rintro rfl
  obtain ⟨name, t, e⟩ := h.inv.classOf hc
  rw [h.inv.root] at e
  simp [parseClass] at e

/-! ### A concrete process -/

namespace Demo

/-- `a0 = MorphAnalyzer()`, `class My(Parse)`, `a1 = MorphAnalyzer(result_type=My)` with a smaller dictionary, `a2 = MorphAnalyzer(result_type=None)`,
`a3 = MorphAnalyzer(result_type=type(a0.parse('…')[0]))`, and a copy of `a1`. -/
def process : Process Rat :=
  (((((Process.start.new morph (some 0)).subclass (c!"My") 0).new { morph with dict := { dict with words := [(c!"что", (2, 0))] } } (some 2)).new
    morph none).new morphP (some 1)).copy 1 morph

end Demo

/-- The process is a real one, and these are its classes: `Parse`, the class of `a0`, `My`, the class of `a1`, the class of `a3`, the class of the copy. -/
example : Demo.process.Real ∧
    Demo.process.classes.map (fun k => (k.name, k.mro, k.morph)) =
      [(c!"Parse", [0], some none), (c!"Parse", [1, 0], some (some 0)), (c!"My", [2, 0], none), (c!"My", [3, 2, 0], some (some 1)),
        (c!"Parse", [4, 1, 0], some (some 3)), (c!"My", [5, 2, 0], some (some 4))] ∧
    Demo.process.morphs.map (fun x => x.resultType) = [some 1, some 3, none, some 4, some 5] :=
  ⟨((((Process.Later.now.new _ _).subclass _ _).new _ _).new _ _).new _ _ |>.copy _ _, by decide +kernel, by decide +kernel⟩

/-- `a0.parse('кошка')[0]`, its inflection, and what `a1` makes of it: the forms are those of `a0`, but the word is not known to `a1`. -/
example : ∃ p, (Demo.process.parse 0 (c!"кошка")).map (fun rs => rs.map fun r => (r.fields.word, r.cls, r.owner)) = .ok [(c!"кошка", some 1, 0)] ∧
    Demo.process.parse 0 (c!"кошка") = .ok [⟨p, some 1, 0⟩] ∧ Demo.process.isKnown ⟨p, some 1, 0⟩ = .ok true ∧
    (Demo.process.inflect Sim.exact ⟨p, some 1, 0⟩ [c!"plur"]).map (fun o => o.map fun r => (r.fields.word, r.cls, r.owner)) =
      .ok (some (c!"кошек", some 1, 0)) ∧
    (Demo.process.getLexeme 1 ⟨p, some 1, 0⟩).map (fun rs => rs.map fun r => (r.fields.word, r.cls, r.owner)) =
      .ok [(c!"кошка", some 3, 0), (c!"кошек", some 3, 0)] ∧
    Demo.process.isKnown ⟨p, some 3, 0⟩ = .ok false ∧
    (Demo.process.getLexeme 2 ⟨p, some 1, 0⟩).map (fun rs => rs.map fun r => (r.fields.word, r.cls)) = .ok [(c!"кошка", none), (c!"кошек", none)] ∧
    Demo.process.lexeme ⟨p, some 2, 0⟩ = .error .attributeError := by
  refine ⟨⟨c!"кошка", ⟨c!"NOUN,anim,femn sing,nomn"⟩, c!"кошка", 1, .single (.dict ⟨0, .dict⟩ (c!"кошка") 0 0)⟩, ?_, ?_, ?_, ?_, ?_, ?_, ?_, ?_⟩
  · decide +kernel
  · rfl
  · decide +kernel
  · decide +kernel
  · decide +kernel
  · decide +kernel
  · decide +kernel
  · rfl

/-- A chain: `r = a0.parse('кошка')[0]` in a process with `a0` alone, then the other classes and analyzers are made, then `r.normalized`; all that
`c114_never_fails` asks for holds. -/
example : ∃ r, Obtains Sim.exact 0 Demo.process (c!"кошка") r ∧ Demo.process.ClassOf 0 1 ∧
    (∃ fs, Demo.process.lexeme r = .ok fs ∧ fs ≠ [] ∧ ∀ f ∈ fs, f.cls = some 1) ∧
    ∃ res, Demo.process.inflect Sim.exact r [c!"plur"] = .ok res ∧ ∀ f, res = some f → f.cls = some 1 := by
  let p : Parse Rat := ⟨c!"кошка", ⟨c!"NOUN,anim,femn sing,nomn"⟩, c!"кошка", 1, .single (.dict ⟨0, .dict⟩ (c!"кошка") 0 0)⟩
  have hreal : (Process.start.new Demo.morph (some 0)).Real := Process.Later.now.new _ _
  have hl : (Process.start.new Demo.morph (some 0)).Later Demo.process := (((Process.Later.now.subclass _ _).new _ _).new _ _).new _ _ |>.copy _ _
  have h0 : Obtains Sim.exact 0 (Process.start.new Demo.morph (some 0)) (c!"кошка") ⟨p, some 1, 0⟩ := .parse (rs := [⟨p, some 1, 0⟩]) hreal rfl (by simp)
  have h1 : Obtains Sim.exact 0 Demo.process (c!"кошка") ⟨p, some 1, 0⟩ := .normalized (h0.later hl) rfl
  have hx : Demo.process.morphs[0]? = some ⟨Demo.morph, some 1, some 0⟩ := rfl
  have hc : Demo.process.ClassOf 0 1 := ⟨_, hx, rfl⟩
  have hn := c114_never_fails Sim.exact 0 Demo.process (c!"кошка") _ h1 1 hc (by
    intro x hx'
    rw [hx] at hx'
    obtain rfl : _ = x := by simpa using hx'
    exact ⟨.inl Demo.morph_isRu, demoEnv_lowerStable, Demo.capitalInitials, Demo.dict_wf, by unfold Morph.SmallTags; decide +kernel⟩) [c!"plur"] (by
    intro x hx'
    rw [hx] at hx'
    obtain rfl : _ = x := by simpa using hx'
    decide +kernel)
  exact ⟨_, h1, hc, hn.1, hn.2.2.2⟩

end Verif
