/-
C111: analogy units written by the user — lexemes, normalization and inflection of decorated words.
-/
import Verif.Spec.Analogy
import Verif.Props.C109

set_option linter.unusedSectionVars false

namespace Verif

variable {S : Type} [Score S]

/-! ### Decorations -/

theorem dress_score (ws : List (Wrapper S)) (hw : ∀ w ∈ ws, w.Proper) (q : Parse S) (s : S) :
    dress ws { q with score := s } = { dress ws q with score := s } := by
  induction ws with
  | nil => rfl
  | cons w ws ih =>
    have h := ih fun x hx => hw x (List.mem_cons_of_mem _ hx)
    simp only [dress, List.foldr_cons] at h ⊢
    rw [h, (hw w List.mem_cons_self).redo_score]

theorem madeFrom_dress {q p : Parse S} {ws : List (Wrapper S)} (hw : ∀ w ∈ ws, w.Proper) (h : MadeFrom q ws p) :
    ∃ s, p = dress ws { q with score := s } := by
  induction h with
  | base s => exact ⟨s, rfl⟩
  | @layer ws p w s h ih =>
    obtain ⟨s', e⟩ := ih fun x hx => hw x (List.mem_cons_of_mem _ hx)
    refine ⟨s, ?_⟩
    subst e
    have hx := dress_score (w :: ws) hw { q with score := s' } s
    simpa [dress] using hx.symm

theorem madeFrom_score {q p : Parse S} {ws : List (Wrapper S)} (hw : ∀ w ∈ ws, w.Proper) (h : MadeFrom q ws p) :
    p = dress ws { q with score := p.score } := by
  obtain ⟨s, rfl⟩ := madeFrom_dress hw h
  congr 1
  rw [dress_score ws hw]

theorem layeredLexeme_dress (m : Morph S) (ws : List (Wrapper S)) (hw : ∀ w ∈ ws, w.Proper) (q : Parse S) :
    layeredLexeme m (ws.map Wrapper.unit) (dress ws q) = (m.lexeme q).map fun fs => fs.map (dress ws) := by
  induction ws with
  | nil =>
    have : dress ([] : List (Wrapper S)) = id := rfl
    simp only [List.map_nil, layeredLexeme, this, List.map_id, id]
    cases m.lexeme q <;> rfl
  | cons w ws ih =>
    have h := ih fun x hx => hw x (List.mem_cons_of_mem _ hx)
    have h0 : dress (w :: ws) = fun f => w.redo (dress ws f) := rfl
    simp only [List.map_cons, layeredLexeme, Wrapper.unit, Analogy.wrapping, h0, (hw w List.mem_cons_self).back] at h ⊢
    show (layeredLexeme m _ (dress ws q) >>= fun fs => Except.ok (fs.map w.redo)) = _
    rw [h]
    cases m.lexeme q with
    | error e => rfl
    | ok fs => simp [Except.map, bind, Except.bind, Function.comp_def]

theorem layeredNormalized_dress (m : Morph S) (ws : List (Wrapper S)) (hw : ∀ w ∈ ws, w.Proper) (q : Parse S) :
    layeredNormalized m (ws.map Wrapper.unit) (dress ws q) = (m.normalized q).map (dress ws) := by
  induction ws with
  | nil =>
    simp only [List.map_nil, layeredNormalized]
    show m.normalized q = _
    cases m.normalized q <;> rfl
  | cons w ws ih =>
    have h := ih fun x hx => hw x (List.mem_cons_of_mem _ hx)
    have h0 : dress (w :: ws) = fun f => w.redo (dress ws f) := rfl
    simp only [List.map_cons, layeredNormalized, Wrapper.unit, Analogy.wrapping, h0, (hw w List.mem_cons_self).back] at h ⊢
    show (layeredNormalized m _ (dress ws q) >>= fun f => Except.ok (w.redo f)) = _
    rw [h]
    cases m.normalized q <;> rfl

theorem dress_core (ws : List (Wrapper S)) (hw : ∀ w ∈ ws, w.Proper) (f g : Parse S) (h : f.core = g.core) : (dress ws f).core = (dress ws g).core := by
  have e : f = { g with score := f.score } := by
    simp only [Parse.core, Prod.mk.injEq] at h
    obtain ⟨h1, h2, h3, h4⟩ := h
    cases f; cases g; simp_all
  rw [e, dress_score ws hw]
  rfl

theorem dress_nf (ws : List (Wrapper S)) (hk : ∀ w ∈ ws, w.KeepsNormalForms) (f g : Parse S) (h : f.nf = g.nf) : (dress ws f).nf = (dress ws g).nf := by
  induction ws with
  | nil => exact h
  | cons w ws ih => exact hk w List.mem_cons_self _ _ (ih fun x hx => hk x (List.mem_cons_of_mem _ hx))

theorem dress_normal (ws : List (Wrapper S)) (hk : ∀ w ∈ ws, w.KeepsNormal) (f : Parse S) (h : f.word = f.nf) : (dress ws f).word = (dress ws f).nf := by
  induction ws with
  | nil => exact h
  | cons w ws ih => exact hk w List.mem_cons_self _ (ih fun x hx => hk x (List.mem_cons_of_mem _ hx))

theorem dress_tag (ws : List (Wrapper S)) (hk : ∀ w ∈ ws, w.KeepsTags) (f : Parse S) : (dress ws f).tag = f.tag := by
  induction ws with
  | nil => rfl
  | cons w ws ih => exact (hk w List.mem_cons_self _).trans (ih fun x hx => hk x (List.mem_cons_of_mem _ hx))

/-- The units of the list, as methods on a stack. -/
def layersOf (ws : List (Wrapper S)) : List (Analogy S) := ws.map Wrapper.unit

theorem lexemeL_dress (m : Morph S) (ws : List (Wrapper S)) (hw : ∀ w ∈ ws, w.Proper) (q : Parse S) :
    m.lexemeL ⟨dress ws q, layersOf ws⟩ = (m.lexeme q).map fun fs => fs.map fun f => (⟨dress ws f, layersOf ws⟩ : LForm S) := by
  simp only [Morph.lexemeL, layersOf]
  rw [layeredLexeme_dress m ws hw]
  cases m.lexeme q with
  | error e => rfl
  | ok fs => simp [Except.map, bind, Except.bind, pure, Except.pure, Function.comp_def]

theorem normalizedL_dress (m : Morph S) (ws : List (Wrapper S)) (hw : ∀ w ∈ ws, w.Proper) (q : Parse S) :
    m.normalizedL ⟨dress ws q, layersOf ws⟩ = (m.normalized q).map fun f => (⟨dress ws f, layersOf ws⟩ : LForm S) := by
  simp only [Morph.normalizedL, layersOf]
  rw [layeredNormalized_dress m ws hw]
  cases m.normalized q <;> rfl

/-! ### The library's own analogy units -/

theorem lexemeOf_anyStack (m : Morph S) (st : Stack) (p : Parse S) : ∀ y, lexemeOf m st { p with stack := y } = lexemeOf m st p := by
  induction st, p using lexemeOf.induct
  case case19 p hr ih2 ih1 =>
    intro y
    simp only [ne_eq, not_not] at hr
    have h2 : ∀ a b c d, lexemeOf m _ ⟨a, b, c, d, y⟩ = lexemeOf m _ ⟨a, b, c, d, p.stack⟩ := fun a b c d => ih2 ⟨a, b, c, d, p.stack⟩ y
    have h1 : ∀ a b c d, lexemeOf m _ ⟨a, b, c, d, y⟩ = lexemeOf m _ ⟨a, b, c, d, p.stack⟩ := fun a b c d => ih1 ⟨a, b, c, d, p.stack⟩ y
    simp only [lexemeOf, hr, withoutLeftPart, withoutRightPart]
    cases beforeHyphen p.word <;> cases beforeHyphen p.nf <;> cases afterHyphen p.word <;> cases afterHyphen p.nf <;>
      simp [ok_bind, pure, Except.pure, h1, h2]
  all_goals
    intro y
    simp_all [lexemeOf, dictLexeme, Parse.withoutPrefix, Parse.withoutSuffix]

theorem normalizedOf_anyStack (m : Morph S) (st : Stack) (p : Parse S) : ∀ y, normalizedOf m st { p with stack := y } = normalizedOf m st p := by
  induction st, p using normalizedOf.induct
  case case18 p hr =>
    intro y
    simp only [ne_eq, not_not] at hr
    have h1 : ∀ st a b c d, lexemeOf m st ⟨a, b, c, d, y⟩ = lexemeOf m st ⟨a, b, c, d, p.stack⟩ := fun st a b c d => lexemeOf_anyStack m st ⟨a, b, c, d, p.stack⟩ y
    simp only [normalizedOf, hr, withoutLeftPart, withoutRightPart]
    cases beforeHyphen p.word <;> cases beforeHyphen p.nf <;> cases afterHyphen p.word <;> cases afterHyphen p.nf <;>
      simp [ok_bind, pure, Except.pure, h1]
  all_goals
    intro y
    simp_all [normalizedOf, lexemeOf_anyStack, dictNormalized, Parse.withoutPrefix, Parse.withoutSuffix]

/-- **C111, the library's units.** The prefix, particle and ending units are analogy units in this sense: the lexeme and the normalized form of a form whose
last method is theirs are what the layer with their prefix, particle or nothing gives for the methods below, with their method appended. -/
theorem c111_library (m : Morph S) (rest : Stack) (hr : rest ≠ .nil) (u : UObj) (x : Str) (w : Wrapper S)
    (hu : (u.kind = .pref ∧ w = .pre x) ∨ (u.kind = .particle ∧ w = .suf x) ∨ (u.kind = .suff ∧ w = .same)) (p : Parse S) :
    m.lexeme { p with stack := .push rest (.simple u x) } =
      (layeredLexeme m [w.unit] { p with stack := rest }).map (fun fs => fs.map fun f => f.appendMethod (.simple u x)) ∧
    m.normalized { p with stack := .push rest (.simple u x) } =
      (layeredNormalized m [w.unit] { p with stack := rest }).map (fun f => f.appendMethod (.simple u x)) := by
  rcases hu with ⟨hk, rfl⟩ | ⟨hk, rfl⟩ | ⟨hk, rfl⟩
  · simp only [Morph.lexeme, Morph.normalized, lexemeOf, normalizedOf, hk, if_neg hr, layeredLexeme, layeredNormalized, Wrapper.unit, Wrapper.pre,
      Analogy.wrapping, Parse.withoutPrefix, ok_bind]
    have h1 := lexemeOf_anyStack m rest { p with word := p.word.drop x.length, nf := p.nf.drop x.length }
    have h2 := normalizedOf_anyStack m rest { p with word := p.word.drop x.length, nf := p.nf.drop x.length }
    simp only [h1, h2]
    constructor
    · cases lexemeOf m rest _ with
      | error e => rfl
      | ok fs => simp [Except.map, bind, Except.bind, pure, Except.pure, Function.comp_def]
    · cases normalizedOf m rest _ <;> rfl
  · simp only [Morph.lexeme, Morph.normalized, lexemeOf, normalizedOf, hk, if_neg hr, layeredLexeme, layeredNormalized, Wrapper.unit, Wrapper.suf,
      Analogy.wrapping, Parse.withoutSuffix, ok_bind]
    have h1 := lexemeOf_anyStack m rest { p with word := dropRight p.word x.length, nf := dropRight p.nf x.length }
    have h2 := normalizedOf_anyStack m rest { p with word := dropRight p.word x.length, nf := dropRight p.nf x.length }
    simp only [h1, h2]
    constructor
    · cases lexemeOf m rest _ with
      | error e => rfl
      | ok fs => simp [Except.map, bind, Except.bind, pure, Except.pure, Function.comp_def]
    · cases normalizedOf m rest _ <;> rfl
  · simp only [Morph.lexeme, Morph.normalized, lexemeOf, normalizedOf, hk, if_neg hr, layeredLexeme, layeredNormalized, Wrapper.unit, Wrapper.same,
      Analogy.wrapping, ok_bind, id]
    have h1 := lexemeOf_anyStack m rest p
    have h2 := normalizedOf_anyStack m rest p
    simp only [h1, h2]
    constructor
    · cases lexemeOf m rest _ with
      | error e => rfl
      | ok fs => simp [Except.map, bind, Except.bind, pure, Except.pure]
    · cases normalizedOf m rest _ <;> rfl

/-- Prefixes, suffixes and no decoration at all meet the requirements. -/
theorem pre_proper (x : Str) : (Wrapper.pre (S := S) x).Proper ∧ (Wrapper.pre (S := S) x).KeepsNormalForms ∧ (Wrapper.pre (S := S) x).KeepsNormal ∧
    (Wrapper.pre (S := S) x).KeepsTags := by
  refine ⟨⟨fun f => ?_, fun _ _ => rfl, fun _ _ => rfl⟩, fun f g h => ?_, fun f h => ?_, fun _ => rfl⟩
  · simp [Wrapper.pre, Parse.withoutPrefix, Parse.withPrefix]
  · simp [Wrapper.pre, Parse.withPrefix, h]
  · simp [Wrapper.pre, Parse.withPrefix, h]

theorem suf_proper (x : Str) (hx : x ≠ []) : (Wrapper.suf (S := S) x).Proper ∧ (Wrapper.suf (S := S) x).KeepsNormalForms ∧
    (Wrapper.suf (S := S) x).KeepsNormal ∧ (Wrapper.suf (S := S) x).KeepsTags := by
  refine ⟨⟨fun f => ?_, fun _ _ => rfl, fun _ _ => rfl⟩, fun f g h => ?_, fun f h => ?_, fun _ => rfl⟩
  · simp [Wrapper.suf, Parse.withoutSuffix, Parse.withSuffix, dropRight_append _ _ hx]
  · simp [Wrapper.suf, Parse.withSuffix, h]
  · simp [Wrapper.suf, Parse.withSuffix, h]

theorem same_proper : (Wrapper.same (S := S)).Proper ∧ (Wrapper.same (S := S)).KeepsNormalForms ∧ (Wrapper.same (S := S)).KeepsNormal ∧
    (Wrapper.same (S := S)).KeepsTags :=
  ⟨⟨fun _ => rfl, fun _ _ => rfl, fun _ _ => rfl⟩, fun _ _ h => h, fun _ h => h, fun _ => rfl⟩

/-! ### The guarantees -/

/-- **C111, the lexeme.** The lexeme of a decorated word is the decorated lexeme, form by form. -/
theorem c111_lexeme (m : Morph S) (ws : List (Wrapper S)) (hw : ∀ w ∈ ws, w.Proper) (q p : Parse S) (h : MadeFrom q ws p) :
    m.lexemeL ⟨p, layersOf ws⟩ =
      (m.lexeme { q with score := p.score }).map fun fs => fs.map fun f => (⟨dress ws f, layersOf ws⟩ : LForm S) := by
  conv_lhs => rw [madeFrom_score hw h]
  exact lexemeL_dress m ws hw _

/-- **C111, the same lexeme from every form.** If the word below the decorations is an analysis of a configured analyzer which is not a compound with both
parts inflected, every form of the lexeme has that very lexeme, and the forms share the normal form of the decorated word. -/
theorem c111_same_lexeme (items : List (List (UnitSpec S))) (m : Morph S) (hm : m.Configured items) (hlow : m.env.LowerStable) (hd : m.dict.WF)
    (w : Str) (qs : List (Parse S)) (hq : m.parse w = .ok qs) (q : Parse S) (hqs : q ∈ qs) (hnb : q.stack.noBoth)
    (ws : List (Wrapper S)) (hw : ∀ w ∈ ws, w.Proper) (hk : ∀ w ∈ ws, w.KeepsNormalForms) (p : Parse S) (h : MadeFrom q ws p)
    (fs : List (LForm S)) (hfs : m.lexemeL ⟨p, layersOf ws⟩ = .ok fs) (f : LForm S) (hf : f ∈ fs) :
    m.lexemeL f = .ok fs ∧ f.form.nf = p.nf := by
  obtain ⟨s, rfl⟩ := madeFrom_dress hw h
  rw [lexemeL_dress m ws hw] at hfs
  cases h0 : m.lexeme { q with score := s } with
  | error e => rw [h0] at hfs; simp [Except.map] at hfs
  | ok fs0 =>
    rw [h0] at hfs
    simp only [Except.map, Except.ok.injEq] at hfs
    subst hfs
    obtain ⟨g, hg, rfl⟩ := List.mem_map.1 hf
    obtain ⟨e0, fs', h1, _, h3⟩ := deriv_reprod m hd (configured_gendersApart hm) (parse_deriv m hlow w qs hq q hqs) (.inl hnb) s q.stack fs0 h0 g hg
    rw [h3 hnb] at h1
    refine ⟨?_, dress_nf ws hk _ _ e0⟩
    rw [lexemeL_dress m ws hw, show m.lexeme g = .ok fs0 from h1 g.stack]
    rfl

/-- **C111, compounds.** Over a compound with both parts inflected, every form has a lexeme with the same words, tags, normal forms and methods. -/
theorem c111_same_lexeme_compounds (items : List (List (UnitSpec S))) (m : Morph S) (hm : m.Configured items) (hlow : m.env.LowerStable) (hd : m.dict.WF)
    (hc : CompoundsFor m items) (w : Str) (qs : List (Parse S)) (hq : m.parse w = .ok qs) (q : Parse S) (hqs : q ∈ qs)
    (ws : List (Wrapper S)) (hw : ∀ w ∈ ws, w.Proper) (hk : ∀ w ∈ ws, w.KeepsNormalForms) (p : Parse S) (h : MadeFrom q ws p)
    (fs : List (LForm S)) (hfs : m.lexemeL ⟨p, layersOf ws⟩ = .ok fs) (f : LForm S) (hf : f ∈ fs) :
    f.form.nf = p.nf ∧ ∃ fs', m.lexemeL f = .ok fs' ∧ fs'.map (fun g => (g.form.core, g.layers)) = fs.map (fun g => (g.form.core, g.layers)) := by
  obtain ⟨s, rfl⟩ := madeFrom_dress hw h
  rw [lexemeL_dress m ws hw] at hfs
  cases h0 : m.lexeme { q with score := s } with
  | error e => rw [h0] at hfs; simp [Except.map] at hfs
  | ok fs0 =>
    rw [h0] at hfs
    simp only [Except.map, Except.ok.injEq] at hfs
    subst hfs
    obtain ⟨g, hg, rfl⟩ := List.mem_map.1 hf
    obtain ⟨e0, fs', h1, h2, _⟩ := deriv_reprod m hd (configured_gendersApart hm) (parse_deriv m hlow w qs hq q hqs) (hc.both hm hlow w qs hq q hqs)
      s q.stack fs0 h0 g hg
    refine ⟨dress_nf ws hk _ _ e0, _, by rw [lexemeL_dress m ws hw, show m.lexeme g = .ok fs' from h1 g.stack]; rfl, ?_⟩
    have h3 := core_map_of fs0 fs' (dress ws) (fun a b => dress_core ws hw a b) h2
    have h4 := congrArg (List.map fun c => (c, layersOf ws)) h3
    simpa only [List.map_map, Function.comp_def] using h4

/-- **C111, membership and normalization.** The decorated word is in its own lexeme (scores aside); `normalized` is the first form, has the normal form of the
decorated word, is spelled like it if decorating keeps that, and normalizing again changes nothing. -/
theorem c111_member (items : List (List (UnitSpec S))) (m : Morph S) (hm : m.Configured items) (hlow : m.env.LowerStable) (hd : m.dict.WF)
    (w : Str) (qs : List (Parse S)) (hq : m.parse w = .ok qs) (q : Parse S) (hqs : q ∈ qs) (hnb : q.stack.noBoth) (hroom : q.stack.roomy m.dict)
    (ws : List (Wrapper S)) (hw : ∀ w ∈ ws, w.Proper) (hk : ∀ w ∈ ws, w.KeepsNormalForms) (hn : ∀ w ∈ ws, w.KeepsNormal)
    (p : Parse S) (h : MadeFrom q ws p) (fs : List (LForm S)) (hfs : m.lexemeL ⟨p, layersOf ws⟩ = .ok fs) :
    (∃ f ∈ fs, f.form.core = p.core ∧ f.layers = layersOf ws) ∧
    ∃ n f, m.normalizedL ⟨p, layersOf ws⟩ = .ok n ∧ fs.head? = some f ∧ n.form.core = f.form.core ∧ n.layers = f.layers ∧
      n.form.nf = p.nf ∧ n.form.word = p.nf ∧ m.normalizedL n = .ok n := by
  obtain ⟨s, rfl⟩ := madeFrom_dress hw h
  rw [lexemeL_dress m ws hw] at hfs
  cases h0 : m.lexeme { q with score := s } with
  | error e => rw [h0] at hfs; simp [Except.map] at hfs
  | ok fs0 =>
    rw [h0] at hfs
    simp only [Except.map, Except.ok.injEq] at hfs
    subst hfs
    have hdv := parse_deriv m hlow w qs hq q hqs
    have hga := configured_gendersApart hm
    obtain ⟨g, hg, e1, e2, e3, e4⟩ := deriv_member m hd hga hdv hnb (deriv_fits hd hdv hroom) s q.stack fs0 h0
    refine ⟨⟨_, List.mem_map.2 ⟨g, hg, rfl⟩, dress_core ws hw _ _ (by simp [Parse.core, e1, e2, e3, e4]), rfl⟩, ?_⟩
    obtain ⟨n, h1, h2, h3, h4, n', h5, _, h7⟩ := deriv_normOK m hd hga hdv (.inl hnb) s q.stack fs0 h0
    have h2 := h2 (deriv_fits hd hdv hroom)
    have h4 := h4 (deriv_fits hd hdv hroom) hnb
    rw [Option.map_eq_some_iff] at h2
    obtain ⟨g0, hg0, he⟩ := h2
    rw [h7 hnb] at h5
    have hnf : (dress ws n).nf = (dress ws { q with score := s }).nf := dress_nf ws hk _ _ h3
    refine ⟨⟨dress ws n, layersOf ws⟩, ⟨dress ws g0, layersOf ws⟩, ?_, by simp [hg0], dress_core ws hw _ _ he.symm, rfl, hnf, ?_, ?_⟩
    · rw [normalizedL_dress m ws hw, show m.normalized { q with score := s } = .ok n from h1]; rfl
    · exact (dress_normal ws hn n (h4.trans h3.symm)).trans hnf
    · rw [normalizedL_dress m ws hw, show m.normalized n = .ok n from h5 n.stack]; rfl

theorem nlargest1_map {α β : Type} (sim : Sim) (g : α → β) (key : β → sim.K) (l : List α) :
    nlargest1 sim key (l.map g) = (nlargest1 sim (fun a => key (g a)) l).map g := by
  have aux : ∀ (l : List α) (c : α), maxLoop sim key (l.map g) (g c) = g (maxLoop sim (fun a => key (g a)) l c) := by
    intro l
    induction l with
    | nil => intro c; rfl
    | cons a l ih =>
      intro c
      simp only [List.map_cons, maxLoop]
      split <;> exact ih _
  cases l with
  | nil => rfl
  | cons a l => simp only [List.map_cons, nlargest1, aux, Option.map_some]

/-- **C111, inflection.** If decorating keeps tags, inflecting a decorated word is inflecting the word below and decorating the result: the same grammemes are
reachable, the same form is chosen, and the same errors are raised. -/
theorem c111_inflect (m : Morph S) (sim : Sim) (ws : List (Wrapper S)) (hw : ∀ w ∈ ws, w.Proper) (ht : ∀ w ∈ ws, w.KeepsTags) (q p : Parse S)
    (h : MadeFrom q ws p) (req : List Str) :
    m.inflectL sim ⟨p, layersOf ws⟩ req =
      (m.inflect sim { q with score := p.score } req).map fun o => o.map fun f => (⟨dress ws f, layersOf ws⟩ : LForm S) := by
  conv_lhs => rw [madeFrom_score hw h]
  generalize p.score = s
  simp only [Morph.inflectL, Morph.inflect, lexemeL_dress m ws hw, dress_tag ws ht]
  cases m.lexeme { q with score := s } with
  | error e => rfl
  | ok fs =>
    simp only [Except.map, ok_bind]
    have hfil : ∀ r : Grams, (fs.map fun f => (⟨dress ws f, layersOf ws⟩ : LForm S)).filter (fun f => decide (r ⊆ f.form.tag.grammemes)) =
        (matching fs r).map fun f => (⟨dress ws f, layersOf ws⟩ : LForm S) := by
      intro r
      rw [List.filter_map, matching]
      simp only [Function.comp_def, dress_tag ws ht]
    have hbig : ∀ (g : Grams) (l : List (Parse S)), nlargest1 sim (fun f : LForm S => similarity sim g f.form.tag)
        (l.map fun f => (⟨dress ws f, layersOf ws⟩ : LForm S)) =
        (nlargest1 sim (fun f : Parse S => similarity sim g f.tag) l).map fun f => (⟨dress ws f, layersOf ws⟩ : LForm S) := by
      intro g l
      rw [nlargest1_map]
      simp only [dress_tag ws ht]
    simp only [hfil, hbig]
    cases hp : matching fs req.toFinset with
    | nil =>
      simp only [List.map_nil, if_true]
      cases updatedGrammemes m.cls q.tag (req.map fixRare1) <;> rfl
    | cons a l =>
      simp only [List.map_cons, if_neg (List.cons_ne_nil a l)]
      cases updatedGrammemes m.cls q.tag req <;> rfl

/-- **C111, nothing fails.** The lexeme of a decorated word exists and is not empty, the word can be normalized, and inflected into any known grammemes. -/
theorem c111_never_fails (items : List (List (UnitSpec S))) (m : Morph S) (hm : m.Configured items) (hlow : m.env.LowerStable) (hd : m.dict.WF)
    (hcap : ∀ g ∈ items, ∀ sp ∈ g, ∀ l ∈ sp.initials, m.env.lower l ≠ l) (hs : SmallFor m items)
    (w : Str) (qs : List (Parse S)) (hq : m.parse w = .ok qs) (q : Parse S) (hqs : q ∈ qs)
    (ws : List (Wrapper S)) (hw : ∀ w ∈ ws, w.Proper) (ht : ∀ w ∈ ws, w.KeepsTags) (p : Parse S) (h : MadeFrom q ws p) :
    (∃ fs, m.lexemeL ⟨p, layersOf ws⟩ = .ok fs ∧ fs ≠ []) ∧ (∃ n, m.normalizedL ⟨p, layersOf ws⟩ = .ok n) ∧
    ∀ (sim : Sim) (req : List Str), (∀ g ∈ req, g ∈ m.cls.known ∧ fixRare1 g ∈ m.cls.known) →
      ∃ res, m.inflectL sim ⟨p, layersOf ws⟩ req = .ok res := by
  have hdv := parse_deriv m hlow w qs hq q hqs
  have hsd := deriv_sound hd (configured_gendersApart hm) (configured_gendersKnown hm) hdv
    (analyze_bothNoInit m hlow (configured_upperInitials hm hcap) _ w qs hq q hqs).1 (.inr (hs.tag hm hdv))
  refine ⟨?_, ?_, fun sim req hk => ?_⟩
  · obtain ⟨s, rfl⟩ := madeFrom_dress hw h
    obtain ⟨⟨fs, h1, h2, _⟩, _⟩ := hsd.ok hd hs.dict s q.stack
    refine ⟨fs.map fun f => ⟨dress ws f, layersOf ws⟩, ?_, by simpa using h2⟩
    rw [lexemeL_dress m ws hw, show m.lexeme { q with score := s } = .ok fs from h1]
    rfl
  · obtain ⟨s, rfl⟩ := madeFrom_dress hw h
    obtain ⟨_, n, h1, _⟩ := hsd.ok hd hs.dict s q.stack
    refine ⟨⟨dress ws n, layersOf ws⟩, ?_⟩
    rw [normalizedL_dress m ws hw, show m.normalized { q with score := s } = .ok n from h1]
    rfl
  · obtain ⟨⟨fs, h1, _, _⟩, _⟩ := hsd.ok hd hs.dict p.score q.stack
    have h1 : m.lexeme { q with score := p.score } = .ok fs := h1
    obtain ⟨r, hr⟩ := inflect_of_lexeme m _ fs h1 sim req hk
    exact ⟨_, by rw [c111_inflect m sim ws hw ht q p h, hr]; rfl⟩

/-! ### A unit whose coroutines do not take its decoration off -/

/-- The first words of a lexeme of layered forms. -/
def Demo.wordsL (m : Morph Rat) (p : LForm Rat) : Option (List Str) := (m.lexemeL p).toOption.map fun fs => fs.map fun f => f.form.word

/-- The dictionary analysis of кошек. -/
def Demo.q111 : Parse Rat := ((Demo.morph109.parse (c!"кошек")).toOption.bind List.head?).getD ⟨[], ⟨[]⟩, [], 0, .nil⟩

/-- A hashtag unit which puts a mark before the word, and one for a mark of admiration after it. -/
def Demo.ws111 : List (Wrapper Rat) := [.pre (c!"#"), .suf (c!"!!"), .same]

/-- **C111, the inherited coroutines.** A unit that decorates its words but leaves `normalizer` and `lexemizer` as they are inherited computes lexemes from
the decorated word: with a suffix the dictionary cuts the wrong letters off, and the word is not in its own lexeme. -/
theorem c111_inherited_defect : Demo.wordsL Demo.morph109 ⟨Demo.q111.withSuffix (c!"!!"), [.inherited]⟩ = some [c!"кошекка", c!"кошекек"] ∧
    Demo.wordsL Demo.morph109 ⟨Demo.q111.withSuffix (c!"!!"), [(Wrapper.suf (c!"!!")).unit]⟩ = some [c!"кошка!!", c!"кошек!!"] := by decide +kernel

/-- **C111, the empty suffix.** `without_fixed_suffix(form, 0)` takes everything off (`s[:-0]`), so a unit which may find an empty suffix must not use it. -/
theorem c111_empty_suffix_defect (f : Parse S) : ((Wrapper.suf []).undo f).word = [] ∧ ((Wrapper.suf []).undo f).nf = [] := ⟨rfl, rfl⟩

/-! ### The hypotheses are met -/

theorem Demo.q111_mem : ∃ qs, Demo.morph109.parse (c!"кошек") = .ok qs ∧ Demo.q111 ∈ qs := by
  have h : (match Demo.morph109.parse (c!"кошек") with
    | .ok qs => qs.any fun q => decide (q = Demo.q111)
    | _ => false) = true := by decide +kernel
  split at h
  · next qs hqs =>
    obtain ⟨q, hq, e⟩ := List.any_eq_true.1 h
    exact ⟨qs, hqs, of_decide_eq_true e ▸ hq⟩
  · simp at h

theorem Demo.q111_stack : ∃ u v para idx, Demo.q111.stack = .push .nil (.dict u v para idx) := by
  have h : (match Demo.q111.stack with
    | .push .nil (.dict _ _ _ _) => true
    | _ => false) = true := by decide +kernel
  split at h
  · next u v para idx e => exact ⟨u, v, para, idx, e⟩
  · simp at h

theorem Demo.ws111_ok : ∀ w ∈ Demo.ws111, w.Proper ∧ w.KeepsNormalForms ∧ w.KeepsNormal ∧ w.KeepsTags := by
  intro w hw
  simp only [Demo.ws111, List.mem_cons, List.not_mem_nil, or_false] at hw
  rcases hw with rfl | rfl | rfl
  · exact pre_proper _
  · exact suf_proper _ (by decide)
  · exact same_proper

/-- A word decorated by three units, with scores of their own: its lexeme has two forms, the word is one of them, and it is normalized to the first. -/
example : ∃ p fs n, MadeFrom Demo.q111 Demo.ws111 p ∧ p.word = c!"#кошек!!" ∧ p.score = 1/4 ∧
    Demo.morph109.lexemeL ⟨p, layersOf Demo.ws111⟩ = .ok fs ∧ fs.map (fun f => f.form.word) = [c!"#кошка!!", c!"#кошек!!"] ∧
    (∃ f ∈ fs, f.form.core = p.core) ∧ Demo.morph109.normalizedL ⟨p, layersOf Demo.ws111⟩ = .ok n ∧ n.form.word = c!"#кошка!!" ∧
    ∀ f ∈ fs, Demo.morph109.lexemeL f = .ok fs := by
  let p : Parse Rat := { (dress Demo.ws111 Demo.q111) with score := 1/4 }
  have hp : MadeFrom Demo.q111 Demo.ws111 p := by
    have h := MadeFrom.layer (.pre (c!"#")) (1/4 : Rat) (MadeFrom.layer (.suf (c!"!!")) (1/2) (MadeFrom.layer .same 1 (MadeFrom.base (q := Demo.q111) 1)))
    exact h
  have hl : (match Demo.morph109.lexemeL ⟨p, layersOf Demo.ws111⟩ with
    | .ok fs => decide (fs.map (fun f => f.form.word) = [c!"#кошка!!", c!"#кошек!!"])
    | _ => false) = true := by decide +kernel
  split at hl
  · next fs hfs =>
    obtain ⟨qs, h1, h2⟩ := Demo.q111_mem
    obtain ⟨u, v, para, idx, hst⟩ := Demo.q111_stack
    have hnb : Demo.q111.stack.noBoth := by rw [hst]; exact ⟨trivial, trivial⟩
    have hroom : Demo.q111.stack.roomy Demo.morph109.dict := by rw [hst]; exact ⟨trivial, trivial, trivial⟩
    obtain ⟨⟨f, hf, hc, _⟩, n, g, a1, a2, a3, _, _, a6, _⟩ := c111_member _ _ Demo.morph109_configured Demo.morph109_low Demo.morph109_wf _ qs h1 _ h2 hnb hroom
      Demo.ws111 (fun w hw => (Demo.ws111_ok w hw).1) (fun w hw => (Demo.ws111_ok w hw).2.1) (fun w hw => (Demo.ws111_ok w hw).2.2.1) p hp fs hfs
    refine ⟨p, fs, n, hp, by decide +kernel, rfl, hfs, of_decide_eq_true hl, ⟨f, hf, hc⟩, a1, ?_, ?_⟩
    · rw [a6]; decide +kernel
    · intro f hf
      exact (c111_same_lexeme _ _ Demo.morph109_configured Demo.morph109_low Demo.morph109_wf _ qs h1 _ h2 hnb
        Demo.ws111 (fun w hw => (Demo.ws111_ok w hw).1) (fun w hw => (Demo.ws111_ok w hw).2.1) p hp fs hfs f hf).1
  · simp at hl

/-- Such a word inflected into the singular (a test). -/
example : ((Demo.morph109.inflectL .exact ⟨dress Demo.ws111 Demo.q111, layersOf Demo.ws111⟩ [c!"sing"]).toOption.bind id).map (fun f => f.form.word) =
    some (c!"#кошка!!") := by decide +kernel

end Verif
