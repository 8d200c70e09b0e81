/-
C110: units and probability estimators written by the user.
-/
import Verif.Lemmas.Open
import Verif.Props.C02

set_option linter.unusedSectionVars false

namespace Verif

section generic

variable {S : Type} [Score S]

/-! ### What units respect -/

theorem lib_quiet (m : Morph S) (u : BUnit S) : (OpenUnit.lib m u).Quiet :=
  ⟨fun _ _ _ _ _ h hr => unitParse_nil h hr, fun _ _ _ _ _ h hr => unitTag_nil h hr⟩

theorem lib_asksShorter (m : Morph S) (u : BUnit S) (hu : u.cfg.properPrefixes) : (OpenUnit.lib m u).AsksShorter :=
  fun r r' word wl h => ⟨unitParse_congr m r r' u hu word wl h, unitTag_congr m r r' u hu word wl h⟩

theorem lib_safe (m : Morph S) (h : m.dict.WF) (hk : adverbGrams ⊆ m.cls.known) (u : BUnit S) (hu : u.cfg.properPrefixes) (word wl : Str)
    (hn : m.env.Named word) : (OpenUnit.lib m u).SafeOn word wl :=
  fun rec hrec => ⟨unitParse_ok m h hk rec u hu word _ hn hrec, unitTag_ok m h hk rec u hu word _ hn hrec⟩

theorem shaped_safe (u : UObj) (score : S) (check : Str → Str → Option Tag) (word wl : Str) : (OpenUnit.shaped u score check).SafeOn word wl :=
  fun _ _ => ⟨fun _ => ⟨_, rfl⟩, fun _ => ⟨_, rfl⟩⟩

theorem adding_safe (f : Rec S → Str → Str → Except PyErr (List (Parse S))) (word wl : Str)
    (h : ∀ rec : Rec S, rec.OkBelow wl → ∃ ps, f rec word wl = .ok ps) : (OpenUnit.adding f).SafeOn word wl := by
  intro rec hrec
  obtain ⟨ps, hps⟩ := h rec hrec
  refine ⟨fun seen => ?_, fun seen => ?_⟩ <;> simp only [OpenUnit.adding, OpenUnit.inherited] <;> rw [hps] <;> exact ⟨_, rfl⟩

theorem listing_quiet (f : Rec S → Str → Str → Except PyErr (List (Parse S))) : (OpenUnit.listing f).Quiet where
  parse rec word wl seen r h hr := by
    simp only [OpenUnit.listing, OpenUnit.inherited, bind_ok_iff, pure_eq_ok, Except.ok.injEq] at h
    obtain ⟨ps, _, rfl⟩ := h
    rfl
  tag rec word wl seen r h hr := by
    simp only [OpenUnit.listing, OpenUnit.inherited, bind_ok_iff, pure_eq_ok, Except.ok.injEq] at h
    obtain ⟨ps, _, rfl⟩ := h
    exact addTags_nil hr

theorem adding_quiet (f : Rec S → Str → Str → Except PyErr (List (Parse S))) : (OpenUnit.adding f).Quiet where
  parse rec word wl seen r h hr := by
    simp only [OpenUnit.adding, OpenUnit.inherited, bind_ok_iff, pure_eq_ok, Except.ok.injEq] at h
    obtain ⟨ps, _, rfl⟩ := h
    exact addParses_nil hr
  tag rec word wl seen r h hr := by
    simp only [OpenUnit.adding, OpenUnit.inherited, bind_ok_iff, pure_eq_ok, Except.ok.injEq] at h
    obtain ⟨ps, _, rfl⟩ := h
    exact addTags_nil hr

theorem shaped_quiet (u : UObj) (score : S) (check : Str → Str → Option Tag) : (OpenUnit.shaped u score check).Quiet where
  parse rec word wl seen r h hr := by simp only [OpenUnit.shaped, Except.ok.injEq] at h; subst h; rfl
  tag rec word wl seen r h hr := by simp only [OpenUnit.shaped, Except.ok.injEq] at h; subst h; rfl

theorem shaped_asksShorter (u : UObj) (score : S) (check : Str → Str → Option Tag) : (OpenUnit.shaped u score check).AsksShorter :=
  fun _ _ _ _ _ => ⟨fun _ => rfl, fun _ => rfl⟩

theorem inherited_asksShorter (parse : Rec S → Str → Str → Seen → Except PyErr (List (Parse S) × Seen))
    (h : ∀ rec rec' word wl seen, Rec.AgreeBelow wl rec rec' → parse rec word wl seen = parse rec' word wl seen) :
    (OpenUnit.inherited parse).AsksShorter := by
  intro r r' word wl hr
  refine ⟨fun seen => h r r' word wl seen hr, fun seen => ?_⟩
  simp only [OpenUnit.inherited]
  rw [h r r' word wl [] hr]

/-- A class whose candidates depend on nested calls for strictly shorter pieces only. -/
theorem listing_asksShorter (f : Rec S → Str → Str → Except PyErr (List (Parse S)))
    (h : ∀ rec rec' word wl, Rec.AgreeBelow wl rec rec' → f rec word wl = f rec' word wl) : (OpenUnit.listing f).AsksShorter :=
  inherited_asksShorter _ fun r r' word wl seen hr => by rw [h r r' word wl hr]

theorem adding_asksShorter (f : Rec S → Str → Str → Except PyErr (List (Parse S)))
    (h : ∀ rec rec' word wl, Rec.AgreeBelow wl rec rec' → f rec word wl = f rec' word wl) : (OpenUnit.adding f).AsksShorter :=
  inherited_asksShorter _ fun r r' word wl seen hr => by rw [h r r' word wl hr]

theorem lib_reorders (dawg : List (Str × Nat)) : (OpenEst.lib (S := S) dawg).Reorders where
  parses word wl ps out h := applyToParses_core dawg wl ps out h
  tags word wl ts out h := by
    simp only [OpenEst.lib, Except.ok.injEq] at h
    subst h
    exact applyToTags_perm dawg wl ts

/-! ### The analyzers of the other properties are such analyzers -/

theorem opened_run (m : Morph S) (rec : Rec S) (word wl : Str) (us : List (BUnit S × Bool)) (seen : Seen) (res : List (Parse S)) :
    openRun rec word wl (us.map fun u => (.lib m u.1, u.2)) seen res = runParse m rec word wl us seen res := by
  induction us generalizing seen res with
  | nil => rfl
  | cons ut us ih =>
    obtain ⟨u, t⟩ := ut
    rw [List.map_cons, openRun, runParse]
    congr 1
    funext r
    dsimp only
    rw [ih]

theorem opened_runTag (m : Morph S) (rec : Rec S) (word wl : Str) (us : List (BUnit S × Bool)) (seen : SeenTags) (res : List Tag) :
    openRunTag rec word wl (us.map fun u => (.lib m u.1, u.2)) seen res = runTag m rec word wl us seen res := by
  induction us generalizing seen res with
  | nil => rfl
  | cons ut us ih =>
    obtain ⟨u, t⟩ := ut
    rw [List.map_cons, openRunTag, runTag]
    congr 1
    funext r
    dsimp only
    rw [ih]

/-- **C110, the library's own units.** An analyzer with the library's units only is the analyzer of the other properties. -/
theorem c110_library_units (m : Morph S) (w : Str) : m.opened.parse w = m.parse w ∧ m.opened.tag w = m.tag w := by
  have key : ∀ n, m.opened.analyze n = analyze m n := by
    intro n
    induction n with
    | zero => rfl
    | succ n ih =>
      rw [OpenMorph.analyze, Verif.analyze, ih]
      congr 1
      · funext w
        simp only [OpenMorph.parseStep, parseStep, Morph.opened, opened_run]
        congr 1
        funext res
        cases m.est <;> rfl
      · funext w
        simp only [OpenMorph.tagStep, tagStep, Morph.opened, opened_runTag]
        congr 1
        funext res
        cases m.est <;> rfl
  unfold OpenMorph.parse OpenMorph.tag Morph.parse Morph.tag
  rw [key]
  exact ⟨rfl, rfl⟩

/-! ### Termination -/

/-- **C110, termination.** If the units ask the analyzer only about strictly shorter pieces of the word, the nesting of calls never exceeds the
length of the word: any larger recursion limit gives the same answers, and the units see the analyzer's own answers. -/
theorem c110_terminates (o : OpenMorph S) (hlow : o.env.LowerStable) (hu : ∀ u ∈ o.units, u.1.AsksShorter) (w : Str) :
    (∀ n, (o.env.lower w).length < n → (o.analyze n).parse w = o.parse w ∧ (o.analyze n).tag w = o.tag w) ∧
    o.parse w = o.parseStep ⟨o.parse, o.tag⟩ w ∧ o.tag w = o.tagStep ⟨o.parse, o.tag⟩ w :=
  ⟨fun n hn => open_budget o hlow hu n _ w hn (by omega), open_unfold o hlow hu w⟩

/-- **C110, no exceptions.** If in addition no unit raises by itself on the word and its pieces, and the estimator does not raise, `parse` and `tag` of the
word do not. -/
theorem c110_total (o : OpenMorph S) (hlow : o.env.LowerStable) (hu : ∀ u ∈ o.units, u.1.AsksShorter)
    (he : ∀ e, o.est = some e → (∀ word wl ps, ∃ out, e.parses word wl ps = .ok out) ∧ ∀ word wl ts, ∃ out, e.tags word wl ts = .ok out) (w : Str)
    (hw : ∀ u ∈ o.units, u.1.SafeOn w (o.env.lower w)) (hx : ∀ u ∈ o.units, ∀ x, x <:+: o.env.lower w → u.1.SafeOn x x) :
    (∃ ps, o.parse w = .ok ps) ∧ ∃ ts, o.tag w = .ok ts := by
  generalize hn : (o.env.lower w).length = n
  induction n using Nat.strong_induction_on generalizing w with
  | _ n ih =>
  subst hn
  obtain ⟨e1, e2⟩ := open_unfold o hlow hu w
  have hrec : Rec.OkBelow (o.env.lower w) ⟨o.parse, o.tag⟩ := by
    intro x hxi hl
    have e : o.env.lower x = x := hlow w x hxi
    refine ih _ (by rw [e]; exact hl) x (fun u hu' => ?_) (fun u hu' y hy => ?_) rfl
    · rw [e]; exact hx u hu' x hxi
    · exact hx u hu' y (List.IsInfix.trans (e ▸ hy) hxi)
  rw [e1, e2]
  unfold OpenMorph.parseStep OpenMorph.tagStep
  simp only [openRun_eq, openRunTag_eq]
  obtain ⟨r, hr⟩ := grun_ok (fun u => u.parse ⟨o.parse, o.tag⟩ w (o.env.lower w)) o.units (fun u hu' => (hw u hu' _ hrec).1) [] []
  obtain ⟨rt, hrt⟩ := grun_ok (fun u => u.tag ⟨o.parse, o.tag⟩ w (o.env.lower w)) o.units (fun u hu' => (hw u hu' _ hrec).2) [] []
  rw [hr, hrt, ok_bind, ok_bind]
  cases hest : o.est with
  | none => exact ⟨⟨_, rfl⟩, _, rfl⟩
  | some e => exact ⟨(he e hest).1 _ _ _, (he e hest).2 _ _ _⟩

/-! ### The first group that answers -/

theorem open_first (o : OpenMorph S) (hlow : o.env.LowerStable) (groups : List (List (OpenUnit S))) (hi : openInit groups = .ok o.units)
    (hq : ∀ g ∈ groups, ∀ u ∈ g, u.Quiet) (hu : ∀ g ∈ groups, ∀ u ∈ g, u.AsksShorter) (w : Str) :
    o.parse w = (do
      let res ← gfirst (fun g => openGroup ⟨o.parse, o.tag⟩ w (o.env.lower w) g []) groups
      match o.est with
      | some e => e.parses w (o.env.lower w) res
      | none => pure res) ∧
    o.tag w = (do
      let res ← gfirst (fun g => openGroupTag ⟨o.parse, o.tag⟩ w (o.env.lower w) g []) groups
      match o.est with
      | some e => e.tags w (o.env.lower w) res
      | none => pure res) := by
  have hu' : ∀ u ∈ o.units, u.1.AsksShorter := by
    intro u hu'
    obtain ⟨g, hg, h⟩ := openInit_mem hi u hu'
    exact hu g hg _ h
  obtain ⟨e1, e2⟩ := open_unfold o hlow hu' w
  obtain ⟨hne, hun⟩ := openInit_ok hi
  rw [e1, e2]
  unfold OpenMorph.parseStep OpenMorph.tagStep
  simp only [openRun_eq, openRunTag_eq, openGroup_eq, openGroupTag_eq]
  rw [hun, grun_first _ groups hne fun g hg u hu' seen r => (hq g hg u hu').parse _ w _ seen r,
    grun_first _ groups hne fun g hg u hu' seen r => (hq g hg u hu').tag _ w _ seen r]
  exact ⟨rfl, rfl⟩

/-- **C110, the first group that answers.** What `parse` (`tag`) hands to the estimator are the joined results of the first group of units that
answers, the units of a group sharing one set of what was seen. -/
theorem c110_first_group (o : OpenMorph S) (hlow : o.env.LowerStable) (groups : List (List (OpenUnit S))) (hi : openInit groups = .ok o.units)
    (hq : ∀ g ∈ groups, ∀ u ∈ g, u.Quiet) (hu : ∀ g ∈ groups, ∀ u ∈ g, u.AsksShorter) (hest : o.est = none) (w : Str) :
    (∀ ps, o.parse w = .ok ps ↔ OpenFirst (fun g => openGroup ⟨o.parse, o.tag⟩ w (o.env.lower w) g []) groups ps) ∧
    ∀ ts, o.tag w = .ok ts ↔ OpenFirst (fun g => openGroupTag ⟨o.parse, o.tag⟩ w (o.env.lower w) g []) groups ts := by
  obtain ⟨e1, e2⟩ := open_first o hlow groups hi hq hu w
  rw [hest] at e1 e2
  refine ⟨fun ps => ?_, fun ts => ?_⟩
  · rw [← gfirst_iff, e1]
    cases gfirst (fun g => openGroup ⟨o.parse, o.tag⟩ w (o.env.lower w) g []) groups <;> rfl
  · rw [← gfirst_iff, e2]
    cases gfirst (fun g => openGroupTag ⟨o.parse, o.tag⟩ w (o.env.lower w) g []) groups <;> rfl

theorem gfirst_last {G α : Type} (run : G → Except PyErr (List α)) (gs : List G) (l : G) (a : List α) (hl : run l = .ok a) (ha : a ≠ [])
    (out : List α) (h : gfirst run (gs ++ [l]) = .ok out) : out ≠ [] := by
  rw [gfirst_iff] at h
  rcases h with ⟨h, _⟩ | ⟨_, h⟩
  · exact h
  · have := h l (by simp)
    rw [hl] at this
    simp at this
    exact absurd this ha

/-- **C110, an answer for every string.** With `UnknAnalyzer` as the last group, the answer is never empty. -/
theorem c110_never_empty (o : OpenMorph S) (hlow : o.env.LowerStable) (groups : List (List (OpenUnit S))) (m : Morph S) (n : Nat) (t : Tag)
    (hi : openInit (groups ++ [[.lib m ⟨n, .unkn t⟩]]) = .ok o.units)
    (hq : ∀ g ∈ groups, ∀ u ∈ g, u.Quiet) (hu : ∀ g ∈ groups, ∀ u ∈ g, u.AsksShorter)
    (he : ∀ e, o.est = some e → e.Reorders) (w : Str) :
    (∀ ps, o.parse w = .ok ps → ps ≠ []) ∧ ∀ ts, o.tag w = .ok ts → ts ≠ [] := by
  obtain ⟨e1, e2⟩ := open_first o hlow _ hi (by
    intro g hg u hu'
    rcases List.mem_append.1 hg with hg | hg
    · exact hq g hg u hu'
    · simp only [List.mem_singleton] at hg; subst hg
      simp only [List.mem_singleton] at hu'; subst hu'
      exact lib_quiet m _) (by
    intro g hg u hu'
    rcases List.mem_append.1 hg with hg | hg
    · exact hu g hg u hu'
    · simp only [List.mem_singleton] at hg; subst hg
      simp only [List.mem_singleton] at hu'; subst hu'
      exact lib_asksShorter m _ trivial) w
  refine ⟨fun ps h => ?_, fun ts h => ?_⟩
  · rw [e1, bind_ok_iff] at h
    obtain ⟨res, hres, h⟩ := h
    have hne := gfirst_last _ _ _ _ (by
      simp only [openGroup, OpenUnit.lib, unitParse, if_true, ok_bind, pure_eq_ok, List.append_nil]; rfl) (by simp) res hres
    split at h
    · next e hest =>
      have := ((he e hest).parses _ _ _ _ h).length_eq
      simp only [List.length_map] at this
      rintro rfl
      exact hne (List.length_eq_zero_iff.1 this.symm)
    · simp only [pure_eq_ok, Except.ok.injEq] at h; subst h; exact hne
  · rw [e2, bind_ok_iff] at h
    obtain ⟨res, hres, h⟩ := h
    have hne := gfirst_last _ _ _ _ (by
      simp only [openGroupTag, OpenUnit.lib, unitTag, if_true, ok_bind, pure_eq_ok, List.append_nil]; rfl) (by simp) res hres
    split at h
    · next e hest =>
      have := ((he e hest).tags _ _ _ _ h).length_eq
      rintro rfl
      exact hne (List.length_eq_zero_iff.1 this.symm)
    · simp only [pure_eq_ok, Except.ok.injEq] at h; subst h; exact hne

/-! ### Locality -/

/-- **C110, locality.** Adding a group of units anywhere in the list changes nothing for a word on which, and on whose pieces, the units of
that group have nothing to say. -/
theorem c110_local (o o' : OpenMorph S) (henv : o'.env = o.env) (hest : o'.est = o.est) (hlow : o.env.LowerStable)
    (before after : List (List (OpenUnit S))) (g : List (OpenUnit S))
    (hi : openInit (before ++ after) = .ok o.units) (hi' : openInit (before ++ g :: after) = .ok o'.units)
    (hu : ∀ g ∈ before ++ after, ∀ u ∈ g, u.AsksShorter) (w : Str)
    (hw : ∀ u ∈ g, u.SilentOn w (o.env.lower w)) (hx : ∀ u ∈ g, ∀ x, x <:+: o.env.lower w → u.SilentOn x x) :
    o'.parse w = o.parse w ∧ o'.tag w = o.tag w := by
  obtain ⟨hne, hun⟩ := openInit_ok hi
  obtain ⟨hne', hun'⟩ := openInit_ok hi'
  have hu' : ∀ u ∈ o.units, u.1.AsksShorter := by
    intro u hu'
    obtain ⟨g, hg, h⟩ := openInit_mem hi u hu'
    exact hu g hg _ h
  -- one step
  have step : ∀ (rec : Rec S) (w : Str), (∀ u ∈ g, u.SilentOn w (o.env.lower w)) →
      o'.parseStep rec w = o.parseStep rec w ∧ o'.tagStep rec w = o.tagStep rec w := by
    intro rec w hw
    unfold OpenMorph.parseStep OpenMorph.tagStep
    simp only [openRun_eq, openRunTag_eq, henv, hest, hun, hun', List.flatMap_append, List.flatMap_cons]
    rw [grun_boundaries (fun u => u.parse rec w (o.env.lower w)) before (fun x hx => hne x (by simp [hx])) _ _
      (grun_silent _ g (fun u hu seen => (hw u hu rec).1 seen) _)]
    rw [grun_boundaries (fun u => u.tag rec w (o.env.lower w)) before (fun x hx => hne x (by simp [hx])) _ _
      (grun_silent _ g (fun u hu seen => (hw u hu rec).2 seen) _)]
    exact ⟨rfl, rfl⟩
  have key : ∀ n (w : Str), (∀ u ∈ g, u.SilentOn w (o.env.lower w)) → (∀ u ∈ g, ∀ x, x <:+: o.env.lower w → u.SilentOn x x) →
      (o'.analyze n).parse w = (o.analyze n).parse w ∧ (o'.analyze n).tag w = (o.analyze n).tag w := by
    intro n
    induction n with
    | zero => intro w _ _; exact ⟨rfl, rfl⟩
    | succ n ih =>
      intro w hw hx
      show o'.parseStep (o'.analyze n) w = o.parseStep (o.analyze n) w ∧ o'.tagStep (o'.analyze n) w = o.tagStep (o.analyze n) w
      obtain ⟨h1, h2⟩ := step (o'.analyze n) w hw
      rw [h1, h2]
      apply open_step_congr o hu'
      intro x hxi _
      have e : o.env.lower x = x := hlow w x hxi
      exact ih x (fun u hu => by rw [e]; exact hx u hu x hxi) fun u hu y hy => hx u hu y (List.IsInfix.trans (e ▸ hy) hxi)
  unfold OpenMorph.parse OpenMorph.tag
  rw [henv]
  exact key _ w hw hx

/-! ### The same tags -/

/-- Units for which `tag` and `parse` agree: those of the library except `UnknAnalyzer`, and the user's own classes which define `parse` only
(listing their results, or handing them to `add_parse_if_not_seen`) or derive from the shape analyzers. -/
inductive OpenUnit.Agreeing (m : Morph S) : OpenUnit S → Prop
  | lib (u : BUnit S) (hu : u.cfg.properPrefixes) (hk : u.cfg.kind ≠ .unkn) : Agreeing m (.lib m u)
  | listing (f : Rec S → Str → Str → Except PyErr (List (Parse S))) : Agreeing m (.listing f)
  | adding (f : Rec S → Str → Str → Except PyErr (List (Parse S))) : Agreeing m (.adding f)
  | shaped (u : UObj) (score : S) (check : Str → Str → Option Tag) : Agreeing m (.shaped u score check)

theorem openUnit_sameTags (A : List Str → Prop) (m : Morph S) (hd : m.dict.WF) (rec : Rec S) (u : OpenUnit S) (hu : u.Agreeing m)
    (word wl : Str) (hrec : rec.TagsBelow wl) (seen : Seen) (seenT : SeenTags) (h : SeenIn A seen) (hT : SeenTIn A seenT)
    (r : List (Parse S) × Seen) (rt : List Tag × SeenTags)
    (hr : u.parse rec word wl seen = .ok r) (hrt : u.tag rec word wl seenT = .ok rt) :
    SameUpTo A r.1 rt.1 ∧ SeenIn (fun τ => A τ ∨ InP τ r.1) r.2 ∧ SeenTIn (fun τ => A τ ∨ InT τ rt.1) rt.2 := by
  cases hu with
  | lib u hu hk => exact unit_sameTags A m hd rec u hu hk word wl hrec seen seenT h hT r rt hr hrt
  | listing f =>
    simp only [OpenUnit.listing, OpenUnit.inherited, bind_ok_iff, pure_eq_ok, Except.ok.injEq] at hr hrt
    obtain ⟨ps, hps, rfl⟩ := hr
    obtain ⟨_, ⟨ps', hps', rfl⟩, rfl⟩ := hrt
    rw [hps] at hps'
    simp only [Except.ok.injEq] at hps'; subst hps'
    obtain ⟨a1, a2⟩ := addTags_tags A (ps.map Parse.tag) seenT hT
    exact ⟨fun τ => (or_congr Iff.rfl (sameTags_map ps τ)).trans (a1 τ).symm, fun w τ k hk => .inl (h w τ k hk), a2⟩
  | adding f =>
    simp only [OpenUnit.adding, OpenUnit.inherited, bind_ok_iff, pure_eq_ok, Except.ok.injEq] at hr hrt
    obtain ⟨ps, hps, rfl⟩ := hr
    obtain ⟨_, ⟨ps', hps', rfl⟩, rfl⟩ := hrt
    rw [hps] at hps'
    simp only [Except.ok.injEq] at hps'; subst hps'
    obtain ⟨p1, p2⟩ := addParses_tags A ps seen h
    obtain ⟨q1, _⟩ := addParses_tags (fun _ => False) ps [] (by simp [SeenIn])
    obtain ⟨a1, a2⟩ := addTags_tags A ((addParses ps []).1.map Parse.tag) seenT hT
    refine ⟨fun τ => (p1 τ).trans (Iff.trans (or_congr Iff.rfl ?_) (a1 τ).symm), p2, a2⟩
    have := q1 τ
    simp only [false_or] at this
    exact this.symm.trans (sameTags_map _ τ)
  | shaped u score check =>
    simp only [OpenUnit.shaped, Except.ok.injEq] at hr hrt
    subst hr hrt
    refine ⟨sameUpTo_of_same A ?_, fun w τ k hk => .inl (h w τ k hk), fun τ hk => .inl (hT τ hk)⟩
    intro τ
    cases check word wl <;> simp [shapeParse, InP, InT]

theorem openGroup_sameTags (A : List Str → Prop) (m : Morph S) (hd : m.dict.WF) (rec : Rec S) (g : List (OpenUnit S)) (hu : ∀ u ∈ g, u.Agreeing m)
    (word wl : Str) (hrec : rec.TagsBelow wl) (seen : Seen) (seenT : SeenTags) (h : SeenIn A seen) (hT : SeenTIn A seenT) (ps : List (Parse S)) (ts : List Tag)
    (hps : openGroup rec word wl g seen = .ok ps) (hts : openGroupTag rec word wl g seenT = .ok ts) : SameUpTo A ps ts := by
  induction g generalizing A seen seenT ps ts with
  | nil => simp [openGroup] at hps; simp [openGroupTag] at hts; subst hps hts; intro τ; simp [InP, InT]
  | cons u g ih =>
    simp only [openGroup, bind_ok_iff, pure_eq_ok, Except.ok.injEq] at hps
    simp only [openGroupTag, bind_ok_iff, pure_eq_ok, Except.ok.injEq] at hts
    obtain ⟨r, hr, rest, hrest, rfl⟩ := hps
    obtain ⟨rt, hrt, restT, hrestT, rfl⟩ := hts
    obtain ⟨e1, e2, e3⟩ := openUnit_sameTags A m hd rec u (hu u (by simp)) word wl hrec seen seenT h hT r rt hr hrt
    have := ih (fun τ => A τ ∨ InP τ r.1) (fun v hv => hu v (by simp [hv])) r.2 rt.2 e2 (seenTIn_congr (fun τ => (e1 τ).2) e3) rest restT hrest hrestT
    intro τ
    rw [inP_append, inT_append, ← or_assoc, ← or_assoc]; refine (this τ).trans ?_; beta_reduce; rw [e1 τ]

theorem gfirst_sameTags (m : Morph S) (hd : m.dict.WF) (rec : Rec S) (groups : List (List (OpenUnit S)))
    (hk : ∀ g ∈ groups, (∀ u ∈ g, u.Agreeing m) ∨ ∃ n t, g = [.lib m ⟨n, .unkn t⟩]) (word wl : Str)
    (hrec : rec.TagsBelow wl) (ps : List (Parse S)) (ts : List Tag)
    (hps : gfirst (fun g => openGroup rec word wl g []) groups = .ok ps)
    (hts : gfirst (fun g => openGroupTag rec word wl g []) groups = .ok ts) : SameTags ps ts := by
  induction groups with
  | nil => simp [gfirst] at hps hts; subst hps hts; intro τ; simp [InP, InT]
  | cons g gs ih =>
    simp only [gfirst, bind_ok_iff] at hps hts
    obtain ⟨r, hr, hps⟩ := hps
    obtain ⟨rt, hrt, hts⟩ := hts
    have hsame : SameTags r rt := by
      rcases hk g (by simp) with hk | ⟨n, t, rfl⟩
      · have := openGroup_sameTags (fun _ => False) m hd rec g hk word wl hrec [] [] (by simp [SeenIn])
          (by simp [SeenTIn]) r rt hr hrt
        intro τ; simpa using this τ
      · simp only [openGroup, openGroupTag, OpenUnit.lib, unitParse, unitTag, if_true, ok_bind, pure_eq_ok, List.append_nil, Except.ok.injEq] at hr hrt
        subst hr hrt
        intro τ; simp [InP, InT]
    have hnil := sameTags_nil hsame
    cases r with
    | nil =>
      have : rt = [] := hnil.1 rfl
      subst this
      exact ih (fun g hg => hk g (by simp [hg])) hps hts
    | cons a as =>
      cases rt with
      | nil => simp at hnil
      | cons b bs => simp at hps hts; subst hps hts; exact hsame

theorem agreeing_quiet {m : Morph S} {u : OpenUnit S} (h : u.Agreeing m) : u.Quiet := by
  cases h with
  | lib u _ _ => exact lib_quiet m u
  | listing f => exact listing_quiet f
  | adding f => exact adding_quiet f
  | shaped u score check => exact shaped_quiet u score check

/-- **C110, the same tags.** `tag` returns the tags of the results of `parse`, also with units and estimators of one's own. -/
theorem c110_same_tags (o : OpenMorph S) (hlow : o.env.LowerStable) (m : Morph S) (hd : m.dict.WF) (groups : List (List (OpenUnit S)))
    (hi : openInit groups = .ok o.units)
    (hk : ∀ g ∈ groups, (∀ u ∈ g, u.Agreeing m ∧ u.AsksShorter) ∨ ∃ n t, g = [.lib m ⟨n, .unkn t⟩])
    (he : ∀ e, o.est = some e → e.Reorders) (w : Str) (ps : List (Parse S)) (ts : List Tag) (hps : o.parse w = .ok ps) (hts : o.tag w = .ok ts) :
    (∀ t ∈ ts, ∃ p ∈ ps, p.tag.eqv t = true) ∧ (∀ p ∈ ps, ∃ t ∈ ts, t.eqv p.tag = true) := by
  have hfirst := open_first o hlow groups hi (by
    intro g hg u hu'
    rcases hk g hg with h | ⟨n, t, rfl⟩
    · exact agreeing_quiet (h u hu').1
    · simp only [List.mem_singleton] at hu'; subst hu'; exact lib_quiet m _) (by
    intro g hg u hu'
    rcases hk g hg with h | ⟨n, t, rfl⟩
    · exact (h u hu').2
    · simp only [List.mem_singleton] at hu'; subst hu'; exact lib_asksShorter m _ trivial)
  have key : ∀ n (w : Str), (o.env.lower w).length = n → ∀ ps ts, o.parse w = .ok ps → o.tag w = .ok ts → SameTags ps ts := by
    intro n
    induction n using Nat.strong_induction_on with
    | _ n ih =>
    intro w hn ps ts hps hts
    subst hn
    obtain ⟨e1, e2⟩ := hfirst w
    rw [e1, bind_ok_iff] at hps
    rw [e2, bind_ok_iff] at hts
    obtain ⟨res, hres, hps⟩ := hps
    obtain ⟨rest, hrest, hts⟩ := hts
    have hsame := gfirst_sameTags m hd _ groups (fun g hg => (hk g hg).imp (fun h u hu => (h u hu).1) id) w _ (by
      intro x hx hl ps ts h1 h2
      have e : o.env.lower x = x := hlow w x hx
      exact ih _ (by rw [e]; exact hl) x rfl ps ts h1 h2) res rest hres hrest
    cases hest : o.est with
    | none =>
      rw [hest] at hps hts
      simp only [pure_eq_ok, Except.ok.injEq] at hps hts
      subst hps hts; exact hsame
    | some e =>
      rw [hest] at hps hts
      exact sameTags_perm hsame ((he e hest).parses _ _ _ _ hps) ((he e hest).tags _ _ _ _ hts)
  have h := key _ w rfl ps ts hps hts
  constructor
  · intro t ht
    obtain ⟨p, hp, he⟩ := (h t.tuple).2 ⟨t, ht, rfl⟩
    exact ⟨p, hp, by simp [Tag.eqv, he]⟩
  · intro p hp
    obtain ⟨t, ht, he⟩ := (h p.tag.tuple).1 ⟨p, hp, rfl⟩
    exact ⟨t, ht, by simp [Tag.eqv, he]⟩

/-! ### Shapes of one's own -/

/-- **C110, a shape of one's own.** Put first, a subclass of the shape analyzers answers alone for the strings of its shape: the lower-cased string
with its tag and score, being its own normal form and only form; other strings are analysed as if the class was not there. -/
theorem c110_shape (o : OpenMorph S) (hlow : o.env.LowerStable) (hest : o.est = none) (n : Nat) (score : S) (check : Str → Str → Option Tag)
    (groups : List (List (OpenUnit S))) (hi : openInit ([.shaped ⟨n, .shape⟩ score check] :: groups) = .ok o.units)
    (hu : ∀ g ∈ groups, ∀ u ∈ g, u.AsksShorter) (w : Str) :
    (∀ t, check w (o.env.lower w) = some t → ∃ p, o.parse w = .ok [p] ∧ o.tag w = .ok [t] ∧
      p.word = o.env.lower w ∧ p.tag = t ∧ p.nf = o.env.lower w ∧ p.score = score ∧
      ∀ m : Morph S, m.lexeme p = .ok [p] ∧ m.normalized p = .ok p) ∧
    (∀ o' : OpenMorph S, o'.env = o.env → o'.est = none → openInit groups = .ok o'.units →
      check w (o.env.lower w) = none → (∀ x, x <:+: o.env.lower w → check x x = none) → o.parse w = o'.parse w ∧ o.tag w = o'.tag w) := by
  constructor
  · intro t ht
    obtain ⟨hne, hun⟩ := openInit_ok hi
    refine ⟨⟨o.env.lower w, t, o.env.lower w, score, .single (.simple ⟨n, .shape⟩ w)⟩, ?_, ?_, rfl, rfl, rfl, rfl, fun m => ⟨rfl, rfl⟩⟩
    · show o.parseStep _ w = _
      unfold OpenMorph.parseStep
      simp [openRun_eq, hun, gflag, grun, OpenUnit.shaped, ht, shapeParse, hest]
    · show o.tagStep _ w = _
      unfold OpenMorph.tagStep
      simp [openRunTag_eq, hun, gflag, grun, OpenUnit.shaped, ht, hest]
  · intro o' henv hest' hi' hw hx
    refine c110_local o' o henv.symm (hest.trans hest'.symm) (henv ▸ hlow) [] groups _ hi' hi hu w ?_ ?_
    · intro u hu
      simp only [List.mem_singleton] at hu
      subst hu
      rw [henv]
      intro rec
      exact ⟨fun seen => by simp [OpenUnit.shaped, hw, shapeParse], fun seen => by simp [OpenUnit.shaped, hw]⟩
    · intro u hu x hxi
      simp only [List.mem_singleton] at hu
      subst hu
      rw [henv] at hxi
      intro rec
      exact ⟨fun seen => by simp [OpenUnit.shaped, hx x hxi, shapeParse], fun seen => by simp [OpenUnit.shaped, hx x hxi]⟩

end generic

/-! ### Non-vacuity (tests) -/

/-- A unit for hash tags: what follows `#` is analysed by the analyzer itself. -/
def Demo.hashUnit : OpenUnit Rat := .adding fun rec _ wl =>
  match wl with
  | '#' :: rest => do
    let ps ← rec.parse rest
    pure (ps.map fun p => { p with word := '#' :: p.word, nf := '#' :: p.nf, score := p.score / 2 })
  | _ => .ok []

/-- A unit for one smiley. -/
def Demo.smileyUnit : OpenUnit Rat := .shaped ⟨1000, .shape⟩ (9 / 10) fun word _ => if word = c!":)" then some ⟨c!"PNCT"⟩ else none

/-- The groups of the demo analyzer. -/
def Demo.libGroups110 : List (List (OpenUnit Rat)) :=
  (boundGroups (ruUnits (S := Rat)) 0).map fun g => g.map fun u => .lib Demo.morph u

/-- The groups of the demo analyzer, after the two new units. -/
def Demo.groups110 : List (List (OpenUnit Rat)) := [[Demo.smileyUnit], [Demo.hashUnit]] ++ Demo.libGroups110

def Demo.open110 : OpenMorph Rat where
  env := demoEnv
  units := (openInit Demo.groups110).toOption.getD []
  est := none

theorem Demo.open110_init : openInit Demo.groups110 = .ok Demo.open110.units := by
  have key : ∀ gs : List (List (OpenUnit Rat)), (∀ g ∈ gs, g ≠ []) → ∃ us, openInit gs = .ok us := by
    intro gs
    induction gs with
    | nil => intro _; exact ⟨_, rfl⟩
    | cons g gs ih =>
      intro h
      obtain ⟨us, hus⟩ := ih fun g hg => h g (by simp [hg])
      rw [openInit, List.getLast?_eq_some_getLast (h g (by simp)), hus]
      exact ⟨_, rfl⟩
  obtain ⟨us, hus⟩ := key Demo.groups110 (by
    intro g hg
    simp only [Demo.groups110, Demo.libGroups110, List.mem_append, List.mem_map, List.mem_cons, List.not_mem_nil, or_false] at hg
    rcases hg with (rfl | rfl) | ⟨g', hg', rfl⟩
    · simp
    · simp
    · have := Demo.morph_isRu
      obtain ⟨cls, hm⟩ := this
      have := (mkMorph_units hm).2.2.2.2.1 g' hg'
      simpa using this)
  show _ = Except.ok ((openInit Demo.groups110).toOption.getD [])
  rw [hus]; rfl

theorem Demo.hash_asksShorter : Demo.hashUnit.AsksShorter := by
  apply adding_asksShorter
  intro r r' word wl h
  split
  · next rest =>
    rw [(h rest ⟨['#'], [], by simp⟩ (by simp)).1]
  · rfl

theorem Demo.hash_silent (w wl : Str) (h : '#' ∉ wl) : Demo.hashUnit.SilentOn w wl := by
  intro rec
  have : ∀ seen, Demo.hashUnit.parse rec w wl seen = .ok ([], seen) := by
    intro seen
    simp only [Demo.hashUnit, OpenUnit.adding, OpenUnit.inherited]
    split
    · next rest => simp at h
    · rfl
  refine ⟨this, fun seen => ?_⟩
  show (do
    let r ← Demo.hashUnit.parse rec w wl []
    pure (addTags (r.1.map Parse.tag) seen)) = _
  rw [this]; rfl

theorem Demo.ruGroups : ∀ g ∈ boundGroups (ruUnits (S := Rat)) 0,
    (∀ u ∈ g, u.cfg.properPrefixes ∧ u.cfg.kind ≠ .unkn) ∨ ∃ n t, g = [⟨n, .unkn t⟩] := by
  have hp := default_properPrefixes Demo.morph (.inl Demo.morph_isRu)
  obtain ⟨cls, hm⟩ := Demo.morph_isRu
  have hgr := (mkMorph_units hm).2.2.2.2
  have hu : ∀ (items : List (List (UnitSpec Rat))) (n : Nat), (∀ g ∈ items, (∀ sp ∈ g, sp.bound.kind ≠ .unkn) ∨ g = [.unkn]) →
      ∀ g ∈ boundGroups items n, UnknAlone g := by
    intro items
    induction items with
    | nil => intro n _ g hg; simp [boundGroups] at hg
    | cons x xs ih =>
      intro n hit g hg
      rcases List.mem_cons.1 hg with rfl | hg
      · rcases hit x (by simp) with h | rfl
        · left
          intro u hu
          obtain ⟨i, hi, rfl⟩ := List.mem_mapIdx.1 hu
          exact h _ (List.getElem_mem hi)
        · right; exact ⟨n, _, rfl⟩
      · exact ih _ (fun g hg => hit g (by simp [hg])) g hg
  intro g hg
  rcases hu _ 0 (by simp [ruUnits, UnitSpec.bound, UnitCfg.kind]) g hg with h | h
  · left
    intro u hug
    obtain ⟨t, ht⟩ := (mem_of_isGroups hgr u).2 ⟨g, hg, hug⟩
    exact ⟨hp (u, t) ht, h u hug⟩
  · exact .inr h

theorem Demo.groups110_ok : ∀ g ∈ Demo.groups110,
    (∀ u ∈ g, u.Agreeing Demo.morph ∧ u.AsksShorter) ∨ ∃ n t, g = [.lib Demo.morph ⟨n, .unkn t⟩] := by
  intro g hg
  simp only [Demo.groups110, Demo.libGroups110, List.mem_append, List.mem_map, List.mem_cons, List.not_mem_nil, or_false] at hg
  rcases hg with (rfl | rfl) | ⟨g', hg', rfl⟩
  · exact .inl fun u hu => by
      simp only [List.mem_singleton] at hu; subst hu
      exact ⟨.shaped _ _ _, shaped_asksShorter _ _ _⟩
  · exact .inl fun u hu => by
      simp only [List.mem_singleton] at hu; subst hu
      exact ⟨.adding _, Demo.hash_asksShorter⟩
  · rcases Demo.ruGroups g' hg' with h | ⟨n, t, rfl⟩
    · refine .inl fun u hu => ?_
      obtain ⟨v, hv, rfl⟩ := List.mem_map.1 hu
      exact ⟨.lib v (h v hv).1 (h v hv).2, lib_asksShorter _ v (h v hv).1⟩
    · exact .inr ⟨n, t, rfl⟩

/-- The two new units at work; the hypotheses of the theorems hold of this analyzer. -/
example (w : Str) (ps : List (Parse Rat)) (ts : List Tag) (h : Demo.open110.parse w = .ok ps) (ht : Demo.open110.tag w = .ok ts) :
    (∀ t ∈ ts, ∃ p ∈ ps, p.tag.eqv t = true) ∧ (∀ p ∈ ps, ∃ t ∈ ts, t.eqv p.tag = true) :=
  c110_same_tags Demo.open110 demoEnv_lowerStable Demo.morph Demo.dict_wf Demo.groups110 Demo.open110_init Demo.groups110_ok
    (by intro e he; simp [Demo.open110] at he) w ps ts h ht
example : ((Demo.open110.parse (c!"#Кошка")).toOption.map fun l => l.map fun p => (p.word, p.tag.str, p.score)) =
      some [(c!"#кошка", c!"NOUN,anim,femn sing,nomn", (1 / 2 : Rat))] ∧
    ((Demo.open110.tag (c!"##кошек")).toOption.map fun l => l.map Tag.str) = some [c!"NOUN,anim,femn plur,gent"] ∧
    ((Demo.open110.parse (c!":)")).toOption.map fun l => l.map fun p => (p.word, p.tag.str)) = some [(c!":)", c!"PNCT")] := by decide +kernel
/-- Words without `#` (and which are no smileys) are analysed as without the unit. -/
example (w : Str) (h : '#' ∉ demoEnv.lower w) (o : OpenMorph Rat) (ho : o.env = demoEnv) (he : o.est = none)
    (hi : openInit ([[Demo.smileyUnit]] ++ Demo.libGroups110) = .ok o.units) :
    Demo.open110.parse w = o.parse w ∧ Demo.open110.tag w = o.tag w := by
  refine c110_local o Demo.open110 ho.symm he.symm (ho ▸ demoEnv_lowerStable) [[Demo.smileyUnit]]
    Demo.libGroups110 [Demo.hashUnit] hi Demo.open110_init ?_ w ?_ ?_
  · intro g hg u hu
    rcases Demo.groups110_ok g (by
      simp only [Demo.groups110, List.mem_append, List.mem_cons] at hg ⊢
      rcases hg with hg | hg
      · exact .inl (.inl (by simpa using hg))
      · exact .inr hg) with hk | ⟨n, t, rfl⟩
    · exact (hk u hu).2
    · simp only [List.mem_singleton] at hu; subst hu; exact lib_asksShorter _ _ trivial
  · intro u hu
    simp only [List.mem_singleton] at hu; subst hu
    rw [ho]; exact Demo.hash_silent _ _ h
  · intro u hu x hx
    simp only [List.mem_singleton] at hu; subst hu
    rw [ho] at hx
    exact Demo.hash_silent _ _ fun hc => h (hx.subset hc)

theorem Demo.open110_units (x : OpenUnit Rat × Bool) (hx : x ∈ Demo.open110.units) :
    x.1 = Demo.smileyUnit ∨ x.1 = Demo.hashUnit ∨ ∃ u : BUnit Rat, x.1 = .lib Demo.morph u ∧ u.cfg.properPrefixes := by
  obtain ⟨g, hg, hx⟩ := openInit_mem Demo.open110_init x hx
  simp only [Demo.groups110, Demo.libGroups110, List.mem_append, List.mem_map, List.mem_cons, List.not_mem_nil, or_false] at hg
  rcases hg with (rfl | rfl) | ⟨g', hg', rfl⟩
  · exact .inl (by simpa using hx)
  · exact .inr (.inl (by simpa using hx))
  · obtain ⟨u, hu, e⟩ := List.mem_map.1 hx
    refine .inr (.inr ⟨u, e.symm, ?_⟩)
    rcases Demo.ruGroups g' hg' with h | ⟨n, t, rfl⟩
    · exact (h u hu).1
    · simp only [List.mem_singleton] at hu; subst hu; trivial

/-- `c110_total` and `c110_never_empty` apply to the demo: hash tags, smileys and everything else get an answer, and a non-empty one. -/
example (w : Str) (h1 : demoEnv.Named w) (h2 : demoEnv.Named (demoEnv.lower w)) :
    (∃ ps, Demo.open110.parse w = .ok ps) ∧ ∃ ts, Demo.open110.tag w = .ok ts := by
  have hash : ∀ x wl, Demo.hashUnit.SafeOn x wl := by
    intro x wl
    refine adding_safe _ x wl fun rec hrec => ?_
    split
    · next rest =>
      obtain ⟨ps, hps⟩ := (hrec rest ⟨['#'], [], by simp⟩ (by simp)).1
      rw [hps]; exact ⟨_, rfl⟩
    · exact ⟨_, rfl⟩
  refine c110_total Demo.open110 demoEnv_lowerStable ?_ (by intro e he; simp [Demo.open110] at he) w ?_ ?_
  · intro x hx
    rcases Demo.open110_units x hx with e | e | ⟨u, e, hu⟩ <;> rw [e]
    · exact shaped_asksShorter _ _ _
    · exact Demo.hash_asksShorter
    · exact lib_asksShorter _ u hu
  · intro x hx
    rcases Demo.open110_units x hx with e | e | ⟨u, e, hu⟩ <;> rw [e]
    · exact shaped_safe _ _ _ _ _
    · exact hash _ _
    · exact lib_safe _ Demo.dict_wf (by decide +kernel) u hu _ _ h1
  · intro x hx y hy
    rcases Demo.open110_units x hx with e | e | ⟨u, e, hu⟩ <;> rw [e]
    · exact shaped_safe _ _ _ _ _
    · exact hash _ _
    · exact lib_safe _ Demo.dict_wf (by decide +kernel) u hu _ _ fun c hc => h2 c (hy.subset hc)
example (w : Str) (ps : List (Parse Rat)) (h : Demo.open110.parse w = .ok ps) : ps ≠ [] := by
  have hsplit : ∃ gs n t, Demo.groups110 = gs ++ [[.lib Demo.morph ⟨n, .unkn t⟩]] := by
    refine ⟨[[Demo.smileyUnit], [Demo.hashUnit]] ++ ((boundGroups (ruUnits (S := Rat)) 0).dropLast.map fun g => g.map fun u => .lib Demo.morph u), 13,
      ⟨c!"UNKN"⟩, ?_⟩
    simp [Demo.groups110, Demo.libGroups110, boundGroups, ruUnits, UnitSpec.bound]
  obtain ⟨gs, n, t, e⟩ := hsplit
  have hk : ∀ g ∈ gs, ∀ u ∈ g, u.Quiet ∧ u.AsksShorter := by
    intro g hg u hu
    rcases Demo.groups110_ok g (by rw [e]; simp [hg]) with hk | ⟨n, t, rfl⟩
    · exact ⟨agreeing_quiet (hk u hu).1, (hk u hu).2⟩
    · simp only [List.mem_singleton] at hu; subst hu; exact ⟨lib_quiet _ _, lib_asksShorter _ _ trivial⟩
  exact (c110_never_empty Demo.open110 demoEnv_lowerStable gs Demo.morph n t (e ▸ Demo.open110_init) (fun g hg u hu => (hk g hg u hu).1)
    (fun g hg u hu => (hk g hg u hu).2) (by intro e he; simp [Demo.open110] at he) w).1 ps h

/-- A unit which asks about the very word it is given. -/
def Demo.selfUnit : OpenUnit Rat := .listing fun rec word _ => rec.parse word

/-- **C110, negative.** A unit which asks the analyzer about the same word never gets an answer, whatever the recursion limit. -/
theorem c110_endless (env : Env) (w : Str) (n : Nat) :
    ((⟨env, [(Demo.selfUnit, true)], none⟩ : OpenMorph Rat).analyze n).parse w = .error .recursionError := by
  induction n with
  | zero => rfl
  | succ n ih =>
    show OpenMorph.parseStep _ _ w = _
    simp only [OpenMorph.parseStep, openRun, Demo.selfUnit, OpenUnit.listing, OpenUnit.inherited] at ih ⊢
    rw [ih]; rfl

end Verif
