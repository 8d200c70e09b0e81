/-
C91 — interpreters without `inspect.getargspec` (CPython 3.11 and later): what still works.
-/
import Verif.Model.Interp
import Verif.Props.C49
import Verif.Props.C69

set_option linter.unusedSectionVars false

namespace Verif

variable {S : Type} [Score S]

/-! ### Specification -/

/-- The units that can be given to an analyzer on such an interpreter: plain dictionary look-up and the unit for unknown words. -/
def UnitSpec.Plain (u : UnitSpec S) : Prop := u = .dictionary ∨ u = .unkn

/-! ### Binding -/

theorem ownInit_iff (u : UnitSpec S) : u.ownInit = false ↔ u.Plain := by cases u <;> simp [UnitSpec.ownInit, UnitSpec.Plain]

theorem bindUnitsOn_same (g : Interp) (us : List (UnitSpec S × Bool)) (h : g.getargspec = true ∨ ∀ u ∈ us, u.1.Plain) (id : Nat) (cls : TagCls) :
    bindUnitsOn g us id cls = bindUnits us id cls := by
  induction us generalizing id cls with
  | nil => rfl
  | cons u us ih =>
    obtain ⟨sp, t⟩ := u
    have hb : sp.bindOn g id cls = sp.bind id cls := by
      unfold UnitSpec.bindOn
      rcases h with h | h
      · simp [h]
      · have h1 : sp.ownInit = false := (ownInit_iff _).2 (h (sp, t) (by simp))
        simp [h1]
    have ih' := ih (by
      rcases h with h | h
      · exact .inl h
      · exact .inr fun u hu => h u (by simp [hu]))
    simp only [bindUnitsOn, bindUnits, hb, ih']

theorem bindUnitsOn_error (g : Interp) (hg : g.getargspec = false) (us : List (UnitSpec S × Bool)) (h : ∃ u ∈ us, ¬ u.1.Plain) (id : Nat) (cls : TagCls) (r)
    (hr : bindUnits us id cls = .ok r) : bindUnitsOn g us id cls = .error .attributeError := by
  induction us generalizing id cls r with
  | nil => obtain ⟨u, hu, _⟩ := h; cases hu
  | cons u us ih =>
    obtain ⟨sp, t⟩ := u
    simp only [bindUnits, bind_ok_iff, pure_eq_ok, Except.ok.injEq] at hr
    obtain ⟨r1, h1, r2, h2, rfl⟩ := hr
    by_cases hp : sp.ownInit = true
    · simp [bindUnitsOn, UnitSpec.bindOn, hp, hg]
    · have hp' : sp.ownInit = false := by simpa using hp
      have : ∃ u ∈ us, ¬ u.1.Plain := by
        obtain ⟨u, hu, hn⟩ := h
        rcases List.mem_cons.1 hu with rfl | hu
        · exact absurd ((ownInit_iff _).1 hp') hn
        · exact ⟨u, hu, hn⟩
      simp [bindUnitsOn, UnitSpec.bindOn, hp', h1, ih this _ _ _ h2]

theorem mem_flat {items : List (List (UnitSpec S))} {flat : List (List (UnitSpec S × Bool))} (h : mapE flattenItem items = .ok flat) (P : UnitSpec S → Prop) :
    (∀ u ∈ flat.flatten, P u.1) ↔ ∀ item ∈ items, ∀ u ∈ item, P u := by
  have hf := (mapE_ok_iff _ _ _).1 h
  clear h
  induction hf with
  | nil => simp
  | @cons g _ _ _ h1 _ ih =>
    obtain ⟨_, rfl⟩ := flattenItem_ok h1
    simp only [List.flatten_cons, List.mem_append, or_imp, forall_and, List.forall_mem_cons, ih]
    refine and_congr ?_ Iff.rfl
    constructor
    · intro H u hu
      obtain ⟨i, hi, rfl⟩ := List.mem_iff_getElem.1 hu
      exact H (g[i], decide (i + 1 = g.length)) (List.mem_iff_getElem.2 ⟨i, by simpa using hi, by simp⟩)
    · intro H u hu
      obtain ⟨i, hi, rfl⟩ := List.mem_iff_getElem.1 hu
      simp only [List.getElem_mapIdx]
      exact H _ (List.getElem_mem _)

theorem initUnitsOn_same (g : Interp) (items : List (List (UnitSpec S))) (h : g.getargspec = true ∨ ∀ item ∈ items, ∀ u ∈ item, u.Plain) (cls : TagCls) :
    initUnitsOn g items cls = initUnits items cls := by
  unfold initUnitsOn initUnits
  cases hf : mapE flattenItem items with
  | error e => rfl
  | ok flat =>
    simp only [ok_bind]
    exact bindUnitsOn_same g _ (h.imp id fun h => (mem_flat hf _).2 h) 0 cls

theorem initUnitsOn_error (g : Interp) (hg : g.getargspec = false) (items : List (List (UnitSpec S))) (h : ¬ ∀ item ∈ items, ∀ u ∈ item, u.Plain) (cls : TagCls)
    (r) (hr : initUnits items cls = .ok r) : initUnitsOn g items cls = .error .attributeError := by
  unfold initUnitsOn
  simp only [initUnits, bind_ok_iff] at hr
  obtain ⟨flat, hf, hr⟩ := hr
  simp only [hf, ok_bind]
  refine bindUnitsOn_error g hg _ ?_ 0 cls r hr
  have := (mem_flat hf (P := UnitSpec.Plain)).not.2 h
  push Not at this
  exact this

/-! ### Theorems -/

/-- With `inspect.getargspec` the constructor is the one the other properties are about. -/
theorem c91_with (g : Interp) (hg : g.getargspec = true) (s : Sys) (cls : TagCls) (a : MorphArgs S) : constructOn g s cls a = construct s cls a := by
  unfold constructOn construct mkMorph
  simp only [initUnitsOn_same g _ (.inl hg), bind_assoc, pure_bind]

/-- Exactly which analyzers can be constructed: those that could be on any interpreter, and without `inspect.getargspec` only those that use no other units
than `DictionaryAnalyzer` and `UnknAnalyzer`; they are the same analyzers. -/
theorem c91_exact (g : Interp) (s : Sys) (cls : TagCls) (a : MorphArgs S) (x : Analyzer S) :
    constructOn g s cls a = .ok x ↔
      construct s cls a = .ok x ∧ (g.getargspec = true ∨ ∀ item ∈ x.unitsUnbound, ∀ u ∈ item, u = .dictionary ∨ u = .unkn) := by
  constructor
  · intro h
    unfold constructOn at h
    simp only [bind_ok_iff] at h
    obtain ⟨path, h1, r, h2, dl, h3, est, h4, b, h5, h6⟩ := h
    cases h6
    by_cases hg : g.getargspec = true
    · refine ⟨?_, .inl hg⟩
      rw [← c91_with g hg]
      unfold constructOn
      simp only [bind_ok_iff]
      exact ⟨path, h1, r, h2, dl, h3, est, h4, b, h5, rfl⟩
    · have hg' : g.getargspec = false := by simpa using hg
      by_cases hp : ∀ item ∈ a.units.getD (defaultUnits (chooseLanguage dl a.lang')), ∀ u ∈ item, u.Plain
      · refine ⟨?_, .inr hp⟩
        have h5' : initUnitsOn g (a.units.getD (defaultUnits (chooseLanguage dl a.lang'))) r.2.1 = .ok b := h5
        rw [initUnitsOn_same g _ (.inr hp)] at h5'
        unfold construct mkMorph
        simp only [bind_ok_iff]
        exact ⟨path, h1, r, h2, dl, h3, est, h4, _, ⟨b, h5', rfl⟩, rfl⟩
      · exfalso
        have hbad : ∃ u ∈ (a.units.getD (defaultUnits (chooseLanguage dl a.lang'))).flatten, ¬ u.Plain := by
          push Not at hp
          obtain ⟨i, hi, u, hu, hn⟩ := hp
          exact ⟨u, List.mem_flatten.2 ⟨i, hi, hu⟩, hn⟩
        have h5' : initUnitsOn g (a.units.getD (defaultUnits (chooseLanguage dl a.lang'))) r.2.1 = .ok b := h5
        unfold initUnitsOn at h5'
        simp only [bind_ok_iff] at h5'
        obtain ⟨flat, hf, hb⟩ := h5'
        have hbad' := (mem_flat hf (P := UnitSpec.Plain)).not.2 hp
        clear h5
        generalize flat.flatten = us at hb hbad'
        generalize 0 = id at hb
        generalize r.2.1 = c at hb
        clear hbad
        induction us generalizing id c b with
        | nil => exact hbad' (by simp)
        | cons u us ih =>
          obtain ⟨sp, t⟩ := u
          simp only [bindUnitsOn, bind_ok_iff, pure_eq_ok, Except.ok.injEq] at hb
          obtain ⟨r1, k1, r2, k2, rfl⟩ := hb
          by_cases ho : sp.ownInit = true
          · simp [UnitSpec.bindOn, ho, hg'] at k1
          · refine ih _ ?_ _ _ k2
            intro H
            apply hbad'
            intro u hu
            rcases List.mem_cons.1 hu with rfl | hu
            · exact (ownInit_iff _).1 (by simpa using ho)
            · exact H u hu
  · rintro ⟨h, hc⟩
    obtain ⟨path, r, dl, est, m, h1, h2, h3, h4, h5, rfl⟩ := construct_ok h
    simp only [mkMorph, bind_ok_iff, pure_eq_ok, Except.ok.injEq] at h5
    obtain ⟨b, h5, rfl⟩ := h5
    unfold constructOn
    simp only [bind_ok_iff]
    refine ⟨path, h1, r, h2, dl, h3, est, h4, b, ?_, rfl⟩
    exact (initUnitsOn_same g _ hc _).trans h5

/-- Without it, an analyzer that could be constructed otherwise and has another unit raises `AttributeError`. -/
theorem c91_without (g : Interp) (hg : g.getargspec = false) (s : Sys) (cls : TagCls) (a : MorphArgs S) (x : Analyzer S) (hx : construct s cls a = .ok x)
    (hu : ∃ item ∈ x.unitsUnbound, ∃ u ∈ item, u ≠ .dictionary ∧ u ≠ .unkn) : constructOn g s cls a = .error .attributeError := by
  obtain ⟨path, r, dl, est, m, h1, h2, h3, h4, h5, rfl⟩ := construct_ok hx
  simp only [mkMorph, bind_ok_iff, pure_eq_ok, Except.ok.injEq] at h5
  obtain ⟨b, h5, rfl⟩ := h5
  have hbad : ¬ ∀ item ∈ a.units.getD (defaultUnits (chooseLanguage dl a.lang')), ∀ u ∈ item, u.Plain := by
    intro H
    obtain ⟨i, hi, u, hu, hn⟩ := hu
    rcases H i hi u hu with h | h
    · exact hn.1 h
    · exact hn.2 h
  have h6 := initUnitsOn_error g hg _ hbad _ _ h5
  change choosePath s a.path a.lang' = _ at h1
  unfold constructOn
  change (choosePath s a.path a.lang' >>= _) = _
  rw [h1, ok_bind, h2, ok_bind, h3, ok_bind, h4, ok_bind]
  change (initUnitsOn g (a.units.getD (defaultUnits (chooseLanguage dl a.lang'))) r.2.1 >>= _) = _
  rw [h6]; rfl

/-- Without it no analyzer with the default units can be constructed: if the dictionary cannot be loaded (`MorphAnalyzer(…, units=[])` raises) the error is that one,
otherwise it is an `AttributeError`. -/
theorem c91_default (g : Interp) (hg : g.getargspec = false) (s : Sys) (cls : TagCls) (a : MorphArgs S) (hu : a.units = none) :
    constructOn g s cls a =
      match construct s cls ({ a with units := some [] } : MorphArgs S) with
      | .ok _ => .error .attributeError
      | .error e => .error e := by
  have hdef : ∀ (l : Str) (c : TagCls), initUnitsOn g (defaultUnits (S := S) l) c = .error .attributeError := by
    intro l c
    have h0 : ∀ c, (UnitSpec.dictionary : UnitSpec S).bindOn g 0 c = .ok (c, ⟨0, .dictionary⟩) := fun c => rfl
    have h1 : ∀ (ls : List Str) c, (UnitSpec.firstName (S := S) ls firstNamePattern (dec 1 10)).bindOn g 1 c = .error .attributeError := by
      intro ls c; simp [UnitSpec.bindOn, UnitSpec.ownInit, hg]
    unfold defaultUnits
    split
    · unfold initUnitsOn
      have : mapE flattenItem (ukUnits : List (List (UnitSpec S))) = .ok (ukUnits.map fun g => g.mapIdx fun i sp => (sp, decide (i + 1 = g.length))) := rfl
      rw [this, ok_bind]
      change (UnitSpec.bindOn g _ 0 c >>= _) = _
      rw [h0, ok_bind]
      change ((UnitSpec.bindOn g _ 1 c >>= _) >>= _) = _
      rw [h1]; rfl
    · unfold initUnitsOn
      have : mapE flattenItem (ruUnits : List (List (UnitSpec S))) = .ok (ruUnits.map fun g => g.mapIdx fun i sp => (sp, decide (i + 1 = g.length))) := rfl
      rw [this, ok_bind]
      change (UnitSpec.bindOn g _ 0 c >>= _) = _
      rw [h0, ok_bind]
      change ((UnitSpec.bindOn g _ 1 c >>= _) >>= _) = _
      rw [h1]; rfl
  unfold constructOn construct
  simp only [hu, Option.getD_none, Option.getD_some, hdef, error_bind]
  cases choosePath s a.path (if a.path = none ∧ a.lang = none then some (c!"ru") else a.lang) with
  | error e => rfl
  | ok path =>
    simp only [ok_bind]
    cases loadDict s.little (s.disk path) cls with
    | error e => rfl
    | ok r =>
      simp only [ok_bind]
      cases dictLang r.1 with
      | error e => rfl
      | ok dl =>
        simp only [ok_bind]
        cases loadEst (s.disk path) r.1 a.est with
        | error e => rfl
        | ok est => rfl

theorem getParamsOn_eq (g : Interp) (o : Obj S) :
    o.getParamsOn g = if g.getargspec = true ∨ o.cls ∈ [UClass.dictionary, .fakeDictionary, .unkn] then .ok o.getParams else .error .attributeError := by
  obtain ⟨c, attrs⟩ := o
  obtain ⟨b⟩ := g
  cases c <;> cases b <;> rfl

/-- Unit objects: without `inspect.getargspec` a unit can be cloned and printed exactly if it is a dictionary unit or the unit for unknown words;
where it can, the result is the usual one, elsewhere `AttributeError` is raised. -/
theorem c91_objects (g : Interp) (lists : List (List Str)) (py : Val S → Str) (o : Obj S) :
    (g.getargspec = true ∨ o.cls ∈ [UClass.dictionary, .fakeDictionary, .unkn] →
      o.cloneOn g lists = o.clone lists ∧ o.reprOn g py = .ok (o.repr py)) ∧
    (g.getargspec = false → o.cls ∉ [UClass.dictionary, .fakeDictionary, .unkn] →
      o.cloneOn g lists = .error .attributeError ∧ o.reprOn g py = .error .attributeError) := by
  constructor
  · intro h
    unfold Obj.cloneOn Obj.reprOn
    rw [getParamsOn_eq, if_pos h]
    exact ⟨rfl, rfl⟩
  · intro hg hn
    unfold Obj.cloneOn Obj.reprOn
    rw [getParamsOn_eq, if_neg (by simp only [hg, Bool.false_eq_true, false_or]; exact hn)]
    exact ⟨rfl, rfl⟩

/-! ### Examples -/

/-- The demonstration dictionary, on an old and on a new interpreter: the default analyzer, and one that only looks words up. -/
example : (constructOn (S := Rat) ⟨true⟩ Demo.sys TagCls.initial {}).map (fun x => (x.morph.units.length, x.lang)) = .ok (14, c!"ru") ∧
    (constructOn (S := Rat) ⟨false⟩ Demo.sys TagCls.initial {}).map (fun x => x.lang) = .error .attributeError ∧
    (constructOn (S := Rat) ⟨false⟩ Demo.sys TagCls.initial { units := some [[.dictionary], [.unkn]] }).map (fun x => x.morph.units.length) = .ok 2 ∧
    (constructOn (S := Rat) ⟨false⟩ Demo.sys TagCls.initial { lang := some (c!"xx") }).map (fun x => x.lang) = .error .valueError := by
  refine ⟨by decide +kernel, by decide +kernel, by decide +kernel, by decide +kernel⟩

end Verif
