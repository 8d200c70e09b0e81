/-
The constructor as a program does what the constructor as a function does.
-/
import Verif.Model.Conc

set_option linter.unusedSectionVars false

namespace Verif

namespace Prog

variable {σ α β : Type}

theorem bind_def (p : Prog σ α) (k : α → Prog σ β) : (p >>= k) = p.bind k := rfl

theorem pure_def (a : α) : (pure a : Prog σ α) = done (.ok a) := rfl

theorem run_bind_ok {p : Prog σ α} {k : α → Prog σ β} {s s' : σ} {a : α} (h : p.run s = (.ok a, s')) : (p.bind k).run s = (k a).run s' := by
  induction p generalizing s with
  | done r =>
    simp only [run, Prod.mk.injEq] at h
    obtain ⟨rfl, rfl⟩ := h
    rfl
  | act u n ih => exact ih s h

theorem run_bind_error {p : Prog σ α} {k : α → Prog σ β} {s s' : σ} {e : PyErr} (h : p.run s = (.error e, s')) :
    (p.bind k).run s = (.error e, s') := by
  induction p generalizing s with
  | done r =>
    simp only [run, Prod.mk.injEq] at h
    obtain ⟨rfl, rfl⟩ := h
    rfl
  | act u n ih => exact ih s h

end Prog

/-- The outcome and state of a program agree with the result of a function that returns the new state only if it succeeds. -/
def Agrees {σ α : Type} (x : Except PyErr α × σ) : Except PyErr (σ × α) → Prop
  | .ok r => x = (.ok r.2, r.1)
  | .error e => x.1 = .error e

theorem Agrees.bind {σ α β : Type} {p : Prog σ α} {k : α → Prog σ β} {s : σ} {y : Except PyErr (σ × α)} {k' : σ × α → Except PyErr (σ × β)}
    (h : Agrees (p.run s) y) (hk : ∀ r, y = .ok r → Agrees ((k r.2).run r.1) (k' r)) : Agrees ((p >>= k).run s) (y >>= k') := by
  cases y with
  | error e =>
    have hp : p.run s = (.error e, (p.run s).2) := Prod.ext h rfl
    rw [Prog.bind_def, Prog.run_bind_error hp]
    rfl
  | ok r =>
    rw [Prog.bind_def, Prog.run_bind_ok h]
    exact hk r rfl

theorem Agrees.lift {σ α β : Type} {x : Except PyErr α} {k : α → Prog σ β} {s : σ} {k' : α → Except PyErr (σ × β)}
    (hk : ∀ a, x = .ok a → Agrees ((k a).run s) (k' a)) : Agrees ((Prog.lift x >>= k).run s) (x >>= k') := by
  cases x with
  | error e => rfl
  | ok a => exact hk a rfl

theorem Agrees.steps {σ α β : Type} {p : Prog σ α} {k : α → Prog σ β} {s s' : σ} {a : α} {y : Except PyErr (σ × β)}
    (h : p.run s = (.ok a, s')) (hk : Agrees ((k a).run s') y) : Agrees ((p >>= k).run s) y := by
  rw [Prog.bind_def, Prog.run_bind_ok h]
  exact hk

/-- A part that leaves the state alone. -/
theorem Agrees.reads {σ α β : Type} {p : Prog σ α} {x : Except PyErr α} {k : α → Prog σ β} {s : σ} {k' : α → Except PyErr (σ × β)}
    (h : p.run s = (x, s)) (hk : ∀ a, x = .ok a → Agrees ((k a).run s) (k' a)) : Agrees ((p >>= k).run s) (x >>= k') := by
  cases x with
  | error e => rw [Prog.bind_def, Prog.run_bind_error h]; rfl
  | ok a => rw [Prog.bind_def, Prog.run_bind_ok h]; exact hk a rfl

theorem run_addKnown (l y : Str) (o : Bool) (c : TagCls) : (addKnownProg l y o).run c = (.ok (), c.addKnown l y o) := by
  unfold addKnownProg TagCls.addKnown
  rw [Prog.bind_def, Prog.run_bind_ok (a := !o && decide (l ∈ c.known)) (s' := c) rfl]
  split
  · rfl
  · rfl

theorem run_forEach_fold {σ β : Type} (f : β → Prog σ Unit) (g : σ → β → σ) (h : ∀ b s, (f b).run s = (.ok (), g s b)) (l : List β) (s : σ) :
    ∃ us, (Prog.forEach f l).run s = (.ok us, l.foldl g s) := by
  induction l generalizing s with
  | nil => exact ⟨[], rfl⟩
  | cons b bs ih =>
    obtain ⟨us, hu⟩ := ih (g s b)
    refine ⟨() :: us, ?_⟩
    rw [Prog.forEach, Prog.run_bind_ok (h b s), Prog.run_bind_ok hu]
    rfl

theorem run_forEach_mkTag (strs : List Str) (c : TagCls) : (Prog.forEach mkTagProg strs).run c = (mapE c.mkTag strs, c) := by
  induction strs with
  | nil => rfl
  | cons s ss ih =>
    rw [Prog.forEach, mapE]
    cases h : c.mkTag s with
    | error e =>
      have : (mkTagProg s).run c = (.error e, c) := by simp only [mkTagProg, Prog.read, Prog.run, h]; rfl
      rw [Prog.run_bind_error this]; rfl
    | ok t =>
      have : (mkTagProg s).run c = (.ok t, c) := by simp only [mkTagProg, Prog.read, Prog.run, h]; rfl
      rw [Prog.run_bind_ok this]
      cases h2 : mapE c.mkTag ss with
      | error e => rw [h2] at ih; rw [Prog.run_bind_error ih]; rfl
      | ok ts => rw [h2] at ih; rw [Prog.run_bind_ok ih]; rfl

theorem fillRows_fold (rows : List GramRow) (l : List (GramRow × Nat)) (c : TagCls) : TagCls.fillRows rows l c = l.foldl (fun c e =>
    { c with
      indices := fun g => if g = e.1.name then e.2 else c.indices g
      incompat := fun g => if g = e.1.name then incompatRow c.extraPlur rows e.1 else c.incompat g }) c := by
  induction l generalizing c with
  | nil => rfl
  | cons e l ih => obtain ⟨r, i⟩ := e; simp only [TagCls.fillRows, List.foldl_cons, ih]

/-- `_init_grammemes` statement by statement leaves the class `TagCls.init` describes. -/
theorem run_init (rows : List GramRow) (c : TagCls) : (initProg rows).run c = (.ok (), c.init rows) := by
  obtain ⟨us, h1⟩ := run_forEach_fold (fun r : GramRow => addKnownProg r.name r.alias_) (fun c r => c.addKnown r.name r.alias_)
    (fun r s => run_addKnown _ _ _ _) rows { c with known := ∅, lat2cyr := [], cyr2lat := [] }
  obtain ⟨vs, h2⟩ := run_forEach_fold (fillRowProg rows) _ (fun e s => rfl) rows.zipIdx ((c.initKnown rows).expandExtra rows)
  unfold initProg
  rw [Prog.bind_def, Prog.run_bind_ok (a := ()) (s' := { c with known := ∅ }) rfl,
    Prog.bind_def, Prog.run_bind_ok (a := ()) (s' := { c with known := ∅, cyr2lat := [] }) rfl,
    Prog.bind_def, Prog.run_bind_ok (a := ()) (s' := { c with known := ∅, cyr2lat := [], lat2cyr := [] }) rfl,
    Prog.bind_def, Prog.run_bind_ok h1,
    Prog.bind_def, Prog.run_bind_ok (a := ()) (s' := (c.initKnown rows).expandExtra rows) rfl,
    Prog.bind_def, Prog.run_bind_ok h2]
  unfold TagCls.init
  rw [fillRows_fold]
  rfl

theorem agrees_loadDict (little : Bool) (d : Disk) (c : TagCls) :
    Agrees ((loadDictProg little d).run c) (loadDict little d c >>= fun r => pure (r.2.1, r.1, r.2.2)) := by
  unfold loadDictProg loadDict
  simp only [bind_assoc]
  refine .lift fun m _ => .lift fun _ _ => .lift fun g _ => .lift fun rows _ => .steps (run_init rows c) ?_
  refine .lift fun strs _ => .reads (run_forEach_mkTag strs _) fun gramtab _ => .lift fun sj _ => .lift fun sf _ => .lift fun ps _ =>
    .lift fun ws _ => .lift fun pf _ => .lift fun pr _ => .lift fun msl _ => ?_
  rfl

theorem run_mkTag (s : Str) (c : TagCls) : (mkTagProg s).run c = (c.mkTag s, c) := rfl

theorem run_genderCase (pat : Str → Str → Str) (c : TagCls) : (genderCaseProg pat).run c = (genderCaseTags c pat, c) :=
  run_forEach_mkTag _ c

theorem run_filter (g : Str) (tags : List Tag) (c : TagCls) : (filterProg g tags).run c = (filterE (fun t => c.contains t g) tags, c) := rfl

variable {S : Type} [Score S]

theorem agrees_bind (sp : UnitSpec S) (id : Nat) (c : TagCls) : Agrees ((sp.bindProg id).run c) (sp.bind id c) := by
  cases sp with
  | firstName letters pat score =>
    refine .steps (run_addKnown _ _ _ _) (.steps (run_addKnown _ _ _ _) (.reads (run_genderCase _ _) fun tags _ => .reads (run_filter _ _ _) fun masc _ =>
      .reads (run_filter _ _ _) fun femn _ => ?_))
    change Agrees ((if tagsEq (masc ++ femn) tags then _ else _ : Prog TagCls (BUnit S)).run _) (if tagsEq (masc ++ femn) tags then _ else _)
    split
    · rfl
    · rfl
  | patronymic letters pat score =>
    exact .steps (run_addKnown _ _ _ _) (.steps (run_addKnown _ _ _ _) (.reads (run_genderCase _ _) fun tags _ => rfl))
  | number score =>
    exact .steps (run_addKnown _ _ _ _) (.steps (run_addKnown _ _ _ _) (.steps (run_addKnown _ _ _ _)
      (.reads (run_mkTag _ _) fun _ _ => .reads (run_mkTag _ _) fun _ _ => rfl)))
  | punct score => exact .steps (run_addKnown _ _ _ _) (.reads (run_mkTag _ _) fun _ _ => rfl)
  | latin score => exact .steps (run_addKnown _ _ _ _) (.reads (run_mkTag _ _) fun _ _ => rfl)
  | roman score => exact .steps (run_addKnown _ _ _ _) (.reads (run_mkTag _ _) fun _ _ => rfl)
  | adverb mult => exact .reads (run_mkTag _ _) fun _ _ => rfl
  | unkn => exact .steps (run_addKnown _ _ _ _) (.reads (run_mkTag _ _) fun _ _ => rfl)
  | _ => rfl

theorem agrees_bindUnits (sps : List (UnitSpec S × Bool)) (id : Nat) (c : TagCls) : Agrees ((bindUnitsProg sps id).run c) (bindUnits sps id c) := by
  induction sps generalizing id c with
  | nil => rfl
  | cons sp sps ih =>
    obtain ⟨sp, t⟩ := sp
    exact .bind (agrees_bind sp id c) fun r _ => .bind (ih (id + 1) r.1) fun r' _ => rfl

/-- What the constructor does under the lock is the function `construct`, and the class it leaves is the one in its result. -/
theorem agrees_locked (s : Sys) (a : MorphArgs S) (path : Str) (hp : choosePath s a.path a.lang1 = .ok path) (c : TagCls) :
    Agrees ((lockedPart s a path).run c) (construct s c a >>= fun x => pure (x.morph.cls, x)) := by
  have : construct s c a = (do
      let path ← choosePath s a.path a.lang1
      let r ← loadDict s.little (s.disk path) c
      let dl ← dictLang r.1
      let est ← loadEst (s.disk path) r.1 a.est
      let m ← mkMorph s.env r.2.2 r.2.1 (a.sub.getD (defaultSubst (chooseLanguage dl a.lang1))) (a.units.getD (defaultUnits (chooseLanguage dl a.lang1))) est
      pure ⟨m, chooseLanguage dl a.lang1, a.path, a.lang, a.resultType, a.units.getD (defaultUnits (chooseLanguage dl a.lang1))⟩) := rfl
  rw [this, hp]
  have h1 := agrees_loadDict s.little (s.disk path) c
  unfold lockedPart
  simp only [bind_assoc]
  change Agrees _ (loadDict s.little (s.disk path) c >>= _)
  cases hl : loadDict s.little (s.disk path) c with
  | error e =>
    rw [hl] at h1
    exact Agrees.bind (k' := fun _ => .error e) h1 fun r hr => by cases hr
  | ok r =>
    rw [hl] at h1
    refine .steps h1 (.lift fun dl _ => .lift fun est _ => ?_)
    simp only [mkMorph, initUnits, bind_assoc]
    exact .lift fun flat _ => .bind (agrees_bindUnits _ _ _) fun us _ => rfl

end Verif
