/-
C69 — unit objects: cloning, sharing between analyzers, changes of the lists they were given.
-/
import Verif.Model.Objects
import Verif.Lemmas.PyDict
import Verif.Lemmas.Run
import Mathlib.Data.List.Forall2

set_option linter.unusedSectionVars false

namespace Verif

variable {S : Type} [Score S]

/-! ### Specification -/

/-- The class and the parameters of a unit, with the present contents of the lists it was given. -/
def Obj.spec (lists : List (List Str)) (o : Obj S) : Option (UnitSpec S) :=
  match o.cls with
  | .dictionary | .fakeDictionary => some .dictionary
  | .firstName => match o.get (c!"letters"), o.get (c!"tag_pattern"), o.get (c!"score") with
    | .strs a, .pattern p, .score s => (lists[a]?).map fun l => .firstName l p s
    | _, _, _ => none
  | .patronymic => match o.get (c!"letters"), o.get (c!"tag_pattern"), o.get (c!"score") with
    | .strs a, .pattern p, .score s => (lists[a]?).map fun l => .patronymic l p s
    | _, _, _ => none
  | .number => match o.get (c!"score") with
    | .score s => some (.number s)
    | _ => none
  | .punct => match o.get (c!"score") with
    | .score s => some (.punct s)
    | _ => none
  | .latin => match o.get (c!"score") with
    | .score s => some (.latin s)
    | _ => none
  | .roman => match o.get (c!"score") with
    | .score s => some (.roman s)
    | _ => none
  | .particle => match o.get (c!"particles_after_hyphen"), o.get (c!"score_multiplier") with
    | .strs a, .score s => (lists[a]?).map fun l => .particle l s
    | _, _ => none
  | .adverb => match o.get (c!"score_multiplier") with
    | .score s => some (.adverb s)
    | _ => none
  | .hyphenated => match o.get (c!"skip_prefixes"), o.get (c!"score_multiplier") with
    | .strs a, .score s => (lists[a]?).map fun l => .hyphenated l s
    | _, _ => none
  | .knownPrefix => match o.get (c!"known_prefixes"), o.get (c!"score_multiplier"), o.get (c!"min_remainder_length") with
    | .strs a, .score s, .nat n => (lists[a]?).map fun l => .knownPrefix l s n
    | _, _, _ => none
  | .unknownPrefix => match o.get (c!"score_multiplier") with
    | .score s => some (.unknownPrefix s)
    | _ => none
  | .knownSuffix => match o.get (c!"score_multiplier"), o.get (c!"min_word_length") with
    | .score s, .nat n => some (.knownSuffix s n)
    | _, _ => none
  | .unkn => some .unkn

/-- An argument has the type its parameter needs: lists are lists that exist, scores are numbers, … -/
def ArgOk (lists : List (List Str)) (k : Str) (v : Val S) : Prop :=
  (k ∈ [c!"letters", c!"particles_after_hyphen", c!"skip_prefixes", c!"known_prefixes"] → ∃ a, v = .strs a ∧ a < lists.length) ∧
  (k ∈ [c!"score", c!"score_multiplier"] → ∃ x, v = .score x) ∧
  (k ∈ [c!"min_remainder_length", c!"min_word_length"] → ∃ n, v = .nat n) ∧
  (k = c!"tag_pattern" → v = .none ∨ ∃ p, v = .pattern p)

/-- The action is one a correctly typed program may do. -/
def Action.Ok (h : Heap S) : Action S → Prop
  | .unit _ kwargs => ∀ e ∈ kwargs, ArgOk h.lists e.1 e.2
  | .morph items _ => ∀ u ∈ items.flatten, u < h.units.length
  | _ => True

/-- The state of a process after any number of actions. -/
inductive After : Heap S → Heap S → Prop
  | refl (h : Heap S) : After h h
  | step {h₁ h₂ h₃ : Heap S} (a : Action S) (before : After h₁ h₂) (ok : a.Ok h₂) (run : h₂.step a = .ok h₃) : After h₁ h₃

/-! ### One object -/

theorem Obj.get_set (o : Obj S) (k k' : Str) (v : Val S) : (o.set k v).get k' = if k' = k then v else o.get k' := by
  unfold Obj.get Obj.set
  rw [dictGet_dictSet]
  split <;> rfl

/-- The names of the parameters of a class. -/
def UClass.names (c : UClass) : List Str := (c.params (S := Rat)).map Prod.fst

theorem params_names (c : UClass) : (c.params (S := S)).map Prod.fst = c.names := by cases c <;> rfl

/-- Two objects with the same class and parameters. -/
def SameParams (a b : Obj S) : Prop := a.cls = b.cls ∧ ∀ k ∈ b.cls.names, a.get k = b.get k

theorem SameParams.spec {a b : Obj S} (h : SameParams a b) (lists : List (List Str)) : a.spec lists = b.spec lists := by
  obtain ⟨h1, h2⟩ := h
  unfold Obj.spec
  rw [h1]
  cases hc : b.cls <;> simp only <;> simp only [hc] at h2
  all_goals
    try rw [h2 (c!"letters") (by decide)]
    try rw [h2 (c!"tag_pattern") (by decide)]
    try rw [h2 (c!"score") (by decide)]
    try rw [h2 (c!"particles_after_hyphen") (by decide)]
    try rw [h2 (c!"score_multiplier") (by decide)]
    try rw [h2 (c!"skip_prefixes") (by decide)]
    try rw [h2 (c!"known_prefixes") (by decide)]
    try rw [h2 (c!"min_remainder_length") (by decide)]
    try rw [h2 (c!"min_word_length") (by decide)]

theorem SameParams.getParams {a b : Obj S} (h : SameParams a b) : a.getParams = b.getParams := by
  obtain ⟨h1, h2⟩ := h
  unfold Obj.getParams
  rw [h1]
  refine List.map_congr_left fun p hp => ?_
  rw [h2 p.1 (by rw [← params_names (S := S)]; exact List.mem_map.2 ⟨p, hp, rfl⟩)]

/-- The two models of binding a unit agree: the same exception, or the same tag class and results related by `P`. -/
def Agree {A : Type} (P : BUnit S → A → Prop) (x : Except PyErr (TagCls × BUnit S)) (y : Except PyErr (TagCls × A)) : Prop :=
  (∀ e, x = .error e → y = .error e) ∧ ∀ c' b, x = .ok (c', b) → ∃ k', y = .ok (c', k') ∧ P b k'

theorem Agree.bind {A B : Type} {P : BUnit S → A → Prop} (g : Except PyErr B) (f : B → Except PyErr (TagCls × BUnit S)) (f' : B → Except PyErr (TagCls × A))
    (h : ∀ v, Agree P (f v) (f' v)) : Agree P (g >>= f) (g >>= f') := by
  cases g with
  | error e => exact ⟨fun e' he => by cases he; rfl, fun c' b hb => by cases hb⟩
  | ok v => exact h v

theorem Agree.ok {A : Type} {P : BUnit S → A → Prop} (c : TagCls) (b : BUnit S) (k : A) (h : P b k) : Agree P (.ok (c, b)) (.ok (c, k)) :=
  ⟨fun e he => (by cases he), fun c' b' hb => by cases hb; exact ⟨k, rfl, h⟩⟩

/-- The bound unit `k'`: it reads what the parameters say, has the parameters of `o`, and belongs to the analyzer `m`. -/
def BoundTo (lists : List (List Str)) (o : Obj S) (m : Nat) (b : BUnit S) (k' : Obj S) : Prop :=
  k'.reads lists = some b.cfg ∧ SameParams k' o ∧ k'.get (c!"morph") = .morph m ∧ k'.get (c!"dict") = .morph m

theorem all1 {P : Str → Prop} {a : Str} (h : P a) : ∀ k ∈ [a], P k := by simpa using h
theorem all2 {P : Str → Prop} {a b : Str} (h : P a) (h' : P b) : ∀ k ∈ [a, b], P k := by simpa using ⟨h, h'⟩
theorem all3 {P : Str → Prop} {a b c : Str} (h : P a) (h' : P b) (h'' : P c) : ∀ k ∈ [a, b, c], P k := by simpa using ⟨h, h', h''⟩

/-- What cloning and binding a unit yields, in terms of its parameters. -/
theorem bound (lists : List (List Str)) (o : Obj S) (sp : UnitSpec S) (h : o.spec lists = some sp) (m inner : Nat) (cls : TagCls) :
    ∃ k, o.clone lists = .ok k ∧ SameParams k o ∧ ∀ id, Agree (BoundTo lists o m) (sp.bind id cls) (k.init lists m inner cls) := by
  obtain ⟨oc, attrs⟩ := o
  unfold Obj.spec at h
  cases oc <;> simp only at h
  case dictionary =>
    cases h
    exact ⟨⟨.dictionary, []⟩, rfl, ⟨rfl, fun k hk => (by cases hk)⟩, fun id => .ok _ _ _ ⟨rfl, ⟨rfl, fun k hk => by cases hk⟩, rfl, rfl⟩⟩
  case fakeDictionary =>
    cases h
    exact ⟨⟨.fakeDictionary, []⟩, rfl, ⟨rfl, fun k hk => (by cases hk)⟩, fun id => .ok _ _ _ ⟨rfl, ⟨rfl, fun k hk => by cases hk⟩, rfl, rfl⟩⟩
  case firstName =>
    split at h
    · next a p s h1 h2 h3 =>
      obtain ⟨l, hl, rfl⟩ := Option.map_eq_some_iff.1 h
      have hp : (pyGet lists a : Except PyErr (List Str)) = .ok l := by simp [pyGet, hl]
      refine ⟨⟨.firstName, [(c!"tag_pattern", .pattern p), (c!"score", .score s), (c!"letters", .strs a), (c!"_letters_set", .frozen l)]⟩, ?_, ⟨rfl, all3 h1.symm h3.symm h2.symm⟩, fun id => ?_⟩
      · unfold Obj.clone Obj.getParams
        simp only [UClass.params, List.map_cons, List.map_nil, h1, h2, h3]
        show (pyGet lists a >>= fun ls => _) = _
        rw [hp]
        rfl
      · unfold Obj.init UnitSpec.bind
        refine Agree.bind _ _ _ fun tags => Agree.bind _ _ _ fun masc => Agree.bind _ _ _ fun femn => ?_
        split
        · exact .ok _ _ _ ⟨rfl, ⟨rfl, all3 h1.symm h3.symm h2.symm⟩, rfl, rfl⟩
        · exact ⟨fun e he => (by cases he; rfl), fun c' b hb => by cases hb⟩
    · cases h
  case patronymic =>
    split at h
    · next a p s h1 h2 h3 =>
      obtain ⟨l, hl, rfl⟩ := Option.map_eq_some_iff.1 h
      have hp : (pyGet lists a : Except PyErr (List Str)) = .ok l := by simp [pyGet, hl]
      refine ⟨⟨.patronymic, [(c!"tag_pattern", .pattern p), (c!"score", .score s), (c!"letters", .strs a), (c!"_letters_set", .frozen l)]⟩, ?_, ⟨rfl, all3 h1.symm h3.symm h2.symm⟩, fun id => ?_⟩
      · unfold Obj.clone Obj.getParams
        simp only [UClass.params, List.map_cons, List.map_nil, h1, h2, h3]
        show (pyGet lists a >>= fun ls => _) = _
        rw [hp]
        rfl
      · unfold Obj.init UnitSpec.bind
        exact Agree.bind _ _ _ fun tags => .ok _ _ _ ⟨rfl, ⟨rfl, all3 h1.symm h3.symm h2.symm⟩, rfl, rfl⟩
    · cases h
  case number =>
    split at h
    · next s h1 =>
      cases h
      refine ⟨⟨.number, [(c!"score", .score s)]⟩, ?_, ⟨rfl, all1 h1.symm⟩, fun id => ?_⟩
      · unfold Obj.clone Obj.getParams
        simp only [UClass.params, List.map_cons, List.map_nil, h1]
        rfl
      · unfold Obj.init UnitSpec.bind
        exact Agree.bind _ _ _ fun ti => Agree.bind _ _ _ fun tr => .ok _ _ _ ⟨rfl, ⟨rfl, all1 h1.symm⟩, rfl, rfl⟩
    · cases h
  case punct =>
    split at h
    · next s h1 =>
      cases h
      refine ⟨⟨.punct, [(c!"score", .score s)]⟩, ?_, ⟨rfl, all1 h1.symm⟩, fun id => ?_⟩
      · unfold Obj.clone Obj.getParams
        simp only [UClass.params, List.map_cons, List.map_nil, h1]
        rfl
      · unfold Obj.init UnitSpec.bind
        exact Agree.bind _ _ _ fun t => .ok _ _ _ ⟨rfl, ⟨rfl, all1 h1.symm⟩, rfl, rfl⟩
    · cases h
  case latin =>
    split at h
    · next s h1 =>
      cases h
      refine ⟨⟨.latin, [(c!"score", .score s)]⟩, ?_, ⟨rfl, all1 h1.symm⟩, fun id => ?_⟩
      · unfold Obj.clone Obj.getParams
        simp only [UClass.params, List.map_cons, List.map_nil, h1]
        rfl
      · unfold Obj.init UnitSpec.bind
        exact Agree.bind _ _ _ fun t => .ok _ _ _ ⟨rfl, ⟨rfl, all1 h1.symm⟩, rfl, rfl⟩
    · cases h
  case roman =>
    split at h
    · next s h1 =>
      cases h
      refine ⟨⟨.roman, [(c!"score", .score s)]⟩, ?_, ⟨rfl, all1 h1.symm⟩, fun id => ?_⟩
      · unfold Obj.clone Obj.getParams
        simp only [UClass.params, List.map_cons, List.map_nil, h1]
        rfl
      · unfold Obj.init UnitSpec.bind
        exact Agree.bind _ _ _ fun t => .ok _ _ _ ⟨rfl, ⟨rfl, all1 h1.symm⟩, rfl, rfl⟩
    · cases h
  case particle =>
    split at h
    · next a s h1 h2 =>
      obtain ⟨l, hl, rfl⟩ := Option.map_eq_some_iff.1 h
      refine ⟨⟨.particle, [(c!"score_multiplier", .score s), (c!"particles_after_hyphen", .strs a)]⟩, ?_, ⟨rfl, all2 h1.symm h2.symm⟩, fun id => ?_⟩
      · unfold Obj.clone Obj.getParams
        simp only [UClass.params, List.map_cons, List.map_nil, h1, h2]
        rfl
      · refine .ok _ _ _ ⟨?_, ⟨rfl, all2 h1.symm h2.symm⟩, rfl, rfl⟩
        show (lists[a]?).map _ = _
        rw [hl]; rfl
    · cases h
  case adverb =>
    split at h
    · next s h1 =>
      cases h
      refine ⟨⟨.adverb, [(c!"score_multiplier", .score s)]⟩, ?_, ⟨rfl, all1 h1.symm⟩, fun id => ?_⟩
      · unfold Obj.clone Obj.getParams
        simp only [UClass.params, List.map_cons, List.map_nil, h1]
        rfl
      · unfold Obj.init UnitSpec.bind
        exact Agree.bind _ _ _ fun t => .ok _ _ _ ⟨rfl, ⟨rfl, all1 h1.symm⟩, rfl, rfl⟩
    · cases h
  case hyphenated =>
    split at h
    · next a s h1 h2 =>
      obtain ⟨l, hl, rfl⟩ := Option.map_eq_some_iff.1 h
      have hp : (pyGet lists a : Except PyErr (List Str)) = .ok l := by simp [pyGet, hl]
      refine ⟨⟨.hyphenated, [(c!"score_multiplier", .score s), (c!"skip_prefixes", .strs a)]⟩, ?_, ⟨rfl, all2 h2.symm h1.symm⟩, fun id => ?_⟩
      · unfold Obj.clone Obj.getParams
        simp only [UClass.params, List.map_cons, List.map_nil, h1, h2]
        rfl
      · unfold Obj.init UnitSpec.bind
        show Agree _ _ (pyGet lists a >>= fun l => _)
        rw [hp]
        exact .ok _ _ _ ⟨rfl, ⟨rfl, all2 h2.symm h1.symm⟩, rfl, rfl⟩
    · cases h
  case knownPrefix =>
    split at h
    · next a s n h1 h2 h3 =>
      obtain ⟨l, hl, rfl⟩ := Option.map_eq_some_iff.1 h
      have hp : (pyGet lists a : Except PyErr (List Str)) = .ok l := by simp [pyGet, hl]
      refine ⟨⟨.knownPrefix, [(c!"known_prefixes", .strs a), (c!"score_multiplier", .score s), (c!"min_remainder_length", .nat n)]⟩, ?_, ⟨rfl, all3 h1.symm h3.symm h2.symm⟩, fun id => ?_⟩
      · unfold Obj.clone Obj.getParams
        simp only [UClass.params, List.map_cons, List.map_nil, h1, h2, h3]
        rfl
      · unfold Obj.init UnitSpec.bind
        show Agree _ _ (pyGet lists a >>= fun l => _)
        rw [hp]
        exact .ok _ _ _ ⟨rfl, ⟨rfl, all3 h1.symm h3.symm h2.symm⟩, rfl, rfl⟩
    · cases h
  case unknownPrefix =>
    split at h
    · next s h1 =>
      cases h
      refine ⟨⟨.unknownPrefix, [(c!"score_multiplier", .score s)]⟩, ?_, ⟨rfl, all1 h1.symm⟩, fun id => .ok _ _ _ ⟨rfl, ⟨rfl, all1 h1.symm⟩, rfl, rfl⟩⟩
      unfold Obj.clone Obj.getParams
      simp only [UClass.params, List.map_cons, List.map_nil, h1]
      rfl
    · cases h
  case knownSuffix =>
    split at h
    · next s n h1 h2 =>
      cases h
      refine ⟨⟨.knownSuffix, [(c!"min_word_length", .nat n), (c!"score_multiplier", .score s)]⟩, ?_, ⟨rfl, all2 h2.symm h1.symm⟩, fun id => .ok _ _ _ ⟨rfl, ⟨rfl, all2 h2.symm h1.symm⟩, rfl, rfl⟩⟩
      unfold Obj.clone Obj.getParams
      simp only [UClass.params, List.map_cons, List.map_nil, h1, h2]
      rfl
    · cases h
  case unkn =>
    cases h
    refine ⟨⟨.unkn, []⟩, rfl, ⟨rfl, fun k hk => (by cases hk)⟩, fun id => ?_⟩
    unfold Obj.init UnitSpec.bind
    exact Agree.bind _ _ _ fun t => .ok _ _ _ ⟨rfl, ⟨rfl, fun k hk => by cases hk⟩, rfl, rfl⟩

/-! ### A new analyzer -/

/-- All units have proper parameters. -/
def Proper (lists : List (List Str)) (us : List (Obj S)) : Prop := ∀ o ∈ us, ∃ sp, o.spec lists = some sp

/-- The new unit `k` of analyzer `m` for the given unit at address `f.1`. -/
def UnitFor (lists : List (List Str)) (us us' : List (Obj S)) (m : Nat) (f : Nat × Bool) (z : (Nat × Bool) × (BUnit S × Bool)) : Prop :=
  z.1.2 = f.2 ∧ z.2.2 = f.2 ∧ ∃ o k, us[f.1]? = some o ∧ us'[z.1.1]? = some k ∧ BoundTo lists o m z.2.1 k

theorem innerObjs_proper (lists : List (List Str)) (c : UClass) (m : Nat) : Proper lists (innerObjs S c m) := by
  intro o ho
  unfold innerObjs at ho
  cases c <;> simp only [UClass.inner, List.mem_singleton, List.not_mem_nil] at ho <;> subst ho <;> exact ⟨_, rfl⟩

theorem getElem?_append_some {α : Type} {l l' : List α} {i : Nat} {a : α} (h : l[i]? = some a) : (l ++ l')[i]? = some a := by
  rw [List.getElem?_append_left (List.getElem?_eq_some_iff.1 h).1]; exact h

theorem bindObjs_spec (lists : List (List Str)) (m : Nat) (flat : List (Nat × Bool)) (sps : List (UnitSpec S × Bool)) (us₀ us : List (Obj S)) (cls : TagCls)
    (id : Nat) (hpre : us₀ <+: us) (hp : Proper lists us)
    (hs : List.Forall₂ (fun f s => f.2 = s.2 ∧ ∃ o, us₀[f.1]? = some o ∧ o.spec lists = some s.1) flat sps) :
    (∀ e, bindUnits sps id cls = .error e → bindObjs lists m flat us cls = .error e) ∧
    ∀ c' bus, bindUnits sps id cls = .ok (c', bus) → ∃ new refs zs, bindObjs lists m flat us cls = .ok (c', us ++ new, refs) ∧
      Proper lists (us ++ new) ∧ refs = zs.map Prod.fst ∧ bus = zs.map Prod.snd ∧ List.Forall₂ (UnitFor lists us₀ (us ++ new) m) flat zs ∧
      (∀ r ∈ refs, us.length ≤ r.1) ∧ (refs.map Prod.fst).Pairwise (· < ·) := by
  induction hs generalizing us cls id with
  | nil =>
    refine ⟨fun e he => (by cases he), fun c' bus hb => ?_⟩
    cases hb
    exact ⟨[], [], [], by simp [bindObjs], by simpa using hp, rfl, rfl, .nil, by simp, by simp⟩
  | @cons f s flat sps hfs hrest ih =>
    obtain ⟨u, t⟩ := f
    obtain ⟨sp, t'⟩ := s
    obtain ⟨ht, o, ho, hsp⟩ := hfs
    simp only at ht ho hsp
    subst ht
    obtain ⟨k, hk, hkc, hag⟩ := bound lists o sp hsp m (us.length + 1) cls
    obtain ⟨ag1, ag2⟩ := hag id
    have hou : us[u]? = some o := by obtain ⟨r, rfl⟩ := hpre; exact getElem?_append_some ho
    have hpy : (pyGet us u : Except PyErr (Obj S)) = .ok o := by simp [pyGet, hou]
    have hbu : boundUnit lists m us u cls = k.init lists m (us.length + 1) cls >>= fun r => pure (r.1, us ++ r.2 :: innerObjs S k.cls m) := by
      unfold boundUnit
      rw [hpy]
      show (o.clone lists >>= fun k => _) = _
      rw [hk]
      rfl
    unfold bindUnits bindObjs
    rw [hbu]
    cases hb : sp.bind id cls with
    | error e =>
      rw [ag1 e hb]
      exact ⟨fun e' he => (by cases he; rfl), fun c' bus hb => by cases hb⟩
    | ok r =>
      obtain ⟨c1, b⟩ := r
      obtain ⟨k', hk', hbt⟩ := ag2 c1 b hb
      rw [hk']
      have hp1 : Proper lists (us ++ k' :: innerObjs S k.cls m) := by
        intro x hx
        rcases List.mem_append.1 hx with hx | hx
        · exact hp x hx
        · rcases List.mem_cons.1 hx with rfl | hx
          · exact ⟨sp, by rw [hbt.2.1.spec]; exact hsp⟩
          · exact innerObjs_proper lists _ _ x hx
      obtain ⟨i1, i2⟩ := ih (us ++ k' :: innerObjs S k.cls m) c1 (id + 1) (hpre.trans (List.prefix_append _ _)) hp1
      constructor
      · intro e he
        cases hr : bindUnits sps (id + 1) c1 with
        | error e' =>
          have : e' = e := by
            have h' : (bindUnits sps (id + 1) c1 >>= fun rest => pure (rest.1, (b, t) :: rest.2)) = .error e := he
            rw [hr] at h'; cases h'; rfl
          subst this
          show (bindObjs lists m flat (us ++ k' :: innerObjs S k.cls m) c1 >>= fun q => _) = _
          rw [i1 e' hr]; rfl
        | ok rest =>
          have h' : (bindUnits sps (id + 1) c1 >>= fun rest => pure (rest.1, (b, t) :: rest.2)) = .error e := he
          rw [hr] at h'; cases h'
      · intro c' bus he
        have h' : (bindUnits sps (id + 1) c1 >>= fun rest => pure (rest.1, (b, t) :: rest.2)) = .ok (c', bus) := he
        cases hr : bindUnits sps (id + 1) c1 with
        | error e' => rw [hr] at h'; cases h'
        | ok rest =>
          obtain ⟨c2, bus'⟩ := rest
          rw [hr] at h'
          cases h'
          obtain ⟨new, refs, zs, j1, j2, j3, j4, j5, j6, j7⟩ := i2 _ bus' hr
          have hassoc : us ++ k' :: innerObjs S k.cls m ++ new = us ++ (k' :: innerObjs S k.cls m ++ new) := by simp
          refine ⟨k' :: innerObjs S k.cls m ++ new, (us.length, t) :: refs, ((us.length, t), (b, t)) :: zs, ?_, ?_, ?_, ?_, .cons ?_ ?_, ?_, ?_⟩
          · show (bindObjs lists m flat (us ++ k' :: innerObjs S k.cls m) c1 >>= fun q => _) = _
            rw [j1, hassoc]; rfl
          · rw [← hassoc]; exact j2
          · rw [j3]; rfl
          · rw [j4]; rfl
          · exact ⟨rfl, rfl, o, k', ho, by simp, hbt⟩
          · rw [← hassoc]; exact j5
          · intro r hr
            rcases List.mem_cons.1 hr with rfl | hr
            · exact Nat.le_refl _
            · have := j6 r hr
              simp only [List.length_append, List.length_cons] at this
              omega
          · rw [List.map_cons, List.pairwise_cons]
            refine ⟨fun x hx => ?_, j7⟩
            obtain ⟨r, hr, rfl⟩ := List.mem_map.1 hx
            have := j6 r hr
            simp only [List.length_append, List.length_cons] at this
            show us.length < r.1
            omega

/-- The parameters of the units given to a new analyzer. -/
def Given (h : Heap S) (items : List (List Nat)) (sps : List (List (UnitSpec S))) : Prop :=
  List.Forall₂ (List.Forall₂ fun u sp => ∃ o, h.units[u]? = some o ∧ o.spec h.lists = some sp) items sps

theorem forall₂_concat {α β : Type} {R : α → β → Prop} {l : List α} {a : α} {l' : List β} {b : β} (h : List.Forall₂ R (l ++ [a]) (l' ++ [b])) :
    List.Forall₂ R l l' ∧ R a b := by
  induction l generalizing l' with
  | nil =>
    cases l' with
    | nil => cases h with | cons h1 _ => exact ⟨.nil, h1⟩
    | cons x l' => exact absurd h.length_eq (by simp)
  | cons y l ih =>
    cases l' with
    | nil => exact absurd h.length_eq (by simp)
    | cons x l' =>
      cases h with
      | cons h1 h2 => exact ⟨.cons h1 (ih h2).1, (ih h2).2⟩

theorem flatten_agree {R : Nat → UnitSpec S → Prop} {items : List (List Nat)} {sps : List (List (UnitSpec S))} (hR : List.Forall₂ (List.Forall₂ R) items sps) :
    (∃ e, mapE flattenRefs items = .error e ∧ mapE flattenItem sps = .error e) ∨
    ∃ fl gl, mapE flattenRefs items = .ok fl ∧ mapE flattenItem sps = .ok gl ∧ fl.flatten.map Prod.fst = items.flatten ∧
      List.Forall₂ (fun (f : Nat × Bool) (s : UnitSpec S × Bool) => f.2 = s.2 ∧ R f.1 s.1) fl.flatten gl.flatten := by
  induction hR with
  | nil => exact .inr ⟨[], [], rfl, rfl, rfl, .nil⟩
  | @cons it sp items sps h1 h2 ih =>
    unfold mapE
    have key : (∃ e, flattenRefs it = .error e ∧ flattenItem sp = .error e) ∨ ∃ f g, flattenRefs it = .ok f ∧ flattenItem sp = .ok g ∧
        f.map Prod.fst = it ∧ List.Forall₂ (fun (f : Nat × Bool) (s : UnitSpec S × Bool) => f.2 = s.2 ∧ R f.1 s.1) f g := by
      unfold flattenRefs flattenItem
      rcases List.eq_nil_or_concat it with rfl | ⟨it', u, rfl⟩
      · cases h1
        exact .inl ⟨_, rfl, rfl⟩
      · rcases List.eq_nil_or_concat sp with rfl | ⟨sp', x, rfl⟩
        · simp at h1
        · simp only [List.getLast?_concat, List.dropLast_concat, List.concat_eq_append] at *
          refine .inr ⟨_, _, rfl, rfl, ?_, ?_⟩
          · simp [Function.comp_def]
          · have hlen := h1.length_eq
            simp only [List.length_append, List.length_singleton, Nat.add_right_cancel_iff] at hlen
            obtain ⟨h3, h4⟩ := forall₂_concat h1
            exact List.rel_append ((List.forall₂_map_left_iff.2 (List.forall₂_map_right_iff.2 (h3.imp fun _ _ h => ⟨rfl, h⟩)))) (.cons ⟨rfl, h4⟩ .nil)
    rcases key with ⟨e, k1, k2⟩ | ⟨f, g, k1, k2, k3, k4⟩
    · exact .inl ⟨e, by rw [k1]; rfl, by rw [k2]; rfl⟩
    · rw [k1, k2]
      rcases ih with ⟨e, i1, i2⟩ | ⟨fl, gl, i1, i2, i3, i4⟩
      · exact .inl ⟨e, by rw [i1]; rfl, by rw [i2]; rfl⟩
      · exact .inr ⟨f :: fl, g :: gl, by rw [i1]; rfl, by rw [i2]; rfl, by simp [k3, i3], List.rel_append k4 i4⟩

theorem newMorph_spec (h : Heap S) (hp : Proper h.lists h.units) (items : List (List Nat)) (sps : List (List (UnitSpec S))) (hg : Given h items sps) (cls : TagCls) :
    (∀ e, initUnits sps cls = .error e → h.newMorph items cls = .error e) ∧
    ∀ c' bus, initUnits sps cls = .ok (c', bus) → ∃ new us, h.newMorph items cls = .ok (c', { h with units := h.units ++ new, morphs := h.morphs ++ [us] }) ∧
      Proper h.lists (h.units ++ new) ∧
      List.Forall₂ (fun u r => ∃ o k, h.units[u]? = some o ∧ (h.units ++ new)[r]? = some k ∧ SameParams k o ∧
        k.get (c!"morph") = .morph h.morphs.length ∧ k.get (c!"dict") = .morph h.morphs.length) items.flatten (us.map Prod.fst) ∧
      List.Forall₂ (fun r b => r.2 = b.2 ∧ ∃ k, (h.units ++ new)[r.1]? = some k ∧ k.reads h.lists = some b.1.cfg) us bus ∧
      (us.map Prod.fst).Nodup ∧ (∀ r ∈ us, h.units.length ≤ r.1) := by
  unfold initUnits Heap.newMorph
  rcases flatten_agree hg with ⟨e, h1, h2⟩ | ⟨fl, gl, h1, h2, h3, h4⟩
  · rw [h1, h2]
    exact ⟨fun e' he => (by cases he; rfl), fun c' bus hb => by cases hb⟩
  · rw [h1, h2]
    obtain ⟨b1, b2⟩ := bindObjs_spec h.lists h.morphs.length fl.flatten gl.flatten h.units h.units cls 0 (List.prefix_refl _) hp h4
    refine ⟨fun e he => ?_, fun c' bus hb => ?_⟩
    · show (bindObjs h.lists h.morphs.length fl.flatten h.units cls >>= fun r => _) = _
      rw [b1 e he]; rfl
    · obtain ⟨new, refs, zs, j1, j2, j3, j4, j5, j6, j7⟩ := b2 c' bus hb
      refine ⟨new, refs, ?_, j2, ?_, ?_, ?_, j6⟩
      · show (bindObjs h.lists h.morphs.length fl.flatten h.units cls >>= fun r => _) = _
        rw [j1]; rfl
      · rw [← h3, j3, List.map_map]
        refine List.forall₂_map_left_iff.2 (List.forall₂_map_right_iff.2 (j5.imp fun f z hz => ?_))
        obtain ⟨-, -, o, k, ho, hk, -, hs, hm⟩ := hz
        exact ⟨o, k, ho, hk, hs, hm⟩
      · rw [j3, j4]
        refine List.forall₂_map_left_iff.2 (List.forall₂_map_right_iff.2 ?_)
        refine List.forall₂_same.2 fun z hz => ?_
        obtain ⟨f, hf, q1, q2, o, k, ho, hk, hr, -⟩ := forall₂_mem_right j5 hz
        exact ⟨q1.trans q2.symm, k, hk, hr⟩
      · exact j7.imp fun h => Nat.ne_of_lt h

/-! ### Constructing a unit -/

/-- The value of a parameter: the argument given, or the default. -/
def Value (kwargs : List (Str × Val S)) (p : Str × Option (Val S)) (v : Val S) : Prop :=
  dictGet p.1 kwargs = some v ∨ (dictGet p.1 kwargs = none ∧ p.2 = some v)

theorem bindArgs_ok (ps : List (Str × Option (Val S))) (kwargs a : List (Str × Val S)) :
    bindArgs ps kwargs = .ok a ↔ (∀ e ∈ kwargs, e.1 ∈ ps.map Prod.fst) ∧ List.Forall₂ (fun p e => e.1 = p.1 ∧ Value kwargs p e.2) ps a := by
  unfold bindArgs
  split
  · next hall =>
    have hall : ∀ e ∈ kwargs, e.1 ∈ ps.map Prod.fst := by
      intro e he
      have := List.all_eq_true.1 hall e he
      exact of_decide_eq_true this
    rw [mapE_ok_iff]
    refine ⟨fun h => ⟨hall, h.imp fun p e hpe => ?_⟩, fun h => h.2.imp fun p e hpe => ?_⟩
    · unfold Value
      cases hd : dictGet p.1 kwargs with
      | some v =>
        simp only [hd, Except.ok.injEq] at hpe
        subst hpe; exact ⟨rfl, .inl rfl⟩
      | none =>
        simp only [hd] at hpe
        cases hd2 : p.2 with
        | none => simp only [hd2] at hpe; cases hpe
        | some v =>
          simp only [hd2, Except.ok.injEq] at hpe
          subst hpe; exact ⟨rfl, .inr ⟨rfl, rfl⟩⟩
    · obtain ⟨e1, e2⟩ := e
      obtain ⟨rfl, hv | ⟨hv1, hv2⟩⟩ := hpe
      · simp only [hv]
      · simp only [hv1, hv2]
  · next hall =>
    refine ⟨fun h => (by cases h), fun h => absurd ?_ hall⟩
    exact List.all_eq_true.2 fun e he => decide_eq_true (h.1 e he)

theorem argOk_of {lists : List (List Str)} {kwargs : List (Str × Val S)} (hok : ∀ e ∈ kwargs, ArgOk lists e.1 e.2) {k : Str} {d : Option (Val S)} {v : Val S}
    (hv : Value kwargs (k, d) v) (hd : ∀ x, d = some x → ArgOk lists k x) : ArgOk lists k v := by
  rcases hv with h | ⟨-, h⟩
  · exact hok _ (dictGet_mem' _ _ _ h)
  · exact hd v h

/-- What the parameters of a newly constructed unit are. -/
def Takes (c : UClass) (kwargs : List (Str × Val S)) (o : Obj S) : Prop :=
  o.cls = c ∧ ∀ p ∈ c.params, ∃ v, Value kwargs p v ∧ (p.1 ≠ c!"tag_pattern" ∨ v ≠ .none → o.get p.1 = v) ∧
    (p.1 = c!"tag_pattern" → v = .none → ∃ q, c.tagPattern = some q ∧ o.get p.1 = .pattern q)

theorem takes_of {kwargs : List (Str × Val S)} {p : Str × Option (Val S)} {v : Val S} {o : Obj S} {c : UClass} (h : Value kwargs p v)
    (hn : p.1 ≠ c!"tag_pattern") (hg : o.get p.1 = v) : ∃ v, Value kwargs p v ∧ (p.1 ≠ c!"tag_pattern" ∨ v ≠ .none → o.get p.1 = v) ∧
    (p.1 = c!"tag_pattern" → v = .none → ∃ q, c.tagPattern = some q ∧ o.get p.1 = .pattern q) :=
  ⟨v, h, fun _ => hg, fun h => absurd h hn⟩

theorem argOk_score {lists : List (List Str)} {k : Str} (hk : k = c!"score" ∨ k = c!"score_multiplier") (x : S) : ArgOk lists k (.score x) := by
  unfold ArgOk
  rcases hk with rfl | rfl
  · exact ⟨fun h => absurd h (by decide), fun _ => ⟨x, rfl⟩, fun h => absurd h (by decide), fun h => absurd h (by decide)⟩
  · exact ⟨fun h => absurd h (by decide), fun _ => ⟨x, rfl⟩, fun h => absurd h (by decide), fun h => absurd h (by decide)⟩

theorem argOk_nat {lists : List (List Str)} {k : Str} (hk : k = c!"min_remainder_length" ∨ k = c!"min_word_length") (n : Nat) : ArgOk (S := S) lists k (.nat n) := by
  unfold ArgOk
  rcases hk with rfl | rfl
  · exact ⟨fun h => absurd h (by decide), fun h => absurd h (by decide), fun _ => ⟨n, rfl⟩, fun h => absurd h (by decide)⟩
  · exact ⟨fun h => absurd h (by decide), fun h => absurd h (by decide), fun _ => ⟨n, rfl⟩, fun h => absurd h (by decide)⟩

section
variable {lists : List (List Str)} {kwargs : List (Str × Val S)} (hok : ∀ e ∈ kwargs, ArgOk lists e.1 e.2)
include hok

theorem score_val {k : Str} {d : S} {v : Val S} (hk : k = c!"score" ∨ k = c!"score_multiplier") (h : Value kwargs (k, some (.score d)) v) : ∃ x, v = .score x := by
  have := argOk_of hok h fun x hx => by cases hx; exact argOk_score hk d
  exact this.2.1 (by rcases hk with rfl | rfl <;> decide)

theorem nat_val {k : Str} {d : Nat} {v : Val S} (hk : k = c!"min_remainder_length" ∨ k = c!"min_word_length") (h : Value kwargs (k, some (.nat d)) v) :
    ∃ x, v = .nat x := by
  have := argOk_of hok h fun x hx => by cases hx; exact argOk_nat hk d
  exact this.2.2.1 (by rcases hk with rfl | rfl <;> decide)

theorem list_val {k : Str} {v : Val S} (hk : k ∈ [c!"letters", c!"particles_after_hyphen", c!"skip_prefixes", c!"known_prefixes"])
    (h : Value kwargs (k, none) v) : ∃ a l, v = .strs a ∧ lists[a]? = some l := by
  have := argOk_of hok h fun x hx => by cases hx
  obtain ⟨a, rfl, ha⟩ := this.1 hk
  exact ⟨a, lists[a], rfl, List.getElem?_eq_getElem ha⟩

theorem pattern_val {v : Val S} (h : Value kwargs (c!"tag_pattern", some .none) v) : v = .none ∨ ∃ q, v = .pattern q := by
  have := argOk_of hok h fun x hx => by
    cases hx
    exact ⟨fun h => absurd h (by decide), fun h => absurd h (by decide), fun h => absurd h (by decide), fun _ => .inl rfl⟩
  exact this.2.2.2 rfl

theorem new_ok (c : UClass) (a : List (Str × Val S)) (ha : bindArgs c.params kwargs = .ok a) :
    ∃ o, runInit lists c a = .ok o ∧ Takes c kwargs o ∧ ∃ sp, o.spec lists = some sp := by
  obtain ⟨-, hf⟩ := (bindArgs_ok _ _ _).1 ha
  cases c
  case dictionary | fakeDictionary | unkn =>
    exact ⟨_, rfl, ⟨rfl, fun p hp => by cases hp⟩, _, rfl⟩
  case number | punct | latin | roman =>
    rcases hf with _ | ⟨⟨h1, v1⟩, _ | _⟩
    rename_i e
    obtain ⟨k, v⟩ := e
    simp only at h1 v1
    subst h1
    obtain ⟨x, rfl⟩ := score_val hok (.inl rfl) v1
    refine ⟨_, rfl, ⟨rfl, fun p hp => ?_⟩, _, rfl⟩
    simp only [UClass.params, List.mem_singleton] at hp
    subst hp
    exact takes_of v1 (by simp) rfl
  case adverb | unknownPrefix =>
    rcases hf with _ | ⟨⟨h1, v1⟩, _ | _⟩
    rename_i e
    obtain ⟨k, v⟩ := e
    simp only at h1 v1
    subst h1
    obtain ⟨x, rfl⟩ := score_val hok (.inr rfl) v1
    refine ⟨_, rfl, ⟨rfl, fun p hp => ?_⟩, _, rfl⟩
    simp only [UClass.params, List.mem_singleton] at hp
    subst hp
    exact takes_of v1 (by simp) rfl
  case particle =>
    rcases hf with _ | ⟨⟨h1, v1⟩, _ | ⟨⟨h2, v2⟩, _ | _⟩⟩
    rename_i e1 e2
    obtain ⟨k1, w1⟩ := e1
    obtain ⟨k2, w2⟩ := e2
    simp only at h1 v1 h2 v2
    subst h1 h2
    obtain ⟨a, l, rfl, hl⟩ := list_val hok (by decide) v1
    obtain ⟨x, rfl⟩ := score_val hok (.inr rfl) v2
    refine ⟨_, rfl, ⟨rfl, fun p hp => ?_⟩, .particle l x, ?_⟩
    · simp only [UClass.params, List.mem_cons, List.not_mem_nil, or_false] at hp
      rcases hp with rfl | rfl
      · exact takes_of v1 (by simp) rfl
      · exact takes_of v2 (by simp) rfl
    · show (lists[a]?).map _ = _
      rw [hl]; rfl
  case hyphenated =>
    rcases hf with _ | ⟨⟨h1, v1⟩, _ | ⟨⟨h2, v2⟩, _ | _⟩⟩
    rename_i e1 e2
    obtain ⟨k1, w1⟩ := e1
    obtain ⟨k2, w2⟩ := e2
    simp only at h1 v1 h2 v2
    subst h1 h2
    obtain ⟨x, rfl⟩ := score_val hok (.inr rfl) v1
    obtain ⟨a, l, rfl, hl⟩ := list_val hok (by decide) v2
    refine ⟨_, rfl, ⟨rfl, fun p hp => ?_⟩, .hyphenated l x, ?_⟩
    · simp only [UClass.params, List.mem_cons, List.not_mem_nil, or_false] at hp
      rcases hp with rfl | rfl
      · exact takes_of v1 (by simp) rfl
      · exact takes_of v2 (by simp) rfl
    · show (lists[a]?).map _ = _
      rw [hl]; rfl
  case knownSuffix =>
    rcases hf with _ | ⟨⟨h1, v1⟩, _ | ⟨⟨h2, v2⟩, _ | _⟩⟩
    rename_i e1 e2
    obtain ⟨k1, w1⟩ := e1
    obtain ⟨k2, w2⟩ := e2
    simp only at h1 v1 h2 v2
    subst h1 h2
    obtain ⟨n, rfl⟩ := nat_val hok (.inr rfl) v1
    obtain ⟨x, rfl⟩ := score_val hok (.inr rfl) v2
    refine ⟨_, rfl, ⟨rfl, fun p hp => ?_⟩, .knownSuffix x n, rfl⟩
    simp only [UClass.params, List.mem_cons, List.not_mem_nil, or_false] at hp
    rcases hp with rfl | rfl
    · exact takes_of v1 (by simp) rfl
    · exact takes_of v2 (by simp) rfl
  case knownPrefix =>
    rcases hf with _ | ⟨⟨h1, v1⟩, _ | ⟨⟨h2, v2⟩, _ | ⟨⟨h3, v3⟩, _ | _⟩⟩⟩
    rename_i e1 e2 e3
    obtain ⟨k1, w1⟩ := e1
    obtain ⟨k2, w2⟩ := e2
    obtain ⟨k3, w3⟩ := e3
    simp only at h1 v1 h2 v2 h3 v3
    subst h1 h2 h3
    obtain ⟨a, l, rfl, hl⟩ := list_val hok (by decide) v1
    obtain ⟨n, rfl⟩ := nat_val hok (.inl rfl) v2
    obtain ⟨x, rfl⟩ := score_val hok (.inr rfl) v3
    refine ⟨_, rfl, ⟨rfl, fun p hp => ?_⟩, .knownPrefix l x n, ?_⟩
    · simp only [UClass.params, List.mem_cons, List.not_mem_nil, or_false] at hp
      rcases hp with rfl | rfl | rfl
      · exact takes_of v1 (by simp) rfl
      · exact takes_of v2 (by simp) rfl
      · exact takes_of v3 (by simp) rfl
    · show (lists[a]?).map _ = _
      rw [hl]; rfl
  case firstName =>
    rcases hf with _ | ⟨⟨h1, v1⟩, _ | ⟨⟨h2, v2⟩, _ | ⟨⟨h3, v3⟩, _ | _⟩⟩⟩
    rename_i e1 e2 e3
    obtain ⟨k1, w1⟩ := e1
    obtain ⟨k2, w2⟩ := e2
    obtain ⟨k3, w3⟩ := e3
    simp only at h1 v1 h2 v2 h3 v3
    subst h1 h2 h3
    obtain ⟨a, l, rfl, hl⟩ := list_val hok (by decide) v1
    obtain ⟨x, rfl⟩ := score_val hok (.inl rfl) v2
    have hp : (pyGet lists a : Except PyErr (List Str)) = .ok l := by simp [pyGet, hl]
    rcases pattern_val hok v3 with rfl | ⟨q, rfl⟩
    · refine ⟨⟨.firstName, [(c!"tag_pattern", .pattern firstNamePattern), (c!"score", .score x), (c!"letters", .strs a), (c!"_letters_set", .frozen l)]⟩, ?_, ⟨rfl, fun p hp => ?_⟩, .firstName l firstNamePattern x, ?_⟩
      · show (pyGet lists a >>= fun ls => _) = _
        rw [hp]; rfl
      · simp only [UClass.params, List.mem_cons, List.not_mem_nil, or_false] at hp
        rcases hp with rfl | rfl | rfl
        · exact takes_of v1 (by simp) rfl
        · exact takes_of v2 (by simp) rfl
        · exact ⟨_, v3, fun h => absurd h (by simp), fun _ _ => ⟨_, rfl, rfl⟩⟩
      · show (lists[a]?).map _ = _
        rw [hl]; rfl
    · refine ⟨⟨.firstName, [(c!"tag_pattern", .pattern q), (c!"score", .score x), (c!"letters", .strs a), (c!"_letters_set", .frozen l)]⟩, ?_, ⟨rfl, fun p hp => ?_⟩, .firstName l q x, ?_⟩
      · show (pyGet lists a >>= fun ls => _) = _
        rw [hp]; rfl
      · simp only [UClass.params, List.mem_cons, List.not_mem_nil, or_false] at hp
        rcases hp with rfl | rfl | rfl
        · exact takes_of v1 (by simp) rfl
        · exact takes_of v2 (by simp) rfl
        · exact ⟨_, v3, fun _ => rfl, fun _ h => by cases h⟩
      · show (lists[a]?).map _ = _
        rw [hl]; rfl
  case patronymic =>
    rcases hf with _ | ⟨⟨h1, v1⟩, _ | ⟨⟨h2, v2⟩, _ | ⟨⟨h3, v3⟩, _ | _⟩⟩⟩
    rename_i e1 e2 e3
    obtain ⟨k1, w1⟩ := e1
    obtain ⟨k2, w2⟩ := e2
    obtain ⟨k3, w3⟩ := e3
    simp only at h1 v1 h2 v2 h3 v3
    subst h1 h2 h3
    obtain ⟨a, l, rfl, hl⟩ := list_val hok (by decide) v1
    obtain ⟨x, rfl⟩ := score_val hok (.inl rfl) v2
    have hp : (pyGet lists a : Except PyErr (List Str)) = .ok l := by simp [pyGet, hl]
    rcases pattern_val hok v3 with rfl | ⟨q, rfl⟩
    · refine ⟨⟨.patronymic, [(c!"tag_pattern", .pattern patronymicPattern), (c!"score", .score x), (c!"letters", .strs a), (c!"_letters_set", .frozen l)]⟩, ?_, ⟨rfl, fun p hp => ?_⟩, .patronymic l patronymicPattern x, ?_⟩
      · show (pyGet lists a >>= fun ls => _) = _
        rw [hp]; rfl
      · simp only [UClass.params, List.mem_cons, List.not_mem_nil, or_false] at hp
        rcases hp with rfl | rfl | rfl
        · exact takes_of v1 (by simp) rfl
        · exact takes_of v2 (by simp) rfl
        · exact ⟨_, v3, fun h => absurd h (by simp), fun _ _ => ⟨_, rfl, rfl⟩⟩
      · show (lists[a]?).map _ = _
        rw [hl]; rfl
    · refine ⟨⟨.patronymic, [(c!"tag_pattern", .pattern q), (c!"score", .score x), (c!"letters", .strs a), (c!"_letters_set", .frozen l)]⟩, ?_, ⟨rfl, fun p hp => ?_⟩, .patronymic l q x, ?_⟩
      · show (pyGet lists a >>= fun ls => _) = _
        rw [hp]; rfl
      · simp only [UClass.params, List.mem_cons, List.not_mem_nil, or_false] at hp
        rcases hp with rfl | rfl | rfl
        · exact takes_of v1 (by simp) rfl
        · exact takes_of v2 (by simp) rfl
        · exact ⟨_, v3, fun _ => rfl, fun _ h => by cases h⟩
      · show (lists[a]?).map _ = _
        rw [hl]; rfl
end

/-- **C69.** Constructing a unit: it succeeds exactly if all arguments have known names and none without default is missing; its parameters are the
arguments given or the defaults (for `tag_pattern`, the pattern of the class). -/
theorem c69_construct (lists : List (List Str)) (c : UClass) (kwargs : List (Str × Val S)) (hok : ∀ e ∈ kwargs, ArgOk lists e.1 e.2) :
    ((∃ o, c.new lists kwargs = .ok o) ↔ (∀ e ∈ kwargs, e.1 ∈ c.names) ∧ ∀ k, (k, none) ∈ c.params (S := S) → ∃ v, dictGet k kwargs = some v) ∧
    ∀ o, c.new lists kwargs = .ok o → Takes c kwargs o := by
  have key : ∀ o, c.new lists kwargs = .ok o → ∃ a, bindArgs c.params kwargs = .ok a ∧ Takes c kwargs o := by
    intro o ho
    unfold UClass.new at ho
    obtain ⟨a, ha, hr⟩ := (bind_ok_iff _ _ _).1 ho
    obtain ⟨o', ho', ht, -⟩ := new_ok hok c a ha
    rw [hr] at ho'
    cases ho'
    exact ⟨a, ha, ht⟩
  refine ⟨⟨?_, ?_⟩, fun o ho => (key o ho).choose_spec.2⟩
  · rintro ⟨o, ho⟩
    obtain ⟨a, ha, -⟩ := key o ho
    obtain ⟨h1, h2⟩ := (bindArgs_ok _ _ _).1 ha
    refine ⟨fun e he => by rw [← params_names (S := S)]; exact h1 e he, fun k hk => ?_⟩
    obtain ⟨e, -, -, hv | ⟨-, hv⟩⟩ := forall₂_mem_left h2 hk
    · exact ⟨_, hv⟩
    · cases hv
  · rintro ⟨h1, h2⟩
    have : ∃ a, bindArgs (c.params (S := S)) kwargs = .ok a := by
      have hf : ∀ p ∈ c.params (S := S), ∃ v, Value kwargs p v := by
        rintro ⟨k, d⟩ hp
        cases hd : dictGet k kwargs with
        | some v => exact ⟨v, .inl hd⟩
        | none =>
          cases d with
          | none => obtain ⟨v, hv⟩ := h2 k hp; rw [hd] at hv; cases hv
          | some v => exact ⟨v, .inr ⟨hd, rfl⟩⟩
      have : ∃ a : List (Str × Val S), List.Forall₂ (fun p e => e.1 = p.1 ∧ Value kwargs p e.2) (c.params (S := S)) a := by
        generalize c.params (S := S) = ps at hf
        clear h1 h2 key
        induction ps with
        | nil => exact ⟨[], .nil⟩
        | cons p ps ih =>
          obtain ⟨v, hv⟩ := hf p (by simp)
          obtain ⟨a, ha⟩ := ih fun p hp => hf p (by simp [hp])
          exact ⟨(p.1, v) :: a, .cons ⟨rfl, hv⟩ ha⟩
      obtain ⟨a, ha⟩ := this
      exact ⟨a, (bindArgs_ok _ _ _).2 ⟨fun e he => by rw [params_names]; exact h1 e he, ha⟩⟩
    obtain ⟨a, ha⟩ := this
    obtain ⟨o, ho, -⟩ := new_ok hok c a ha
    exact ⟨o, by unfold UClass.new; rw [ha]; exact ho⟩

/-! ### Histories -/

theorem spec_mono {lists lists' : List (List Str)} (hl : lists.length ≤ lists'.length) (o : Obj S) (h : ∃ sp, o.spec lists = some sp) :
    ∃ sp, o.spec lists' = some sp := by
  have key : ∀ (a : Nat) (f : List Str → UnitSpec S) sp, (lists[a]?).map f = some sp → ∃ sp', (lists'[a]?).map f = some sp' := by
    intro a f sp h
    obtain ⟨l, h1, -⟩ := Option.map_eq_some_iff.1 h
    have := (List.getElem?_eq_some_iff.1 h1).1
    rw [List.getElem?_eq_getElem (Nat.lt_of_lt_of_le this hl)]
    exact ⟨_, rfl⟩
  obtain ⟨sp, h⟩ := h
  unfold Obj.spec at h ⊢
  cases hc : o.cls <;> simp only [hc] at h ⊢
  all_goals
    first
    | exact ⟨_, rfl⟩
    | (split at h
       · first
         | exact key _ _ _ h
         | exact ⟨_, rfl⟩
       · cases h)

/-- What an action leaves as it is. -/
structure Extends (h h' : Heap S) : Prop where
  lists : h.lists.length ≤ h'.lists.length
  units : h.units <+: h'.units
  morphs : h.morphs <+: h'.morphs

theorem given_of_refs {h : Heap S} (hp : Proper h.lists h.units) (items : List (List Nat)) (hr : ∀ u ∈ items.flatten, u < h.units.length) :
    ∃ sps, Given h items sps := by
  have one : ∀ it : List Nat, (∀ u ∈ it, u < h.units.length) →
      ∃ sp, List.Forall₂ (fun u sp => ∃ o, h.units[u]? = some o ∧ o.spec h.lists = some sp) it sp := by
    intro it
    induction it with
    | nil => exact fun _ => ⟨[], .nil⟩
    | cons u it ih =>
      intro hu
      obtain ⟨sps, h1⟩ := ih fun u hu' => hu u (by simp [hu'])
      have hlt := hu u (by simp)
      obtain ⟨sp, hsp⟩ := hp h.units[u] (List.getElem_mem hlt)
      exact ⟨sp :: sps, .cons ⟨_, List.getElem?_eq_getElem hlt, hsp⟩ h1⟩
  induction items with
  | nil => exact ⟨[], .nil⟩
  | cons it items ih =>
    obtain ⟨sps, h1⟩ := ih fun u hu => hr u (by simp only [List.flatten_cons, List.mem_append]; exact .inr hu)
    obtain ⟨sp, h2⟩ := one it fun u hu => hr u (by simp only [List.flatten_cons, List.mem_append]; exact .inl hu)
    exact ⟨sp :: sps, .cons h2 h1⟩

theorem step_ext {h h' : Heap S} (a : Action S) (hp : Proper h.lists h.units) (ha : a.Ok h) (hs : h.step a = .ok h') : Proper h'.lists h'.units ∧ Extends h h' := by
  cases a with
  | list l =>
    cases hs
    exact ⟨fun o ho => spec_mono (by simp) o (hp o ho), by simp, List.prefix_refl _, List.prefix_refl _⟩
  | change a l =>
    cases hs
    exact ⟨fun o ho => spec_mono (by simp) o (hp o ho), by simp, List.prefix_refl _, List.prefix_refl _⟩
  | unit c kwargs =>
    obtain ⟨o, ho, hh⟩ := (bind_ok_iff _ _ _).1 hs
    cases hh
    obtain ⟨a, ha', hr⟩ := (bind_ok_iff _ _ _).1 ho
    obtain ⟨o', ho', -, hsp⟩ := new_ok ha c a ha'
    rw [hr] at ho'
    cases ho'
    refine ⟨fun x hx => ?_, Nat.le_refl _, List.prefix_append _ _, List.prefix_refl _⟩
    rcases List.mem_append.1 hx with hx | hx
    · exact hp x hx
    · rw [List.mem_singleton.1 hx]; exact hsp
  | morph items cls =>
    obtain ⟨r, hr, hh⟩ := (bind_ok_iff _ _ _).1 hs
    cases hh
    obtain ⟨sps, hg⟩ := given_of_refs hp items ha
    obtain ⟨n1, n2⟩ := newMorph_spec h hp items sps hg cls
    cases hi : initUnits sps cls with
    | error e => rw [n1 e hi] at hr; cases hr
    | ok q =>
      obtain ⟨new, us, j1, j2, -⟩ := n2 q.1 q.2 hi
      rw [j1] at hr
      cases hr
      exact ⟨j2, Nat.le_refl _, List.prefix_append _ _, List.prefix_append _ _⟩

theorem after_ext {h h' : Heap S} (hp : Proper h.lists h.units) (ha : After h h') : Proper h'.lists h'.units ∧ Extends h h' := by
  induction ha with
  | refl => exact ⟨hp, Nat.le_refl _, List.prefix_refl _, List.prefix_refl _⟩
  | step a _ ok run ih =>
    obtain ⟨h1, h2⟩ := ih
    obtain ⟨h3, h4⟩ := step_ext a h1 ok run
    exact ⟨h3, Nat.le_trans h2.lists h4.lists, h2.units.trans h4.units, h2.morphs.trans h4.morphs⟩

/-- A state of a process. -/
def Reached (h : Heap S) : Prop := After {} h

theorem Reached.proper {h : Heap S} (hr : Reached h) : Proper h.lists h.units := (after_ext (fun o ho => by cases ho) hr).1

/-- **C69.** Every unit can be cloned, at any time, also after it was bound to an analyzer: the clone has the class and the parameters of the unit. -/
theorem c69_clone (h : Heap S) (hr : Reached h) (o : Obj S) (ho : o ∈ h.units) : ∃ k, o.clone h.lists = .ok k ∧ SameParams k o := by
  obtain ⟨sp, hsp⟩ := hr.proper o ho
  obtain ⟨k, hk, hs, -⟩ := bound h.lists o sp hsp 0 0 TagCls.initial
  exact ⟨k, hk, hs⟩

/-- **C69.** A new analyzer: it is the one that the parameters of the given units describe, or raises what that raises.  Its units are new objects,
all different, one for each given unit (the same unit may be given several times), with its class and parameters; no object that was there before is
changed. -/
theorem c69_new_analyzer (h : Heap S) (hr : Reached h) (items : List (List Nat)) (sps : List (List (UnitSpec S))) (hg : Given h items sps) (cls : TagCls) :
    (∀ e, h.newMorph items cls = .error e ↔ initUnits sps cls = .error e) ∧
    ∀ c' h', h.newMorph items cls = .ok (c', h') → ∃ bus us new, initUnits sps cls = .ok (c', bus) ∧
      h' = { lists := h.lists, units := h.units ++ new, morphs := h.morphs ++ [us] } ∧
      List.Forall₂ (fun r b => r.2 = b.2 ∧ ∃ k, h'.units[r.1]? = some k ∧ k.reads h'.lists = some b.1.cfg) us bus ∧
      List.Forall₂ (fun u r => ∃ o k, h.units[u]? = some o ∧ h'.units[r]? = some k ∧ SameParams k o ∧
        k.get (c!"morph") = .morph h.morphs.length ∧ k.get (c!"dict") = .morph h.morphs.length) items.flatten (us.map Prod.fst) ∧
      (us.map Prod.fst).Nodup ∧ ∀ r ∈ us, h.units.length ≤ r.1 := by
  obtain ⟨n1, n2⟩ := newMorph_spec h hr.proper items sps hg cls
  cases hi : initUnits sps cls with
  | error e =>
    rw [n1 e hi]
    exact ⟨fun e' => Iff.rfl.trans (by simp), fun c' h' hh => by cases hh⟩
  | ok q =>
    obtain ⟨new, us, j1, -, j3, j4, j5, j6⟩ := n2 q.1 q.2 hi
    rw [j1]
    refine ⟨fun e => by simp, fun c' h' hh => ?_⟩
    cases hh
    exact ⟨q.2, us, new, rfl, rfl, j4, j3, j5, j6⟩

/-- What a unit reads later: the same, except for a list of particles that was changed. -/
theorem reads_later (lists lists' : List (List Str)) (hl : lists.length ≤ lists'.length) (k : Obj S) (cfg : UnitCfg S) (h : k.reads lists = some cfg) :
    (k.cls ≠ .particle ∧ k.reads lists' = some cfg) ∨ ∃ a l l' s, k.get (c!"particles_after_hyphen") = .strs a ∧ lists[a]? = some l ∧ lists'[a]? = some l' ∧
      cfg = .particle l s ∧ k.reads lists' = some (.particle l' s) := by
  by_cases hc : k.cls = .particle
  · right
    unfold Obj.reads at h ⊢
    simp only [hc] at h ⊢
    split at h
    · next a s h1 h2 =>
      obtain ⟨l, hla, rfl⟩ := Option.map_eq_some_iff.1 h
      have := (List.getElem?_eq_some_iff.1 hla).1
      refine ⟨a, l, lists'[a]'(Nat.lt_of_lt_of_le this hl), s, h1, hla, List.getElem?_eq_getElem _, rfl, ?_⟩
      rw [List.getElem?_eq_getElem (Nat.lt_of_lt_of_le this hl)]
      rfl
    · cases h
  · left
    refine ⟨hc, ?_⟩
    rw [← h]
    unfold Obj.reads
    cases hk : k.cls <;> first | rfl | exact absurd hk hc

/-- **C69.** Whatever a program does after an analyzer was constructed — making and changing lists, constructing units and other analyzers with the
same units —, the analyzer keeps its units, and they keep what they work with; only a list of particles is read again each time. -/
theorem c69_later (h h₁ h₂ : Heap S) (hr : Reached h) (items : List (List Nat)) (sps : List (List (UnitSpec S))) (hg : Given h items sps) (cls c' : TagCls)
    (bus : List (BUnit S × Bool)) (hi : initUnits sps cls = .ok (c', bus)) (hn : h.newMorph items cls = .ok (c', h₁)) (ha : After h₁ h₂) :
    ∃ us, h₂.morphs[h.morphs.length]? = some us ∧ List.Forall₂ (fun r b => r.2 = b.2 ∧ ∃ k, h₂.units[r.1]? = some k ∧
      (k.reads h₂.lists = some b.1.cfg ∨ ∃ a l l' s, k.get (c!"particles_after_hyphen") = .strs a ∧ h.lists[a]? = some l ∧ h₂.lists[a]? = some l' ∧
        b.1.cfg = .particle l s ∧ k.reads h₂.lists = some (.particle l' s))) us bus := by
  obtain ⟨new, us, j1, j2, -, j4, -⟩ := (newMorph_spec h hr.proper items sps hg cls).2 c' bus hi
  rw [j1] at hn
  cases hn
  obtain ⟨-, e1, e2, e3⟩ := after_ext j2 ha
  refine ⟨us, ?_, j4.imp fun r b hb => ?_⟩
  · obtain ⟨t, ht⟩ := e3
    rw [← ht]
    simp
  · obtain ⟨hb1, k, hk, hk2⟩ := hb
    obtain ⟨t, ht⟩ := e2
    refine ⟨hb1, k, by rw [← ht]; exact getElem?_append_some hk, ?_⟩
    rcases reads_later h.lists h₂.lists e1 k b.1.cfg hk2 with ⟨-, h3⟩ | h3
    · exact .inl h3
    · exact .inr h3

/-- **C69.** If none of the lists was changed, nothing is different. -/
theorem c69_unchanged (h h₁ h₂ : Heap S) (hr : Reached h) (items : List (List Nat)) (sps : List (List (UnitSpec S))) (hg : Given h items sps) (cls c' : TagCls)
    (bus : List (BUnit S × Bool)) (hi : initUnits sps cls = .ok (c', bus)) (hn : h.newMorph items cls = .ok (c', h₁)) (ha : After h₁ h₂)
    (hl : h.lists <+: h₂.lists) :
    ∃ us, h₂.morphs[h.morphs.length]? = some us ∧
      List.Forall₂ (fun r b => r.2 = b.2 ∧ ∃ k, h₂.units[r.1]? = some k ∧ k.reads h₂.lists = some b.1.cfg) us bus := by
  obtain ⟨us, h1, h2⟩ := c69_later h h₁ h₂ hr items sps hg cls c' bus hi hn ha
  refine ⟨us, h1, h2.imp fun r b hb => ⟨hb.1, ?_⟩⟩
  obtain ⟨-, k, hk, h3 | ⟨a, l, l', s, -, h4, h5, h6, h7⟩⟩ := hb
  · exact ⟨k, hk, h3⟩
  · obtain ⟨t, ht⟩ := hl
    rw [← ht, getElem?_append_some h4] at h5
    cases h5
    exact ⟨k, hk, by rw [h7, h6]⟩

/-- **C69.** Units given to an analyzer are never changed by it: they are the same objects, with the same attributes, in any later state. -/
theorem c69_given_unchanged (h h' : Heap S) (hr : Reached h) (ha : After h h') (i : Nat) (o : Obj S) (ho : h.units[i]? = some o) : h'.units[i]? = some o := by
  obtain ⟨-, -, ⟨t, ht⟩, -⟩ := after_ext hr.proper ha
  rw [← ht]
  exact getElem?_append_some ho

/-- **C69.** The `repr` of a unit names its class and its parameters, so the units of an analyzer look like the ones it was given. -/
theorem c69_repr (repr : Val S → Str) (k o : Obj S) (h : SameParams k o) : k.repr repr = o.repr repr := by
  unfold Obj.repr
  rw [h.getParams, h.1]

/-- **C69**, `repr(unit)`: the class with each parameter by name, in alphabetical order; the long lists of prefixes are not written out. -/
theorem c69_repr_text (py : Val S → Str) (attrs : List (Str × Val S)) (o : UClass → Obj S) (ho : ∀ c, o c = ⟨c, attrs⟩) :
    let val (k : Str) : Str := py (((attrs.find? fun e => e.1 = k).map Prod.snd).getD .none)
    (o .dictionary).repr py = c!"DictionaryAnalyzer()" ∧ (o .unkn).repr py = c!"UnknAnalyzer()" ∧ (o .fakeDictionary).repr py = c!"FakeDictionary()" ∧
    (o .firstName).repr py = c!"AbbreviatedFirstNameAnalyzer(letters=" ++ val (c!"letters") ++ c!", score=" ++ val (c!"score") ++ c!", tag_pattern=" ++
      val (c!"tag_pattern") ++ c!")" ∧
    (o .patronymic).repr py = c!"AbbreviatedPatronymicAnalyzer(letters=" ++ val (c!"letters") ++ c!", score=" ++ val (c!"score") ++ c!", tag_pattern=" ++
      val (c!"tag_pattern") ++ c!")" ∧
    (o .number).repr py = c!"NumberAnalyzer(score=" ++ val (c!"score") ++ c!")" ∧
    (o .punct).repr py = c!"PunctuationAnalyzer(score=" ++ val (c!"score") ++ c!")" ∧
    (o .latin).repr py = c!"LatinAnalyzer(score=" ++ val (c!"score") ++ c!")" ∧
    (o .roman).repr py = c!"RomanNumberAnalyzer(score=" ++ val (c!"score") ++ c!")" ∧
    (o .particle).repr py = c!"HyphenSeparatedParticleAnalyzer(particles_after_hyphen=" ++ val (c!"particles_after_hyphen") ++ c!", score_multiplier=" ++
      val (c!"score_multiplier") ++ c!")" ∧
    (o .adverb).repr py = c!"HyphenAdverbAnalyzer(score_multiplier=" ++ val (c!"score_multiplier") ++ c!")" ∧
    (o .hyphenated).repr py = c!"HyphenatedWordsAnalyzer(score_multiplier=" ++ val (c!"score_multiplier") ++ c!", skip_prefixes=<...>)" ∧
    (o .knownPrefix).repr py = c!"KnownPrefixAnalyzer(known_prefixes=<...>, min_remainder_length=" ++ val (c!"min_remainder_length") ++
      c!", score_multiplier=" ++ val (c!"score_multiplier") ++ c!")" ∧
    (o .unknownPrefix).repr py = c!"UnknownPrefixAnalyzer(score_multiplier=" ++ val (c!"score_multiplier") ++ c!")" ∧
    (o .knownSuffix).repr py = c!"KnownSuffixAnalyzer(min_word_length=" ++ val (c!"min_word_length") ++ c!", score_multiplier=" ++
      val (c!"score_multiplier") ++ c!")" := by
  have hg : ∀ (c : UClass) (k : Str), (⟨c, attrs⟩ : Obj S).get k = ((attrs.find? fun e => e.1 = k).map Prod.snd).getD .none := by
    intro c k
    unfold Obj.get
    congr 1
    show dictGet k attrs = _
    clear ho
    induction attrs with
    | nil => rfl
    | cons e l ih => by_cases h : e.1 = k <;> simp [dictGet, h, ih]
  simp only [ho]
  refine ⟨rfl, rfl, rfl, ?_⟩
  simp [Obj.repr, kwargsRepr, Obj.getParams, UClass.params, UClass.reprSkip, UClass.name, hg, List.intercalate]

/-! ### The shipped configurations, and concrete programs -/

/-- A program. -/
def Heap.run (h : Heap S) : List (Action S) → Except PyErr (Heap S)
  | [] => .ok h
  | a :: as => do
    let h' ← h.step a
    h'.run as

/-- The lists used so far are the first `n`, and all arguments have the right types. -/
def Action.Plain (n : Nat) : Action S → Prop
  | .unit _ kwargs => ∀ e ∈ kwargs, ∃ a, e.2 = .strs a ∧ a < n ∧ e.1 ∈ [c!"letters", c!"particles_after_hyphen", c!"skip_prefixes", c!"known_prefixes"]
  | .list _ => True
  | _ => False

theorem run_after {h₀ h : Heap S} {as : List (Action S)} {h' : Heap S} (hr : After h₀ h) (ha : ∀ a ∈ as, a.Plain h.lists.length) (run : h.run as = .ok h') :
    After h₀ h' := by
  induction as generalizing h with
  | nil => cases run; exact hr
  | cons a as ih =>
    obtain ⟨h1, hs, hrun⟩ := (bind_ok_iff _ _ _).1 run
    have hpl := ha a (by simp)
    have hok : a.Ok h := by
      cases a with
      | unit c kwargs =>
        intro e he
        obtain ⟨a, h2, h3, h4⟩ := hpl e he
        obtain ⟨k, v⟩ := e
        simp only at h2 h4
        subst h2
        simp only [List.mem_cons, List.not_mem_nil, or_false] at h4
        rcases h4 with rfl | rfl | rfl | rfl <;>
          exact ⟨fun _ => ⟨a, rfl, h3⟩, fun h => absurd h (by simp), fun h => absurd h (by simp), fun h => absurd h (by simp)⟩
      | list => trivial
      | change => cases hpl
      | morph => cases hpl
    refine ih (.step a hr hok hs) (fun b hb => ?_) hrun
    have hle : h.lists.length ≤ h1.lists.length := by
      cases a with
      | list l => cases hs; simp
      | change => cases hs; simp
      | unit c kwargs => obtain ⟨o, -, hh⟩ := (bind_ok_iff _ _ _).1 hs; cases hh; exact Nat.le_refl _
      | morph => cases hpl
    have := ha b (by simp [hb])
    cases b with
    | unit c kwargs => exact fun e he => (this e he).imp fun a h => ⟨h.1, Nat.lt_of_lt_of_le h.2.1 hle, h.2.2⟩
    | list => trivial
    | change => cases this
    | morph => cases this

/-- lang/ru/config.py:12-167: the lists. -/
def ruLists : List (Action S) := [.list ruInitialLetters, .list ruParticles, .list ruKnownPrefixes]

/-- lang/ru/config.py:169-192: the constructor calls of `DEFAULT_UNITS`. -/
def ruCalls : List (Action S) :=
  [.unit .dictionary [], .unit .firstName [(c!"letters", .strs 0)], .unit .patronymic [(c!"letters", .strs 0)],
   .unit .number [], .unit .punct [], .unit .roman [], .unit .latin [],
   .unit .particle [(c!"particles_after_hyphen", .strs 1)], .unit .adverb [],
   .unit .hyphenated [(c!"skip_prefixes", .strs 2)], .unit .knownPrefix [(c!"known_prefixes", .strs 2)],
   .unit .unknownPrefix [], .unit .knownSuffix [], .unit .unkn []]

/-- lang/ru/config.py:169-192: the nesting of `DEFAULT_UNITS`. -/
def ruItems : List (List Nat) := [[0, 1, 2], [3], [4], [5, 6], [7], [8], [9], [10], [11, 12], [13]]

/-- lang/uk/config.py:12-17, _prefixes.py: the lists. -/
def ukLists : List (Action S) := [.list ukInitialLetters, .list ukParticles, .list ukKnownPrefixes]

/-- lang/uk/config.py:22-44: the constructor calls of `DEFAULT_UNITS`. -/
def ukCalls : List (Action S) :=
  [.unit .dictionary [], .unit .firstName [(c!"letters", .strs 0)], .unit .patronymic [(c!"letters", .strs 0)], .unit .roman [], .unit .latin [],
   .unit .number [], .unit .punct [],
   .unit .particle [(c!"particles_after_hyphen", .strs 1)],
   .unit .hyphenated [(c!"skip_prefixes", .strs 2)], .unit .knownPrefix [(c!"known_prefixes", .strs 2)],
   .unit .unknownPrefix [], .unit .knownSuffix [], .unit .unkn []]

/-- lang/uk/config.py:22-44: the nesting of `DEFAULT_UNITS`. -/
def ukItems : List (List Nat) := [[0, 1, 2, 3, 4], [5], [6], [7], [8], [9], [10, 11], [12]]

theorem plain_calls (n : Nat) (hn : 3 ≤ n) : (∀ a ∈ (ruCalls : List (Action S)), a.Plain n) ∧ ∀ a ∈ (ukCalls : List (Action S)), a.Plain n := by
  constructor
  all_goals
    simp only [ruCalls, ukCalls, List.mem_cons, List.not_mem_nil, or_false, forall_eq_or_imp, forall_eq, Action.Plain]
    simp only [false_imp_iff, imp_true_iff, true_and, and_true, Val.strs.injEq, exists_eq_left', forall_const]
    simp only [true_or, or_true, and_true, true_and]
    omega

/-- The units of the Russian configuration. -/
def ruObjs (S : Type) [Score S] (L : List Str) : List (Obj S) := [
  ⟨.dictionary, []⟩,
  ⟨.firstName, [(c!"tag_pattern", .pattern firstNamePattern), (c!"score", .score (dec 1 10)), (c!"letters", .strs 0), (c!"_letters_set", .frozen L)]⟩,
  ⟨.patronymic, [(c!"tag_pattern", .pattern patronymicPattern), (c!"score", .score (dec 1 10)), (c!"letters", .strs 0), (c!"_letters_set", .frozen L)]⟩,
  ⟨.number, [(c!"score", .score (dec 9 10))]⟩,
  ⟨.punct, [(c!"score", .score (dec 9 10))]⟩,
  ⟨.roman, [(c!"score", .score (dec 9 10))]⟩,
  ⟨.latin, [(c!"score", .score (dec 9 10))]⟩,
  ⟨.particle, [(c!"score_multiplier", .score (dec 9 10)), (c!"particles_after_hyphen", .strs 1)]⟩,
  ⟨.adverb, [(c!"score_multiplier", .score (dec 7 10))]⟩,
  ⟨.hyphenated, [(c!"score_multiplier", .score (dec 75 100)), (c!"skip_prefixes", .strs 2)]⟩,
  ⟨.knownPrefix, [(c!"known_prefixes", .strs 2), (c!"score_multiplier", .score (dec 75 100)), (c!"min_remainder_length", .nat 3)]⟩,
  ⟨.unknownPrefix, [(c!"score_multiplier", .score (dec 5 10))]⟩,
  ⟨.knownSuffix, [(c!"min_word_length", .nat 4), (c!"score_multiplier", .score (dec 5 10))]⟩,
  ⟨.unkn, []⟩]

/-- The units of the Ukrainian configuration. -/
def ukObjs (S : Type) [Score S] (L : List Str) : List (Obj S) := [
  ⟨.dictionary, []⟩,
  ⟨.firstName, [(c!"tag_pattern", .pattern firstNamePattern), (c!"score", .score (dec 1 10)), (c!"letters", .strs 0), (c!"_letters_set", .frozen L)]⟩,
  ⟨.patronymic, [(c!"tag_pattern", .pattern patronymicPattern), (c!"score", .score (dec 1 10)), (c!"letters", .strs 0), (c!"_letters_set", .frozen L)]⟩,
  ⟨.roman, [(c!"score", .score (dec 9 10))]⟩,
  ⟨.latin, [(c!"score", .score (dec 9 10))]⟩,
  ⟨.number, [(c!"score", .score (dec 9 10))]⟩,
  ⟨.punct, [(c!"score", .score (dec 9 10))]⟩,
  ⟨.particle, [(c!"score_multiplier", .score (dec 9 10)), (c!"particles_after_hyphen", .strs 1)]⟩,
  ⟨.hyphenated, [(c!"score_multiplier", .score (dec 75 100)), (c!"skip_prefixes", .strs 2)]⟩,
  ⟨.knownPrefix, [(c!"known_prefixes", .strs 2), (c!"score_multiplier", .score (dec 75 100)), (c!"min_remainder_length", .nat 3)]⟩,
  ⟨.unknownPrefix, [(c!"score_multiplier", .score (dec 5 10))]⟩,
  ⟨.knownSuffix, [(c!"min_word_length", .nat 4), (c!"score_multiplier", .score (dec 5 10))]⟩,
  ⟨.unkn, []⟩]

theorem one_given {h : Heap S} {o : Obj S} {sp : UnitSpec S} {u : Nat} (h1 : h.units[u]? = some o) (h2 : o.spec h.lists = some sp) :
    ∃ o, h.units[u]? = some o ∧ o.spec h.lists = some sp := ⟨_, h1, h2⟩

theorem ru_given (L P K : List Str) : ∃ h : Heap S, Heap.run { lists := [L, P, K] } ruCalls = .ok h ∧ Given h ruItems
    [[.dictionary, .firstName L firstNamePattern (dec 1 10), .patronymic L patronymicPattern (dec 1 10)], [.number (dec 9 10)], [.punct (dec 9 10)],
     [.roman (dec 9 10), .latin (dec 9 10)], [.particle P (dec 9 10)], [.adverb (dec 7 10)], [.hyphenated K (dec 75 100)], [.knownPrefix K (dec 75 100) 3],
     [.unknownPrefix (dec 5 10), .knownSuffix (dec 5 10) 4], [.unkn]] := by
  refine ⟨{ lists := [L, P, K], units := ruObjs S L }, rfl, ?_⟩
  exact .cons (.cons (one_given rfl rfl) (.cons (one_given rfl rfl) (.cons (one_given rfl rfl) .nil))) (.cons (.cons (one_given rfl rfl) .nil)
    (.cons (.cons (one_given rfl rfl) .nil) (.cons (.cons (one_given rfl rfl) (.cons (one_given rfl rfl) .nil)) (.cons (.cons (one_given rfl rfl) .nil)
    (.cons (.cons (one_given rfl rfl) .nil) (.cons (.cons (one_given rfl rfl) .nil) (.cons (.cons (one_given rfl rfl) .nil)
    (.cons (.cons (one_given rfl rfl) (.cons (one_given rfl rfl) .nil)) (.cons (.cons (one_given rfl rfl) .nil) .nil)))))))))

theorem uk_given (L P K : List Str) : ∃ h : Heap S, Heap.run { lists := [L, P, K] } ukCalls = .ok h ∧ Given h ukItems
    [[.dictionary, .firstName L firstNamePattern (dec 1 10), .patronymic L patronymicPattern (dec 1 10), .roman (dec 9 10), .latin (dec 9 10)],
     [.number (dec 9 10)], [.punct (dec 9 10)], [.particle P (dec 9 10)], [.hyphenated K (dec 75 100)], [.knownPrefix K (dec 75 100) 3],
     [.unknownPrefix (dec 5 10), .knownSuffix (dec 5 10) 4], [.unkn]] := by
  refine ⟨{ lists := [L, P, K], units := ukObjs S L }, rfl, ?_⟩
  exact .cons (.cons (one_given rfl rfl) (.cons (one_given rfl rfl) (.cons (one_given rfl rfl) (.cons (one_given rfl rfl) (.cons (one_given rfl rfl) .nil)))))
    (.cons (.cons (one_given rfl rfl) .nil) (.cons (.cons (one_given rfl rfl) .nil) (.cons (.cons (one_given rfl rfl) .nil) (.cons (.cons (one_given rfl rfl) .nil)
    (.cons (.cons (one_given rfl rfl) .nil) (.cons (.cons (one_given rfl rfl) (.cons (one_given rfl rfl) .nil)) (.cons (.cons (one_given rfl rfl) .nil) .nil)))))))

theorem lists_after (L P K : List Str) : After ({} : Heap S) { lists := [L, P, K] } :=
  .step (.list K) (.step (.list P) (.step (.list L) (.refl _) trivial rfl) trivial rfl) trivial rfl

theorem run_lists (L P K : List Str) (as : List (Action S)) : Heap.run {} ([.list L, .list P, .list K] ++ as) = Heap.run { lists := [L, P, K] } as := rfl

/-- **C69.** Importing the shipped configurations makes the units the other theorems are about, with their default parameters. -/
theorem c69_default_units :
    (∃ h : Heap S, Heap.run {} (ruLists ++ ruCalls) = .ok h ∧ Reached h ∧ Given h ruItems ruUnits) ∧
    ∃ h : Heap S, Heap.run {} (ukLists ++ ukCalls) = .ok h ∧ Reached h ∧ Given h ukItems ukUnits := by
  constructor
  · obtain ⟨h, h1, h2⟩ := ru_given (S := S) ruInitialLetters ruParticles ruKnownPrefixes
    exact ⟨h, by rw [ruLists, run_lists, h1], run_after (lists_after _ _ _) (plain_calls 3 (Nat.le_refl _)).1 h1, h2⟩
  · obtain ⟨h, h1, h2⟩ := uk_given (S := S) ukInitialLetters ukParticles ukKnownPrefixes
    exact ⟨h, by rw [ukLists, run_lists, h1], run_after (lists_after _ _ _) (plain_calls 3 (Nat.le_refl _)).2 h1, h2⟩

/-- What the units of the analyzer at address `i` read. -/
def Heap.config (h : Heap S) (i : Nat) : List (Option (UnitCfg S) × Bool) :=
  ((h.morphs[i]?).getD []).map fun r => ((h.units[r.1]?).bind fun k => k.reads h.lists, r.2)

/-- A program: two lists, a particle unit and a prefix unit with them, an analyzer with the particle unit twice; then both lists are changed, and
a second analyzer is made with the same units. -/
def Demo.shared : List (Action Rat) :=
  [.list [c!"-то"], .list [c!"анти"], .unit .particle [(c!"particles_after_hyphen", .strs 0)], .unit .knownPrefix [(c!"known_prefixes", .strs 1)],
   .morph [[0, 0], [1]] TagCls.initial, .change 0 [c!"-ка"], .change 1 [c!"супер"], .morph [[0], [1]] TagCls.initial]

/-- **C69.** (A surprise.) Changing the list of particles changes an analyzer that already exists; changing the list of prefixes does not, only
analyzers made later have the new prefixes. -/
theorem c69_particles :
    (Heap.run {} (Demo.shared.take 5)).map (fun h => h.config 0) = .ok (
      [(some (.particle [c!"-то"] (dec 9 10)), false), (some (.particle [c!"-то"] (dec 9 10)), true),
       (some (.knownPrefix [c!"анти"] (dec 75 100) 3), true)]) ∧
    (Heap.run {} Demo.shared).map (fun h => h.config 0) = .ok (
      [(some (.particle [c!"-ка"] (dec 9 10)), false), (some (.particle [c!"-ка"] (dec 9 10)), true),
       (some (.knownPrefix [c!"анти"] (dec 75 100) 3), true)]) ∧
    (Heap.run {} Demo.shared).map (fun h => h.config 1) = .ok (
      [(some (.particle [c!"-ка"] (dec 9 10)), true), (some (.knownPrefix [c!"супер"] (dec 75 100) 3), true)]) := by
  decide +kernel

/-- A missing argument, and one with an unknown name. -/
example : (Heap.run (S := Rat) {} [.unit .particle []]).map (fun h => h.units.length) = .error .typeError ∧
    (Heap.run (S := Rat) {} [.list [], .unit .unkn [(c!"letters", .strs 0)]]).map (fun h => h.units.length) = .error .typeError := by
  decide +kernel

/-- The `repr` of a unit. -/
example : (Heap.run (S := Rat) {} [.list [c!"анти"], .unit .knownPrefix [(c!"known_prefixes", .strs 0)]]).map (fun h => h.units.map fun o =>
      o.repr fun v => match v with | .nat _ => c!"3" | .score _ => c!"0.75" | _ => c!"?") =
    .ok [c!"KnownPrefixAnalyzer(known_prefixes=<...>, min_remainder_length=3, score_multiplier=0.75)"] := by
  decide +kernel

end Verif
