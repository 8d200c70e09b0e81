/-
C51: caches shared by threads.
-/
import Verif.Model.Caches
import Verif.Lemmas.Conc
import Verif.Lemmas.Serial
import Verif.Lemmas.PyDict
import Verif.Props.C48

namespace Verif

/-! ### Programs that others do not disturb -/

section Safe
variable {σ α β : Type}

/-- `p`, started when the state was `s0`, ends with an outcome in `Q` and keeps the invariant, whatever others do in between, as long as they
keep the invariant and move the state only along `le`. -/
inductive Safe (Inv : σ → Prop) (le : σ → σ → Prop) (Q : Except PyErr α → Prop) : σ → Prog σ α → Prop
  | done (s0 : σ) (r : Except PyErr α) (h : Q r) : Safe Inv le Q s0 (.done r)
  | act (s0 : σ) (u : σ → σ) (n : σ → Prog σ α) (h1 : ∀ s, Inv s → le s0 s → Inv (u s) ∧ le s (u s))
    (h2 : ∀ s, Inv s → le s0 s → Safe Inv le Q (u s) (n s)) : Safe Inv le Q s0 (.act u n)

variable {Inv : σ → Prop} {le : σ → σ → Prop}

/-- The order on states: reflexive and transitive. -/
structure Ord (le : σ → σ → Prop) : Prop where
  rf : ∀ a, le a a
  tr : ∀ a b c, le a b → le b c → le a c

theorem Safe.weaken (ho : Ord le) {s0 s1 : σ} {p : Prog σ α} {Q : Except PyErr α → Prop} (h : Safe Inv le Q s0 p) (hl : le s0 s1) :
    Safe Inv le Q s1 p := by
  cases h with
  | done _ _ h => exact .done _ _ h
  | act _ u n h1 h2 => exact .act _ _ _ (fun s hi hs => h1 s hi (ho.tr _ _ _ hl hs)) fun s hi hs => h2 s hi (ho.tr _ _ _ hl hs)

/-- One after another; the state may have moved on in between. -/
theorem Safe.bind (ho : Ord le) {s0 : σ} {p : Prog σ α} {k : α → Prog σ β} {Q : Except PyErr α → Prop}
    {Q' : Except PyErr β → Prop} (h : Safe Inv le Q s0 p) (hk : ∀ s1 a, le s0 s1 → Q (.ok a) → Safe Inv le Q' s1 (k a))
    (he : ∀ e, Q (.error e) → Q' (.error e)) : Safe Inv le Q' s0 (p.bind k) := by
  induction h with
  | done s0 x hx =>
    cases x with
    | ok a => exact hk s0 a (ho.rf s0) hx
    | error e => exact .done _ _ (he e hx)
  | act s0 u n h1 h2 ih =>
    exact .act _ _ _ h1 fun s hi hs => ih s hi hs fun s1 a hl => hk s1 a (ho.tr _ _ _ (ho.tr _ _ _ hs (h1 s hi hs).2) hl)

theorem Safe.mono {s0 : σ} {p : Prog σ α} {Q Q' : Except PyErr α → Prop} (h : Safe Inv le Q s0 p) (hq : ∀ r, Q r → Q' r) : Safe Inv le Q' s0 p := by
  induction h with
  | done s0 r h => exact .done _ _ (hq r h)
  | act s0 u n h1 _ ih => exact .act _ _ _ h1 ih

theorem Safe.read {s0 : σ} {f : σ → Except PyErr α} {Q : Except PyErr α → Prop} (ho : Ord le) (h : ∀ s, Inv s → le s0 s → Q (f s)) :
    Safe Inv le Q s0 (Prog.read f) :=
  .act _ _ _ (fun _ hi _ => ⟨hi, ho.rf _⟩) fun s hi hs => .done _ _ (h s hi hs)

theorem Safe.lift {s0 : σ} {x : Except PyErr α} : Safe Inv le (fun r => r = x) s0 (Prog.lift x) := .done _ _ rfl

/-- Threads without any lock: the invariant is kept and each thread ends as it should. -/
theorem safe_steps (ho : Ord le) (ps : List (Prog σ α)) (Q : Nat → Except PyErr α → Prop)
    (s0 : σ) (h0 : Inv s0) (hp : ∀ (i : Nat) (p : Prog σ α), ps[i]? = some p → Safe Inv le (Q i) s0 p) (c : Cfg σ α)
    (hs : Steps ⟨s0, none, ps.map Th.free⟩ c) :
    Inv c.st ∧ ∀ (i : Nat) (t : Th σ α), c.ths[i]? = some t → match t with
      | .free p => Safe Inv le (Q i) c.st p
      | .fin r => Q i r
      | _ => False := by
  generalize hc : (⟨s0, none, ps.map Th.free⟩ : Cfg σ α) = c0 at hs
  induction hs with
  | refl =>
    subst hc
    refine ⟨h0, fun i t ht => ?_⟩
    dsimp only at ht
    rw [List.getElem?_map] at ht
    cases hi : ps[i]? with
    | none => rw [hi] at ht; cases ht
    | some p =>
      rw [hi] at ht
      cases ht
      exact hp i p hi
  | tail _ h' ih =>
    obtain ⟨hi, hth⟩ := ih
    cases h' with
    | fail i e h => exact (hth i _ h).elim
    | acquire i p h ho => exact (hth i _ h).elim
    | access i u n h => exact (hth i _ h).elim
    | release i r h => exact (hth i _ h).elim
    | freeDone i r h =>
      refine ⟨hi, fun k t ht => ?_⟩
      dsimp only at ht
      rw [set_get _ _ _ _ _ h] at ht
      split at ht
      · rename_i hk; subst hk; cases ht
        cases hth k _ h with
        | done _ _ hq => exact hq
      · exact hth k t ht
    | freeAccess i u n h =>
      cases hth i _ h with
      | act _ _ _ h1 h2 =>
        have k1 := h1 _ hi (ho.rf _)
        refine ⟨k1.1, fun k t ht => ?_⟩
        dsimp only at ht ⊢
        rw [set_get _ _ _ _ _ h] at ht
        split at ht
        · rename_i hk; subst hk; cases ht
          exact h2 _ hi (ho.rf _)
        · have := hth k t ht
          cases t with
          | free p => exact Safe.weaken ho this k1.2
          | fin r => exact this
          | start call => exact this
          | inside p => exact this

end Safe

theorem Steps.trans {σ α : Type} {a b c : Cfg σ α} (h : Steps a b) (h' : Steps b c) : Steps a c := by
  induction h' with
  | refl => exact h
  | tail _ hs ih => exact .tail ih hs

/-! ### Latin letters and grammeme sets -/

/-- The entries of the caches are what the computation gives. -/
structure CacheOk (e : Env) (text : Nat → Tag) (s : Shared) : Prop where
  latin : ∀ c b, dictGet c s.latin = some b → isLatinChar e c = .ok b
  grams : ∀ o g, s.grams o = some g → g = (text o).grammemes

/-- Caches only grow. -/
def Grows (s s' : Shared) : Prop := ∀ o, (s.grams o).isSome → (s'.grams o).isSome

theorem grows_ord : Ord Grows := ⟨fun _ _ h => h, fun _ _ _ h h' o x => h' o (h o x)⟩

theorem latin_safe (e : Env) (text : Nat → Tag) (c : Char) (s0 : Shared) :
    Safe (CacheOk e text) Grows (fun r => r = isLatinChar e c) s0 (latinProg e c) := by
  refine .bind grows_ord (Q := fun r => ∃ x, r = .ok x ∧ ∀ b, x = some b → isLatinChar e c = .ok b)
    (.read grows_ord fun s hi _ => ⟨_, rfl, fun b hb => hi.latin c b hb⟩) ?_ ?_
  · rintro s1 hit _ ⟨x, hx, hb⟩
    cases hx
    cases hit with
    | some b => exact .done _ _ (hb b rfl).symm
    | none =>
      refine .bind grows_ord .lift ?_ ?_
      · intro s2 b _ hbe
        refine .act _ _ _ (fun s hi _ => ?_) fun s hi _ => .done _ _ ?_
        · split
          · exact ⟨hi, grows_ord.rf _⟩
          · refine ⟨⟨fun c' b' h => ?_, hi.grams⟩, grows_ord.rf _⟩
            simp only [dictGet_dictSet] at h
            split at h
            · rename_i hc; subst hc; cases h; exact hbe.symm
            · exact hi.latin c' b' h
        · cases hg : dictGet c s.latin with
          | none => exact hbe
          | some b' => exact (hi.latin c b' hg).symm
      · rintro x hx; exact hx
  · rintro x ⟨_, hx, _⟩; cases hx

theorem grams_safe (e : Env) (text : Nat → Tag) (o : Nat) (s0 : Shared) :
    Safe (CacheOk e text) Grows (fun r => r = .ok (some (text o).grammemes)) s0 (grammemesProg o (text o)) := by
  refine .act _ _ _ (fun s hi _ => ⟨hi, grows_ord.rf _⟩) fun s hi _ => ?_
  have last : ∀ s1 : Shared, (s1.grams o).isSome →
      Safe (CacheOk e text) Grows (fun r => r = .ok (some (text o).grammemes)) s1 (Prog.read fun s => .ok (s.grams o)) := by
    intro s1 h1
    refine .read grows_ord fun s hi hg => ?_
    obtain ⟨g, hg'⟩ := Option.isSome_iff_exists.1 (hg o h1)
    rw [hg', hi.grams o g hg']
  cases hm : s.grams o with
  | some g =>
    simp only [hm, Option.isNone_some]
    exact last _ (by simp [hm])
  | none =>
    simp only [hm, Option.isNone_none]
    refine .act _ _ _ (fun s hi _ => ⟨⟨hi.latin, fun o' g h => ?_⟩, fun o' h => ?_⟩) fun s hi _ => last _ (by simp)
    · dsimp only at h
      split at h
      · rename_i ho; subst ho; cases h; rfl
      · exact hi.grams o' g h
    · dsimp only
      split
      · rfl
      · exact h

theorem client_safe {α : Type} (e : Env) (text : Nat → Tag) (cl : Client α) (s0 : Shared) :
    Safe (CacheOk e text) Grows (fun r => r = cl.eval e text) s0 (cl.prog e text) := by
  induction cl generalizing s0 with
  | ret r => exact .done _ _ rfl
  | latin c k ih =>
    refine .bind grows_ord (latin_safe e text c s0) (fun s1 b _ hb => ?_) fun x hx => ?_
    · rw [Client.eval, ← hb]; exact ih b s1
    · rw [Client.eval, ← hx]
  | grams o k ih =>
    rw [Client.prog, Client.eval]
    refine .bind grows_ord (grams_safe e text o s0) (fun s1 b _ hb => ?_) fun x hx => ?_
    · cases hb; exact ih _ s1
    · cases hx

theorem onCls_safe {α : Type} (e : Env) (text : Nat → Tag) (p : Prog TagCls α) (s0 : Shared) :
    Safe (CacheOk e text) Grows (fun _ => True) s0 p.onCls := by
  induction p generalizing s0 with
  | done r => exact .done _ _ trivial
  | act u n ih => exact .act _ _ _ (fun s hi _ => ⟨⟨hi.latin, hi.grams⟩, grows_ord.rf _⟩) fun s _ _ => ih s.cls _

/-- **C51.** Any number of threads, each doing any computation that uses the Latin letter cache and the grammeme sets of shared tag objects
(`clients`), or anything at all with the tag class, such as loading dictionaries (`loaders`).  Whatever was cached before and under every
interleaving, without any lock: a client that ends gets what it would compute without caches. -/
theorem c51_transparent {α : Type} (e : Env) (text : Nat → Tag) (clients : List (Client α)) (loaders : List (Prog TagCls α)) (s : Shared)
    (hs : CacheOk e text s) (c : Cfg Shared α)
    (hc : Steps ⟨s, none, (clients.map (Client.prog e text) ++ loaders.map Prog.onCls).map Th.free⟩ c) (i : Nat) (cl : Client α)
    (hi : clients[i]? = some cl) (r : Except PyErr α) (hr : c.ths[i]? = some (.fin r)) : r = cl.eval e text := by
  have h := safe_steps grows_ord (clients.map (Client.prog e text) ++ loaders.map Prog.onCls)
    (fun i r => ∀ cl, clients[i]? = some cl → r = cl.eval e text) s hs ?_ c hc
  · exact h.2 i _ hr cl hi
  · intro j p hp
    rw [List.getElem?_append] at hp
    split at hp
    · rw [List.getElem?_map] at hp
      cases hj : clients[j]? with
      | none => rw [hj] at hp; cases hp
      | some cl' =>
        rw [hj] at hp
        cases hp
        have := client_safe e text cl' s
        refine Safe.mono this ?_
        rintro r rfl cl h
        cases h; rfl
    · rename_i hlt
      rw [List.getElem?_map] at hp
      cases hj : loaders[j - (clients.map (Client.prog e text)).length]? with
      | none => rw [hj] at hp; cases hp
      | some q =>
        rw [hj] at hp
        cases hp
        refine Safe.mono (onCls_safe e text q s) fun r _ cl h => ?_
        have := (List.getElem?_eq_some_iff.1 h).1
        rw [List.length_map] at hlt
        exact absurd this hlt

theorem trivially_safe {σ α : Type} (p : Prog σ α) (s : σ) : Safe (fun _ => True) (fun _ _ => True) (fun _ => True) s p := by
  induction p generalizing s with
  | done r => exact .done _ _ trivial
  | act u n ih => exact .act _ _ _ (fun _ _ _ => ⟨trivial, trivial⟩) fun s _ _ => ih s _

/-- **C51.** And no schedule blocks: without locks every thread can always go on. -/
theorem c51_no_blocking {σ α : Type} (ps : List (Prog σ α)) (s : σ) (c : Cfg σ α) (hc : Steps ⟨s, none, ps.map Th.free⟩ c) (i : Nat) (t : Th σ α)
    (hi : c.ths[i]? = some t) : (∃ r, t = .fin r) ∨ ∃ c', Step c c' := by
  have h := (safe_steps (Inv := fun _ => True) (le := fun _ _ => True) ⟨fun _ => trivial, fun _ _ _ _ _ => trivial⟩ ps (fun _ _ => True) s trivial ?_ c hc).2 i t hi
  · cases t with
    | fin r => exact .inl ⟨r, rfl⟩
    | free p =>
      cases p with
      | done r => exact .inr ⟨_, .freeDone c i r hi⟩
      | act u n => exact .inr ⟨_, .freeAccess c i u n hi⟩
    | start call => exact h.elim
    | inside p => exact h.elim
  · intro _ p _
    exact trivially_safe p s

/-! ### `is_latin` -/

theorem allLatin_safe (e : Env) (text : Nat → Tag) (w : Str) (s0 : Shared) :
    Safe (CacheOk e text) Grows (fun r => r = allLatin e w) s0 (allLatinProg e w) := by
  induction w generalizing s0 with
  | nil => exact .done _ _ rfl
  | cons c cs ih =>
    unfold allLatinProg allLatin
    split
    · refine .bind grows_ord (latin_safe e text c s0) (fun s1 b _ hb => ?_) fun x hx => ?_
      · rw [← hb]
        cases b with
        | true => exact ih s1
        | false => exact .done _ _ rfl
      · rw [← hx]; rfl
    · exact ih s0

/-- **C51.** `is_latin(token)` in any number of threads, for any tokens, sharing the cache: every call gives what C46 says. -/
theorem c51_is_latin (e : Env) (tokens : List Str) (s : Shared) (text : Nat → Tag) (hs : CacheOk e text s) (c : Cfg Shared Bool)
    (hc : Steps ⟨s, none, (tokens.map (isLatinProg e)).map Th.free⟩ c) (i : Nat) (w : Str) (hi : tokens[i]? = some w) (r : Except PyErr Bool)
    (hr : c.ths[i]? = some (.fin r)) : r = isLatin e w := by
  have h := safe_steps grows_ord (tokens.map (isLatinProg e)) (fun i r => ∀ w, tokens[i]? = some w → r = isLatin e w) s hs ?_ c hc
  · exact h.2 i _ hr w hi
  · intro j p hp
    rw [List.getElem?_map] at hp
    cases hj : tokens[j]? with
    | none => rw [hj] at hp; cases hp
    | some w' =>
      rw [hj] at hp
      cases hp
      unfold isLatinProg
      split
      · rename_i hany
        refine Safe.mono (allLatin_safe e text w' s) fun r hr w h => ?_
        cases h; rw [hr, isLatin, if_pos hany]
      · rename_i hany
        refine .done _ _ fun w h => ?_
        cases h; rw [isLatin, if_neg hany]

/-! ### The memoisation decorator -/

/-- **C51.** A function decorated with `memoized_with_single_argument`, called from any number of threads: every call that ends gives the
result of the function (or its exception, which is not cached). -/
theorem c51_memo {α β : Type} [DecidableEq α] (f : α → Except PyErr β) (args : List α) (cache : List (α × β))
    (h0 : ∀ a b, dictGet a cache = some b → f a = .ok b) (c : Cfg (List (α × β)) β)
    (hc : Steps ⟨cache, none, (args.map (memoProg f)).map Th.free⟩ c) :
    (∀ a b, dictGet a c.st = some b → f a = .ok b) ∧
    ∀ (i : Nat) a r, args[i]? = some a → c.ths[i]? = some (.fin r) → r = f a := by
  have ho : Ord fun s s' : List (α × β) => ∀ a, (dictGet a s).isSome → (dictGet a s').isSome :=
    ⟨fun _ _ h => h, fun _ _ _ h h' a x => h' a (h a x)⟩
  have h := safe_steps (Inv := fun s => ∀ a b, dictGet a s = some b → f a = .ok b) ho (args.map (memoProg f))
    (fun i r => ∀ a, args[i]? = some a → r = f a) cache h0 ?_ c hc
  · exact ⟨h.1, fun i a r ha hr => h.2 i _ hr a ha⟩
  · intro j p hp
    rw [List.getElem?_map] at hp
    cases hj : args[j]? with
    | none => rw [hj] at hp; cases hp
    | some a =>
      rw [hj] at hp
      cases hp
      suffices hs : Safe (fun s => ∀ a b, dictGet a s = some b → f a = .ok b) (fun s s' => ∀ a, (dictGet a s).isSome → (dictGet a s').isSome)
          (fun r => r = f a) cache (memoProg f a) by
        refine Safe.mono hs fun r hr a' h => ?_
        cases h; exact hr
      refine .act _ _ _ (fun s hi _ => ⟨hi, ho.rf _⟩) fun s hi _ => ?_
      cases hm : dictGet a s with
      | some b =>
        simp only [hm, Option.isSome_some]
        refine .act _ _ _ (fun s hi _ => ⟨hi, ho.rf _⟩) fun s' hi' hle => .done _ _ ?_
        obtain ⟨b', hb'⟩ := Option.isSome_iff_exists.1 (hle a (by simp [hm]))
        simp only [hb']
        exact (hi' a b' hb').symm
      | none =>
        simp only [hm, Option.isSome_none]
        cases hf : f a with
        | error x => exact .done _ _ rfl
        | ok b =>
          refine .act _ _ _ (fun s hi _ => ⟨fun a' b' h => ?_, fun a' h => ?_⟩) fun s hi _ => .done _ _ rfl
          · rw [dictGet_dictSet] at h
            split at h
            · rename_i e; subst e; cases h; exact hf
            · exact hi a' b' h
          · rw [dictGet_dictSet]
            split
            · rfl
            · exact h

/-! ### The Cyrillic caches depend on the class -/

/-- The Cyrillic caches hold what the class `C` gives. -/
structure CyrOk (sp : Char → Bool) (text : Nat → Tag) (C : TagCls) (s : Shared) : Prop where
  cls : s.cls = C
  cyrGrams : ∀ o g, s.cyrGrams o = some g → C.grammemesCyr (text o) = .ok g
  cyr : ∀ o v, s.cyr o = some v → v = C.toCyr sp (text o).str

/-- These caches only grow. -/
def CyrGrows (s s' : Shared) : Prop := (∀ o, (s.cyrGrams o).isSome → (s'.cyrGrams o).isSome) ∧ ∀ o, (s.cyr o).isSome → (s'.cyr o).isSome

theorem cyrGrows_ord : Ord CyrGrows := ⟨fun _ => ⟨fun _ h => h, fun _ h => h⟩,
  fun _ _ _ h h' => ⟨fun o x => h'.1 o (h.1 o x), fun o x => h'.2 o (h.2 o x)⟩⟩

theorem cyrLoop_safe (sp : Char → Bool) (text : Nat → Tag) (C : TagCls) (gs : List Str) (s0 : Shared) :
    Safe (CyrOk sp text C) CyrGrows (fun r => r = mapE C.cyrOf gs) s0 (Prog.forEach (fun g => Prog.read fun s => s.cls.cyrOf g) gs) := by
  induction gs generalizing s0 with
  | nil => exact .done _ _ rfl
  | cons g gs ih =>
    refine .bind cyrGrows_ord (Q := fun r => r = C.cyrOf g) (.read cyrGrows_ord fun s hi _ => by rw [hi.cls]) (fun s1 a _ ha => ?_) fun x hx => ?_
    · refine .bind cyrGrows_ord (ih s1) (fun s2 l _ hl => ?_) fun x hx => ?_
      · refine .done _ _ ?_
        rw [mapE, ← ha, ok_bind, ← hl]; rfl
      · rw [mapE, ← ha, ok_bind, ← hx]; rfl
    · rw [mapE, ← hx]; rfl

theorem grammemesCyr_safe (sp : Char → Bool) (text : Nat → Tag) (C : TagCls) (o : Nat) (s0 : Shared) :
    Safe (CyrOk sp text C) CyrGrows (fun r => r = (C.grammemesCyr (text o)).map some) s0 (grammemesCyrProg o (text o)) := by
  have last : ∀ s1 : Shared, (s1.cyrGrams o).isSome →
      Safe (CyrOk sp text C) CyrGrows (fun r => r = (C.grammemesCyr (text o)).map some) s1 (Prog.read fun s => .ok (s.cyrGrams o)) := by
    intro s1 h1
    refine .read cyrGrows_ord fun s hi hg => ?_
    obtain ⟨g, hg'⟩ := Option.isSome_iff_exists.1 (hg.1 o h1)
    rw [hg', hi.cyrGrams o g hg']; rfl
  refine .act _ _ _ (fun s hi _ => ⟨hi, cyrGrows_ord.rf _⟩) fun s hi _ => ?_
  cases hm : s.cyrGrams o with
  | some g =>
    simp only [hm, Option.isNone_some]
    exact last _ (by simp [hm])
  | none =>
    simp only [hm, Option.isNone_none]
    change Safe _ _ _ _ ((Prog.forEach (fun g => Prog.read fun s : Shared => s.cls.cyrOf g) (text o).tuple).bind _)
    refine .bind cyrGrows_ord (cyrLoop_safe sp text C _ s) (fun s1 l _ hl => ?_) fun x hx => ?_
    · have hg : C.grammemesCyr (text o) = .ok l.toFinset := by unfold TagCls.grammemesCyr; rw [← hl]; rfl
      refine .act _ _ _ (fun s hi _ => ⟨⟨hi.cls, fun o' g h => ?_, hi.cyr⟩, fun o' h => ?_, fun o' h => h⟩) fun s hi _ => last _ (by simp)
      · dsimp only at h
        split at h
        · rename_i e; subst e; cases h; exact hg
        · exact hi.cyrGrams o' g h
      · dsimp only
        split
        · rfl
        · exact h
    · unfold TagCls.grammemesCyr; rw [← hx]; rfl

theorem cyrRepr_safe (sp : Char → Bool) (text : Nat → Tag) (C : TagCls) (o : Nat) (s0 : Shared) :
    Safe (CyrOk sp text C) CyrGrows (fun r => r = .ok (some (C.toCyr sp (text o).str))) s0 (cyrReprProg sp o (text o)) := by
  have last : ∀ s1 : Shared, (s1.cyr o).isSome →
      Safe (CyrOk sp text C) CyrGrows (fun r => r = .ok (some (C.toCyr sp (text o).str))) s1 (Prog.read fun s => .ok (s.cyr o)) := by
    intro s1 h1
    refine .read cyrGrows_ord fun s hi hg => ?_
    obtain ⟨g, hg'⟩ := Option.isSome_iff_exists.1 (hg.2 o h1)
    rw [hg', hi.cyr o g hg']
  refine .act _ _ _ (fun s hi _ => ⟨hi, cyrGrows_ord.rf _⟩) fun s hi _ => ?_
  cases hm : s.cyr o with
  | some g =>
    simp only [hm, Option.isNone_some]
    exact last _ (by simp [hm])
  | none =>
    simp only [hm, Option.isNone_none]
    refine .act _ _ _ (fun s hi _ => ⟨hi, cyrGrows_ord.rf _⟩) fun s hi _ => ?_
    refine .act _ _ _ (fun s' hi' _ => ⟨⟨hi'.cls, hi'.cyrGrams, fun o' g h => ?_⟩, fun o' h => h, fun o' h => ?_⟩) fun s' hi' _ => last _ (by simp)
    · dsimp only at h
      split at h
      · rename_i e; subst e; cases h; rw [hi.cls]
      · exact hi'.cyr o' g h
    · dsimp only
      split
      · rfl
      · exact h

/-- **C51.** While no dictionary is loaded, the Cyrillic caches are transparent as well: any number of threads ask shared tag objects for
`grammemes_cyr`; each gets the set C25 describes, or `KeyError`. -/
theorem c51_grammemes_cyr (sp : Char → Bool) (text : Nat → Tag) (C : TagCls) (objs : List Nat) (s : Shared) (hs : CyrOk sp text C s)
    (c : Cfg Shared (Option Grams)) (hc : Steps ⟨s, none, (objs.map fun o => grammemesCyrProg o (text o)).map Th.free⟩ c) (i o : Nat)
    (hi : objs[i]? = some o) (r) (hr : c.ths[i]? = some (.fin r)) : r = (C.grammemesCyr (text o)).map some := by
  have h := safe_steps cyrGrows_ord (objs.map fun o => grammemesCyrProg o (text o))
    (fun i r => ∀ o, objs[i]? = some o → r = (C.grammemesCyr (text o)).map some) s hs ?_ c hc
  · exact h.2 i _ hr o hi
  · intro j p hp
    rw [List.getElem?_map] at hp
    cases hj : objs[j]? with
    | none => rw [hj] at hp; cases hp
    | some o' =>
      rw [hj] at hp
      cases hp
      refine Safe.mono (grammemesCyr_safe sp text C o' s) fun r hr o h => ?_
      cases h; exact hr

/-- **C51.** The same for `cyr_repr`. -/
theorem c51_cyr_repr (sp : Char → Bool) (text : Nat → Tag) (C : TagCls) (objs : List Nat) (s : Shared) (hs : CyrOk sp text C s)
    (c : Cfg Shared (Option Str)) (hc : Steps ⟨s, none, (objs.map fun o => cyrReprProg sp o (text o)).map Th.free⟩ c) (i o : Nat)
    (hi : objs[i]? = some o) (r) (hr : c.ths[i]? = some (.fin r)) : r = .ok (some (C.toCyr sp (text o).str)) := by
  have h := safe_steps cyrGrows_ord (objs.map fun o => cyrReprProg sp o (text o))
    (fun i r => ∀ o, objs[i]? = some o → r = .ok (some (C.toCyr sp (text o).str))) s hs ?_ c hc
  · exact h.2 i _ hr o hi
  · intro j p hp
    rw [List.getElem?_map] at hp
    cases hj : objs[j]? with
    | none => rw [hj] at hp; cases hp
    | some o' =>
      rw [hj] at hp
      cases hp
      refine Safe.mono (cyrRepr_safe sp text C o' s) fun r hr o h => ?_
      cases h; exact hr

theorem cyrRepr_run_miss (sp : Char → Bool) (o : Nat) (t : Tag) (s : Shared) (h : s.cyr o = none) : (cyrReprProg sp o t).run s =
    (.ok (some (s.cls.toCyr sp t.str)), { s with cyr := fun o' => if o' = o then some (s.cls.toCyr sp t.str) else s.cyr o' }) := by
  unfold cyrReprProg
  rw [Prog.bind_def, Prog.run_bind_ok (a := true) (s' := s) (by simp [Prog.read, Prog.run, h])]
  simp [Prog.bind_def, Prog.bind, Prog.read, Prog.write, Prog.run]

theorem cyrRepr_run_hit (sp : Char → Bool) (o : Nat) (t : Tag) (s : Shared) (v : Str) (h : s.cyr o = some v) :
    (cyrReprProg sp o t).run s = (.ok (some v), s) := by
  unfold cyrReprProg
  rw [Prog.bind_def, Prog.run_bind_ok (a := false) (s' := s) (by simp [Prog.read, Prog.run, h])]
  simp [Prog.read, Prog.run, h]

/-- **C51 (defect).** The Cyrillic caches survive the loading of another dictionary: once asked for, `cyr_repr` of a tag object keeps the
old names for ever, whatever class state comes later, while a tag object with the same text that was not asked before gets the new
ones. -/
theorem c51_cyr_stale (sp : Char → Bool) (o o' : Nat) (t : Tag) (s : Shared) (h : s.cyr o = none) (h' : s.cyr o' = none) (hne : o' ≠ o)
    (C : TagCls) :
    let s1 := ((cyrReprProg sp o t).run s).2
    ((cyrReprProg sp o t).run s).1 = .ok (some (s.cls.toCyr sp t.str)) ∧
    ((cyrReprProg sp o t).run { s1 with cls := C }).1 = .ok (some (s.cls.toCyr sp t.str)) ∧
    ((cyrReprProg sp o' t).run { s1 with cls := C }).1 = .ok (some (C.toCyr sp t.str)) := by
  dsimp only
  rw [cyrRepr_run_miss sp o t s h]
  refine ⟨rfl, ?_, ?_⟩
  · rw [cyrRepr_run_hit sp o t _ (s.cls.toCyr sp t.str) (by simp)]
  · rw [cyrRepr_run_miss sp o' t _ (by simp [hne, h'])]

/-- Running a thread without a lock to its end, with nobody else in between. -/
theorem run_free {σ α : Type} (p : Prog σ α) (c : Cfg σ α) (i : Nat) (h : c.ths[i]? = some (.free p)) :
    Steps c { c with st := (p.run c.st).2, ths := c.ths.set i (.fin (p.run c.st).1) } := by
  induction p generalizing c with
  | done r => exact .tail (.refl c) (.freeDone c i r h)
  | act u n ih =>
    have h1 : Step c _ := .freeAccess c i u n h
    have h2 := ih c.st { c with st := u c.st, ths := c.ths.set i (.free (n c.st)) } (by
      rw [set_get _ _ _ _ _ h, if_pos rfl])
    have h3 := (Steps.tail (.refl c) h1).trans h2
    simpa [Prog.run] using h3

theorem run_onCls {α : Type} (p : Prog TagCls α) (s : Shared) : p.onCls.run s = ((p.run s.cls).1, { s with cls := (p.run s.cls).2 }) := by
  induction p generalizing s with
  | done r => rfl
  | act u n ih => simp only [Prog.onCls, Prog.run, ih]

/-- **C51 (defect).** A tag asked for its `cyr_repr` while a dictionary is being loaded, in another thread or in the same process by a
concurrent construction, can keep the untranslated Latin text for ever.  For every grammeme table and every tag object not asked before
there is a schedule after which the table is completely loaded, but the object has cached, and returns from then on, its translation by
the empty table. -/
theorem c51_poisoned (sp : Char → Bool) (rows : List GramRow) (o : Nat) (t : Tag) (s : Shared) (h : s.cyr o = none) :
    ∃ c : Cfg Shared (Option Str),
      Steps ⟨s, none, [.free ((initProg rows).bind fun _ => .done (.ok none)).onCls, .free (cyrReprProg sp o t)]⟩ c ∧
      c.st.cls = s.cls.init rows ∧
      c.ths[1]? = some (.fin (.ok (some (translateTag sp [] t.str)))) ∧
      ((cyrReprProg sp o t).run c.st).1 = .ok (some (translateTag sp [] t.str)) := by
  obtain ⟨R, hR⟩ : ∃ R : Prog TagCls (Option Str), ((initProg rows).bind fun _ => .done (.ok none)) =
    .act (fun c => { c with known := ∅ }) fun _ => .act (fun c => { c with cyr2lat := [] }) fun _ => .act (fun c => { c with lat2cyr := [] })
      fun _ => R := ⟨_, rfl⟩
  have hrun : (R.run { s.cls with known := ∅, cyr2lat := [], lat2cyr := [] }).2 = s.cls.init rows := by
    have h1 : ((initProg rows).bind fun _ => .done (.ok (none : Option Str))).run s.cls = (.ok none, s.cls.init rows) := by
      rw [Prog.run_bind_ok (run_init rows s.cls)]; rfl
    rw [hR] at h1
    change R.run _ = _ at h1
    rw [h1]
  rw [hR]
  simp only [Prog.onCls]
  have t0 := Steps.refl (⟨s, none, [.free (.act (fun s => { s with cls := { s.cls with known := ∅ } }) fun _ =>
    .act (fun s => { s with cls := { s.cls with cyr2lat := [] } }) fun _ => .act (fun s => { s with cls := { s.cls with lat2cyr := [] } }) fun _ =>
    R.onCls), .free (cyrReprProg sp o t)]⟩ : Cfg Shared (Option Str))
  have t1 := t0.tail (.freeAccess _ 0 _ _ rfl)
  have t2 := t1.tail (.freeAccess _ 0 _ _ rfl)
  have t3 := t2.tail (.freeAccess _ 0 _ _ rfl)
  have t4 := t3.trans (run_free (cyrReprProg sp o t) _ 1 rfl)
  have t5 := t4.trans (run_free R.onCls _ 0 rfl)
  refine ⟨_, t5, ?_, ?_, ?_⟩
  · dsimp only
    rw [run_onCls, cyrRepr_run_miss _ _ _ _ (by exact h)]
    exact hrun
  · dsimp only
    rw [cyrRepr_run_miss _ _ _ _ (by exact h)]
    rfl
  · dsimp only
    rw [run_onCls]
    have hm := cyrRepr_run_miss sp o t { s with cls := { s.cls with known := ∅, cyr2lat := [], lat2cyr := [] } } h
    rw [cyrRepr_run_hit sp o t _ (translateTag sp [] t.str)]
    dsimp only
    change (((cyrReprProg sp o t).run { s with cls := { s.cls with known := ∅, cyr2lat := [], lat2cyr := [] } }).2.cyr) o = _
    rw [hm]
    simp [TagCls.toCyr]

/-! ### The theorems are not empty -/

/-- Fresh caches are right, so are filled ones. -/
example : CacheOk demoEnv (fun _ => ⟨c!"NOUN,anim"⟩)
    ⟨TagCls.initial, [('a', true), ('я', false)], fun o => if o = 3 then some {c!"NOUN", c!"anim"} else none, fun _ => none, fun _ => none⟩ where
  latin := by
    intro c b h
    simp only [dictGet] at h
    split at h
    · rename_i e; subst e; cases h; decide +kernel
    · split at h
      · rename_i e; subst e; cases h; decide +kernel
      · cases h
  grams := by
    intro o g h
    dsimp only at h
    split at h
    · cases h; decide +kernel
    · cases h

/-- A client that looks at two letters and a tag, and its value without caches. -/
example : (Client.latin 'a' fun a => .latin 'я' fun b => .grams 7 fun g => .ret (.ok (a, b, decide (c!"anim" ∈ g)))).eval demoEnv
    (fun _ => ⟨c!"NOUN,anim"⟩) = .ok (true, false, true) := by decide +kernel

/-- What a poisoned tag shows, and what it should show. -/
example : translateTag demoEnv.isSpace [] (c!"NOUN,anim sing") = c!"NOUN,anim sing" ∧
    (TagCls.initial.init [⟨c!"NOUN", none, c!"СУЩ"⟩, ⟨c!"anim", none, c!"од"⟩, ⟨c!"sing", none, c!"ед"⟩]).toCyr demoEnv.isSpace (c!"NOUN,anim sing") =
      c!"СУЩ,од ед" := by decide +kernel

end Verif
