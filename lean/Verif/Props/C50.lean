/-
C50: constructing analyzers in several threads.
-/
import Verif.Lemmas.Serial
import Verif.Props.C48
import Verif.Props.C60

set_option linter.unusedSectionVars false

namespace Verif

/-! ### Specification: constructions one after another -/

variable {S : Type} [Score S]

/-- Successful constructions one after another: each starts with the class the one before left.  The log says which thread constructed
what, with which arguments. -/
inductive OneByOne (s : Sys) : TagCls → List (Nat × MorphArgs S × Analyzer S) → TagCls → Prop
  | nil (c : TagCls) : OneByOne s c [] c
  | snoc {c c' : TagCls} {log} (i : Nat) (a : MorphArgs S) (x : Analyzer S) (h : OneByOne s c log c') (hx : construct s c' a = .ok x) :
    OneByOne s c (log ++ [(i, a, x)]) x.morph.cls

theorem lang1_eq (a : MorphArgs S) : a.lang1 = a.lang' := rfl

theorem construct_anyCls {s : Sys} {c : TagCls} {a : MorphArgs S} {x : Analyzer S} (h : construct s c a = .ok x) (c' : TagCls) :
    ∃ y, construct s c' a = .ok y ∧ y.lang = x.lang ∧ SameAnswers x.morph y.morph ∧ y.reduce = x.reduce ∧ y.resultTypeOrig = x.resultTypeOrig := by
  obtain ⟨path, r, dl, est, m, h1, h2, h3, h4, h5, rfl⟩ := construct_ok h
  obtain ⟨rows, hr, hload⟩ := loadDict_cls h2
  rw [hr] at h5
  obtain ⟨m', hm', hsame⟩ := mkMorph_knownEq s.env r.2.2 (init_known c c' rows) _ _ est m h5
  refine ⟨⟨m', chooseLanguage dl a.lang', a.path, a.lang, a.resultType, a.units.getD (defaultUnits (chooseLanguage dl a.lang'))⟩, ?_, rfl,
    hsame.answers, rfl, rfl⟩
  unfold construct
  change (do
    let path ← choosePath s a.path a.lang'
    _) = _
  rw [h1, ok_bind, hload c', ok_bind]
  simp only [h3, ok_bind]
  rw [h4, ok_bind]
  change (do
    let m ← mkMorph s.env r.2.2 (c'.init rows) (a.sub.getD (defaultSubst (chooseLanguage dl a.lang')))
      (a.units.getD (defaultUnits (chooseLanguage dl a.lang'))) est
    _) = _
  rw [hm', ok_bind]
  rfl

/-- A construction alone in a program, from any class state: the function `construct`. -/
theorem callRun_construct (s : Sys) (a : MorphArgs S) (c : TagCls) :
    (callRun ((choosePath s a.path a.lang1).map (lockedPart s a)) c).1 = construct s c a ∧
    ∀ x, construct s c a = .ok x → (callRun ((choosePath s a.path a.lang1).map (lockedPart s a)) c).2 = x.morph.cls := by
  cases hp : choosePath s a.path a.lang1 with
  | error e =>
    have : construct s c a = .error e := by
      unfold construct
      change (do
        let path ← choosePath s a.path a.lang1
        _) = _
      rw [hp]; rfl
    rw [this]
    exact ⟨rfl, fun x hx => by cases hx⟩
  | ok path =>
    have h := agrees_locked s a path hp c
    change ((lockedPart s a path).run c).1 = _ ∧ _
    cases hc : construct s c a with
    | error e =>
      rw [hc] at h
      exact ⟨h, fun x hx => by cases hx⟩
    | ok x =>
      rw [hc] at h
      change (lockedPart s a path).run c = (.ok x, x.morph.cls) at h
      refine ⟨by rw [h], fun y hy => ?_⟩
      cases hy
      change ((lockedPart s a path).run c).2 = _
      rw [h]

/-- The threads: some construct analyzers (`args`), others (`users`) use the tag class without taking the lock, only reading it. -/
def threads (s : Sys) (args : List (MorphArgs S)) (users : List (Prog TagCls (Analyzer S))) : List (Th TagCls (Analyzer S)) :=
  args.map (constructTh s) ++ users.map Th.free

theorem threads_starting (s : Sys) (args : List (MorphArgs S)) (users : List (Prog TagCls (Analyzer S))) (hu : ∀ p ∈ users, ReadOnly p) :
    Starting (threads s args users) := by
  intro t ht
  rcases List.mem_append.1 ht with h | h
  · obtain ⟨a, _, rfl⟩ := List.mem_map.1 h; exact .inl ⟨_, rfl⟩
  · obtain ⟨p, hp, rfl⟩ := List.mem_map.1 h; exact .inr ⟨p, rfl, hu p hp⟩

theorem threads_get (s : Sys) (args : List (MorphArgs S)) (users : List (Prog TagCls (Analyzer S))) (i : Nat) (call)
    (h : (threads s args users)[i]? = some (.start call)) :
    ∃ a, args[i]? = some a ∧ call = (choosePath s a.path a.lang1).map (lockedPart s a) := by
  unfold threads at h
  rw [List.getElem?_append] at h
  split at h
  · rw [List.getElem?_map] at h
    cases ha : args[i]? with
    | none => rw [ha] at h; cases h
    | some a => rw [ha] at h; cases h; exact ⟨a, rfl, rfl⟩
  · rw [List.getElem?_map] at h
    revert h
    generalize users[i - _]? = u
    intro h
    cases u <;> cases h

theorem threads_get' (s : Sys) (args : List (MorphArgs S)) (users : List (Prog TagCls (Analyzer S))) (i : Nat) (a : MorphArgs S)
    (h : args[i]? = some a) : (threads s args users)[i]? = some (constructTh s a) := by
  unfold threads
  obtain ⟨hl, _⟩ := List.getElem?_eq_some_iff.1 h
  rw [List.getElem?_append_left (by simpa using hl), List.getElem?_map, h]
  rfl

/-- **C50.** Any number of threads construct analyzers, others use the tag class meanwhile without the lock (only reading).  Suppose every
construction would succeed on its own, from some state of the class.  Then under every schedule: a construction that has ended has
succeeded; those that have ended did so as if they had run one after another in some order, each on the class the previous one left, and
when nobody holds the lock the class is the one the last of them left. -/
theorem c50_serializable (s : Sys) (args : List (MorphArgs S)) (users : List (Prog TagCls (Analyzer S))) (hu : ∀ p ∈ users, ReadOnly p)
    (hok : ∀ a ∈ args, ∃ c x, construct s c a = .ok x) (cls : TagCls) (c : Cfg TagCls (Analyzer S))
    (hs : Steps ⟨cls, none, threads s args users⟩ c) :
    ∃ log cls', OneByOne s cls log cls' ∧ (log.map Prod.fst).Nodup ∧ (c.owner = none → c.st = cls') ∧
      (∀ i a x, (i, a, x) ∈ log → args[i]? = some a ∧ c.ths[i]? = some (.fin (.ok x))) ∧
      (∀ i a r, args[i]? = some a → c.ths[i]? = some (.fin r) → ∃ x, r = .ok x ∧ (i, a, x) ∈ log) := by
  obtain ⟨log, s0, hinv⟩ := SerInv.steps (threads_starting s args users hu) hs
  have key : ∀ (log : List _) (s0 : TagCls), Sequential cls log s0 → (∀ e ∈ log, (threads s args users)[e.1]? = some (.start e.2.1)) →
      ∃ log', OneByOne s cls log' s0 ∧ log'.map Prod.fst = log.map Prod.fst ∧
        (∀ i call r, (i, call, r) ∈ log → ∃ a x, args[i]? = some a ∧ r = .ok x ∧ (i, a, x) ∈ log') ∧
        (∀ i a x, (i, a, x) ∈ log' → args[i]? = some a ∧ ∃ call, (i, call, .ok x) ∈ log) := by
    intro log s0 h
    induction h with
    | nil => exact fun _ => ⟨[], .nil _, rfl, by simp, by simp⟩
    | @snoc s' log i call h ih =>
      intro hsub
      obtain ⟨log', h1, h2, h3, h4⟩ := ih fun e he => hsub e (List.mem_append_left _ he)
      obtain ⟨a, ha, rfl⟩ := threads_get s args users i call (hsub _ (List.mem_append_right _ (List.mem_singleton.2 rfl)))
      obtain ⟨c0, x0, hx0⟩ := hok a (List.mem_of_getElem? ha)
      obtain ⟨x, hx, _⟩ := construct_anyCls hx0 s'
      obtain ⟨k1, k2⟩ := callRun_construct s a s'
      rw [k1, k2 x hx, hx]
      refine ⟨log' ++ [(i, a, x)], .snoc i a x h1 hx, by simp [h2], fun j call r hj => ?_, fun j b y hj => ?_⟩
      · rcases List.mem_append.1 hj with hj | hj
        · obtain ⟨b, y, k3, k4, k5⟩ := h3 j call r hj
          exact ⟨b, y, k3, k4, List.mem_append_left _ k5⟩
        · cases List.mem_singleton.1 hj
          exact ⟨a, x, ha, rfl, List.mem_append_right _ (List.mem_singleton.2 rfl)⟩
      · rcases List.mem_append.1 hj with hj | hj
        · obtain ⟨k3, call, k4⟩ := h4 j b y hj
          exact ⟨k3, call, List.mem_append_left _ k4⟩
        · cases List.mem_singleton.1 hj
          exact ⟨ha, _, List.mem_append_right _ (List.mem_singleton.2 rfl)⟩
  obtain ⟨log', h1, h2, h3, h4⟩ := key log s0 hinv.seq fun e he => (hinv.sub e he).1
  refine ⟨log', s0, h1, h2 ▸ hinv.nodup, hinv.unlocked, fun i a x hi => ?_, fun i a r ha hr => ?_⟩
  · obtain ⟨k1, call, k2⟩ := h4 i a x hi
    exact ⟨k1, (hinv.sub _ k2).2⟩
  · have hf := hinv.fate i
    rw [hr, threads_get' s args users i a ha] at hf
    unfold constructTh at hf
    generalize hcall : (choosePath s a.path a.lang1).map (lockedPart s a) = call at hf
    cases hf with
    | finished _ _ h =>
      obtain ⟨b, x, k1, k2, k3⟩ := h3 i _ _ h
      rw [ha] at k1
      cases k1
      exact ⟨x, k2, k3⟩

/-- **C50.** When all constructions have ended, the order is one of all of them. -/
theorem c50_all (s : Sys) (args : List (MorphArgs S)) (users : List (Prog TagCls (Analyzer S))) (hu : ∀ p ∈ users, ReadOnly p)
    (hok : ∀ a ∈ args, ∃ c x, construct s c a = .ok x) (cls : TagCls) (c : Cfg TagCls (Analyzer S))
    (hs : Steps ⟨cls, none, threads s args users⟩ c) (hfin : ∀ (i : Nat), i < args.length → ∃ r, c.ths[i]? = some (.fin r)) (hown : c.owner = none) :
    ∃ log, OneByOne s cls log c.st ∧ (log.map Prod.fst).Perm (List.range args.length) ∧
      ∀ i a x, (i, a, x) ∈ log → args[i]? = some a ∧ c.ths[i]? = some (.fin (.ok x)) := by
  obtain ⟨log, cls', h1, h2, h3, h4, h5⟩ := c50_serializable s args users hu hok cls c hs
  rw [h3 hown]
  refine ⟨log, h1, (List.perm_ext_iff_of_nodup h2 List.nodup_range).2 fun i => ?_, h4⟩
  rw [List.mem_range, List.mem_map]
  constructor
  · rintro ⟨⟨j, a, x⟩, hj, rfl⟩
    exact (List.getElem?_eq_some_iff.1 (h4 j a x hj).1).1
  · intro hi
    obtain ⟨r, hr⟩ := hfin i hi
    obtain ⟨x, _, hx⟩ := h5 i args[i] r (List.getElem?_eq_getElem hi) hr
    exact ⟨_, hx, rfl⟩

/-- **C50.** The analyzer a thread gets is of the same language and gives the same answers as the one the same call gives when it is made
alone, from any state of the class. -/
theorem c50_same_answers (s : Sys) (args : List (MorphArgs S)) (users : List (Prog TagCls (Analyzer S))) (hu : ∀ p ∈ users, ReadOnly p)
    (hok : ∀ a ∈ args, ∃ c x, construct s c a = .ok x) (cls : TagCls) (c : Cfg TagCls (Analyzer S))
    (hs : Steps ⟨cls, none, threads s args users⟩ c) (i : Nat) (a : MorphArgs S) (r) (ha : args[i]? = some a) (hr : c.ths[i]? = some (.fin r))
    (c0 : TagCls) (y : Analyzer S) (hy : construct s c0 a = .ok y) :
    ∃ x, r = .ok x ∧ x.lang = y.lang ∧ SameAnswers y.morph x.morph ∧ x.reduce = y.reduce := by
  obtain ⟨log, cls', h1, h2, h3, h4, h5⟩ := c50_serializable s args users hu hok cls c hs
  obtain ⟨x, rfl, hx⟩ := h5 i a r ha hr
  have key : ∀ (log : List (Nat × MorphArgs S × Analyzer S)) (c' : TagCls), OneByOne s cls log c' → ∀ i a x, (i, a, x) ∈ log →
      ∃ c1, construct s c1 a = .ok x := by
    intro log c' h
    induction h with
    | nil => simp
    | @snoc c' log j b z h hz ih =>
      intro i a x hx
      rcases List.mem_append.1 hx with hx | hx
      · exact ih i a x hx
      · cases List.mem_singleton.1 hx; exact ⟨_, hz⟩
  obtain ⟨c1, hc1⟩ := key log cls' h1 i a x hx
  obtain ⟨x', hx', k1, k2, k3, _⟩ := construct_anyCls hy c1
  rw [hc1] at hx'
  cases hx'
  exact ⟨x, rfl, k1, k2, k3⟩

/-- **C50.** No deadlock: as long as some thread has not ended, some thread can go on (constructions that fail included). -/
theorem c50_no_deadlock (s : Sys) (args : List (MorphArgs S)) (users : List (Prog TagCls (Analyzer S))) (hu : ∀ p ∈ users, ReadOnly p)
    (cls : TagCls) (c : Cfg TagCls (Analyzer S)) (hs : Steps ⟨cls, none, threads s args users⟩ c) (i : Nat) (t : Th TagCls (Analyzer S))
    (hi : c.ths[i]? = some t) (ht : ∀ r, t ≠ .fin r) : ∃ c', Step c c' := by
  obtain ⟨log, s0, hinv⟩ := SerInv.steps (threads_starting s args users hu) hs
  have goIn : ∀ (j : Nat) (p : Prog TagCls (Analyzer S)), c.ths[j]? = some (.inside p) → ∃ c', Step c c' := by
    intro j p hj
    cases p with
    | done r => exact ⟨_, .release c j r hj⟩
    | act u n => exact ⟨_, .access c j u n hj⟩
  cases t with
  | fin r => exact absurd rfl (ht r)
  | inside p => exact goIn i p hi
  | free p =>
    cases p with
    | done r => exact ⟨_, .freeDone c i r hi⟩
    | act u n => exact ⟨_, .freeAccess c i u n hi⟩
  | start call =>
    cases call with
    | error e => exact ⟨_, .fail c i e hi⟩
    | ok p =>
      cases ho : c.owner with
      | none => exact ⟨_, .acquire c i p hi ho⟩
      | some j =>
        obtain ⟨q, hq⟩ := hinv.locked j ho
        exact goIn j q hq

/-- **C50.** No schedule goes on forever, so (with the absence of deadlocks) every thread ends. -/
theorem c50_terminates (f : Nat → Cfg TagCls (Analyzer S)) : ¬ ∀ n, Step (f n) (f (n + 1)) := by
  intro h
  have : ∀ c : Cfg TagCls (Analyzer S), ∀ n, f n ≠ c := by
    intro c
    induction step_wf.apply c with
    | intro c _ ih =>
      rintro n rfl
      exact ih (f (n + 1)) (h n) (n + 1) rfl
  exact this (f 0) 0 rfl

/-- **C50.** A failing construction gives its lock back: whatever happens inside, nobody holds the lock when all threads have ended. -/
theorem c50_lock_released (s : Sys) (args : List (MorphArgs S)) (users : List (Prog TagCls (Analyzer S))) (hu : ∀ p ∈ users, ReadOnly p)
    (cls : TagCls) (c : Cfg TagCls (Analyzer S)) (hs : Steps ⟨cls, none, threads s args users⟩ c)
    (hfin : ∀ (i : Nat) t, c.ths[i]? = some t → ∃ r, t = .fin r) : c.owner = none := by
  obtain ⟨log, s0, hinv⟩ := SerInv.steps (threads_starting s args users hu) hs
  cases ho : c.owner with
  | none => rfl
  | some j =>
    obtain ⟨p, hp⟩ := hinv.locked j ho
    obtain ⟨r, hr⟩ := hfin j _ hp
    cases hr

/-! ### Using an analyzer while another one is constructed -/

/-- `g in tag` (and something done with the answer) without the lock. -/
def askTag (t : Tag) (g : Str) (k : Bool → Analyzer S) : Prog TagCls (Analyzer S) := Prog.read fun c => (c.contains t g).map k

/-- `x.parse(word)` (all accesses to the class at the same moment), keeping the analyzer. -/
def useAnalyzer (x : Analyzer S) (w : Str) : Prog TagCls (Analyzer S) :=
  Prog.read fun c => ({ x.morph with cls := c }.parse w).map fun _ => x

theorem askTag_readOnly (t : Tag) (g : Str) (k : Bool → Analyzer S) : ReadOnly (askTag t g k) := .act _ _ (fun _ => rfl) fun _ => .done _

theorem useAnalyzer_readOnly (x : Analyzer S) (w : Str) : ReadOnly (useAnalyzer x w) := .act _ _ (fun _ => rfl) fun _ => .done _

/-- A construction of a dictionary whose metadata and grammeme table can be read first makes the class forget all grammemes. -/
theorem lockedPart_first (s : Sys) (a : MorphArgs S) (path : Str) (m) (g) (rows) (h1 : loadMeta (s.disk path) = .ok m) (h2 : assertFormat m = .ok ())
    (h3 : readJson (s.disk path) .grammemes = .ok g) (h4 : rowsOf g = .ok rows) :
    ∃ n, lockedPart s a path = .act (fun c => { c with known := ∅ }) n := by
  unfold lockedPart loadDictProg
  rw [h1]
  change ∃ n, ((Prog.lift (assertFormat m) >>= _) >>= _) = _
  rw [h2]
  change ∃ n, ((Prog.lift (readJson _ _) >>= _) >>= _) = _
  rw [h3]
  change ∃ n, ((Prog.lift (rowsOf g) >>= _) >>= _) = _
  rw [h4]
  exact ⟨_, rfl⟩

/-- A reader that acts once while a construction is in the middle of its first step. -/
theorem window (s : Sys) (a : MorphArgs S) (path : Str) (hp : choosePath s a.path a.lang1 = .ok path) (m) (g) (rows)
    (h1 : loadMeta (s.disk path) = .ok m) (h2 : assertFormat m = .ok ()) (h3 : readJson (s.disk path) .grammemes = .ok g)
    (h4 : rowsOf g = .ok rows) (cls : TagCls) (f : TagCls → Except PyErr (Analyzer S)) :
    ∃ c, Steps ⟨cls, none, threads s [a] [Prog.read f]⟩ c ∧ c.ths[1]? = some (.fin (f { cls with known := ∅ })) := by
  obtain ⟨n, hn⟩ := lockedPart_first s a path m g rows h1 h2 h3 h4
  have hth : threads s [a] [Prog.read f] = [.start (.ok (.act (fun c => { c with known := ∅ }) n)), .free (Prog.read f)] := by
    simp only [threads, constructTh, hp, Except.map, hn, List.map_cons, List.map_nil, List.cons_append, List.nil_append]
  rw [hth]
  have t0 := Steps.refl (⟨cls, none, [.start (.ok (.act (fun c => { c with known := ∅ }) n)), .free (Prog.read f)]⟩ : Cfg TagCls (Analyzer S))
  have t1 := t0.tail (.acquire _ 0 _ rfl rfl)
  have t2 := t1.tail (.access _ 0 _ _ rfl)
  have t3 := t2.tail (.freeAccess _ 1 id (fun s => .done (f s)) rfl)
  have t4 := t3.tail (.freeDone _ 1 _ rfl)
  exact ⟨_, t4, rfl⟩

/-- **C50 (defect).** The lock does not protect users.  For every tag and every grammeme the tag does not have, whatever dictionary was
loaded before: there is a schedule in which a construction in another thread makes `grammeme in tag` raise `RuntimeError`. -/
theorem c50_reader_fails (s : Sys) (a : MorphArgs S) (path : Str) (hp : choosePath s a.path a.lang1 = .ok path) (m) (g) (rows)
    (h1 : loadMeta (s.disk path) = .ok m) (h2 : assertFormat m = .ok ()) (h3 : readJson (s.disk path) .grammemes = .ok g)
    (h4 : rowsOf g = .ok rows) (cls : TagCls) (t : Tag) (gr : Str) (hg : gr ∉ t.grammemes) (k : Bool → Analyzer S) :
    ∃ c, Steps ⟨cls, none, threads s [a] [askTag t gr k]⟩ c ∧ c.ths[1]? = some (.fin (.error .runtimeError)) := by
  obtain ⟨c, hc, hf⟩ := window s a path hp m g rows h1 h2 h3 h4 cls fun c => (c.contains t gr).map k
  refine ⟨c, hc, hf.trans ?_⟩
  simp [TagCls.contains, hg, TagCls.isKnown, TagCls.assertInit]
  rfl

/-- **C50 (defect).** The same for `parse`: an analyzer that parses по-ежи, alone, raises `RuntimeError` for the same word when a second
analyzer is being constructed in another thread. -/
theorem c50_parse_fails : ∃ (x : Analyzer Rat) (ps : List (Parse Rat)) (c : Cfg TagCls (Analyzer Rat)),
    construct Demo.sys TagCls.initial {} = .ok x ∧ x.morph.parse (c!"по-ежи") = .ok ps ∧ ps ≠ [] ∧
    Steps ⟨x.morph.cls, none, threads Demo.sys [{}] [useAnalyzer x (c!"по-ежи")]⟩ c ∧ c.ths[1]? = some (.fin (.error .runtimeError)) := by
  have h : (match construct (S := Rat) Demo.sys TagCls.initial {} with
    | .error _ => false
    | .ok x => (match x.morph.parse (c!"по-ежи") with | .error _ => false | .ok ps => !ps.isEmpty) &&
        match { x.morph with cls := { x.morph.cls with known := ∅ } }.parse (c!"по-ежи") with | .error e => e = .runtimeError | .ok _ => false) = true := by
    decide +kernel
  split at h
  · cases h
  rename_i x hx
  rw [Bool.and_eq_true] at h
  obtain ⟨h1, h2⟩ := h
  split at h1
  · cases h1
  rename_i ps hps
  split at h2
  swap
  · cases h2
  rename_i e he
  have he' : e = .runtimeError := of_decide_eq_true h2
  subst he'
  have hp : choosePath Demo.sys ({} : MorphArgs Rat).path ({} : MorphArgs Rat).lang1 = .ok (c!"/ru") := rfl
  obtain ⟨path, r, dl, est, m, k1, k2, _⟩ := construct_ok hx
  rw [show choosePath Demo.sys ({} : MorphArgs Rat).path ({} : MorphArgs Rat).lang' = .ok (c!"/ru") from rfl] at k1
  cases k1
  unfold loadDict at k2
  simp only [bind_ok_iff] at k2
  obtain ⟨m, l1, u, l2, g, l3, rows, l4, _⟩ := k2
  obtain ⟨c, hc, hf⟩ := window Demo.sys {} (c!"/ru") hp m g rows l1 l2 l3 l4 x.morph.cls fun c => ({ x.morph with cls := c }.parse (c!"по-ежи")).map fun _ => x
  refine ⟨x, ps, c, hx, hps, (by rintro rfl; cases h1), hc, ?_⟩
  rw [hf, he]
  rfl

/-! ### Where using an analyzer is safe -/

theorem adverbShould_noPo (m : Morph S) (rec : Rec S) (wl : Str) (h : ¬ c!"по-" <:+: wl) : adverbShould m rec wl = .ok false := by
  unfold adverbShould
  rw [if_pos]
  right
  cases hs : startsWith wl (c!"по-") with
  | false => rfl
  | true => exact absurd ((startsWith_iff _ _).1 hs).isInfix h

theorem runParse_noPo (m : Morph S) (c : TagCls) (rec : Rec S) (word wl : Str) (h : ¬ c!"по-" <:+: wl) (us : List (BUnit S × Bool)) (seen : Seen)
    (res : List (Parse S)) : runParse { m with cls := c } rec word wl us seen res = runParse m rec word wl us seen res := by
  have hu : ∀ (u : BUnit S) (seen : Seen), unitParse { m with cls := c } rec u word wl seen = unitParse m rec u word wl seen := by
    intro u seen
    unfold unitParse
    split <;> first | rfl | simp only [adverbShould_noPo _ rec wl h]
  induction us generalizing seen res with
  | nil => rfl
  | cons u us ih => obtain ⟨u, t⟩ := u; simp only [runParse, hu, ih]

theorem runTag_noPo (m : Morph S) (c : TagCls) (rec : Rec S) (word wl : Str) (h : ¬ c!"по-" <:+: wl) (us : List (BUnit S × Bool)) (seen : SeenTags)
    (res : List Tag) : runTag { m with cls := c } rec word wl us seen res = runTag m rec word wl us seen res := by
  have hu : ∀ (u : BUnit S) (seen : SeenTags), unitTag { m with cls := c } rec u word wl seen = unitTag m rec u word wl seen := by
    intro u seen
    unfold unitTag
    split <;> first | rfl | simp only [adverbShould_noPo _ rec wl h]
  induction us generalizing seen res with
  | nil => rfl
  | cons u us ih => obtain ⟨u, t⟩ := u; simp only [runTag, hu, ih]

theorem analyze_noPo (m : Morph S) (hlow : m.env.LowerStable) (hu : ∀ u ∈ m.units, u.1.cfg.properPrefixes) (c : TagCls) (n : Nat) (w : Str)
    (h : ¬ c!"по-" <:+: m.env.lower w) :
    (analyze { m with cls := c } n).parse w = (analyze m n).parse w ∧ (analyze { m with cls := c } n).tag w = (analyze m n).tag w := by
  induction n generalizing w with
  | zero => exact ⟨rfl, rfl⟩
  | succ n ih =>
    have hagree : Rec.AgreeBelow (m.env.lower w) (analyze { m with cls := c } n) (analyze m n) := by
      intro x hx _
      exact ih x fun h' => h (List.IsInfix.trans (by rw [hlow w x hx] at h'; exact h') hx)
    have h1 := step_congr { m with cls := c } hu _ _ w hagree
    simp only [analyze]
    rw [h1.1, h1.2]
    unfold parseStep tagStep
    simp only [runParse_noPo m c _ w _ h, runTag_noPo m c _ w _ h]
    exact ⟨trivial, trivial⟩

/-- **C50.** The class is used by `parse` and `tag` only for words with по- in them: for every other word the answer of an analyzer is the
same whatever state the class is in, half-initialised ones included.  So such words can be parsed while analyzers are constructed. -/
theorem c50_reader_safe (m : Morph S) (hm : IsRu m ∨ IsUk m) (hlow : m.env.LowerStable) (w : Str) (h : ¬ c!"по-" <:+: m.env.lower w) (c : TagCls) :
    { m with cls := c }.parse w = m.parse w ∧ { m with cls := c }.tag w = m.tag w := by
  have hu : ∀ u ∈ m.units, u.1.cfg.properPrefixes := by
    rcases hm with ⟨c, hc⟩ | ⟨c, hc⟩
    · exact properPrefixes_units ru_properPrefixes hc
    · exact properPrefixes_units uk_properPrefixes hc
  exact analyze_noPo m hlow hu c _ w h

/-- The hypotheses of `c50_reader_safe` are met by the demo analyzer and a hyphenated word. -/
example : IsRu Demo.morph ∧ Demo.morph.env.LowerStable ∧ ¬ c!"по-" <:+: Demo.morph.env.lower (c!"Кот-ёж") := by
  refine ⟨Demo.morph_isRu, demoEnv_lowerStable, ?_⟩
  rw [← isSub_iff]
  decide +kernel

/-- The hypotheses of `c50_serializable` are met by two constructions of different languages and a reader. -/
example : (∀ a ∈ ([{}, { path := some (c!"/uk") }] : List (MorphArgs Rat)), ∃ c x, construct Demo.sys c a = .ok x) := by
  have h1 : (construct (S := Rat) Demo.sys TagCls.initial {}).toOption.isSome = true := by decide +kernel
  have h2 : (construct (S := Rat) Demo.sys TagCls.initial { path := some (c!"/uk") }).toOption.isSome = true := by decide +kernel
  have key : ∀ a : MorphArgs Rat, (construct Demo.sys TagCls.initial a).toOption.isSome = true → ∃ c x, construct Demo.sys c a = .ok x := by
    intro a h
    refine ⟨TagCls.initial, ?_⟩
    cases hx : construct Demo.sys TagCls.initial a with
    | error e => rw [hx] at h; cases h
    | ok x => exact ⟨x, rfl⟩
  intro a ha
  simp only [List.mem_cons, List.not_mem_nil, or_false] at ha
  rcases ha with rfl | rfl
  · exact key _ h1
  · exact key _ h2

end Verif
