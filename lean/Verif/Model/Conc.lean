/-
Threads.  Programs as sequences of atomic accesses to shared state; the constructor of MorphAnalyzer as such a program over the tag class
(analyzer.py:190-248, tagset.py:424-473), the lock of analyzer.py:188 and 202, and the interleavings of any number of threads.
-/
import Verif.Model.Construct

set_option linter.unusedSectionVars false

namespace Verif

/-! ### Programs -/

/-- A piece of Python code that shares the state `σ` with other threads: it ends with a value or an exception, or does one atomic access
(a read, a write, or both at once: what CPython does without switching threads) and goes on, depending on the state it read. -/
inductive Prog (σ α : Type)
  | done (r : Except PyErr α)
  | act (upd : σ → σ) (next : σ → Prog σ α)

namespace Prog

variable {σ α β : Type}

/-- One statement after another; an exception skips the rest. -/
def bind : Prog σ α → (α → Prog σ β) → Prog σ β
  | done (.ok a), k => k a
  | done (.error e), _ => done (.error e)
  | act u n, k => act u fun s => (n s).bind k

instance : Monad (Prog σ) where
  pure a := done (.ok a)
  bind := bind

/-- A computation that does not use the shared state. -/
def lift (x : Except PyErr α) : Prog σ α := done x

/-- A write. -/
def write (upd : σ → σ) : Prog σ Unit := act upd fun _ => done (.ok ())

/-- A read. -/
def read (f : σ → Except PyErr α) : Prog σ α := act id fun s => done (f s)

/-- A loop. -/
def forEach (f : β → Prog σ α) : List β → Prog σ (List α)
  | [] => done (.ok [])
  | b :: bs => (f b).bind fun a => (forEach f bs).bind fun as => done (.ok (a :: as))

/-- The program run alone: its outcome and the state it leaves. -/
def run : Prog σ α → σ → Except PyErr α × σ
  | done r, s => (r, s)
  | act u n, s => (n s).run (u s)

end Prog

/-! ### The constructor -/

/-- tagset.py:424-430 `add_grammemes_to_known`, statement by statement. -/
def addKnownProg (lat cyr : Str) (overwrite : Bool := true) : Prog TagCls Unit := do
  let skip ← Prog.read fun c => .ok (!overwrite && decide (lat ∈ c.known))
  if skip then pure () else do
    Prog.write fun c => { c with known := insert lat c.known }
    Prog.write fun c => { c with lat2cyr := dictSet lat cyr c.lat2cyr }
    Prog.write fun c => { c with cyr2lat := dictSet cyr lat c.cyr2lat }

/-- tagset.py:468-473: the body of the last loop, statement by statement (`rows` gives the local `children`). -/
def fillRowProg (rows : List GramRow) (e : GramRow × Nat) : Prog TagCls Unit := do
  Prog.write fun c => { c with indices := fun g => if g = e.1.name then e.2 else c.indices g }
  let extra ← Prog.read fun c => .ok c.extraPlur
  Prog.write fun c => { c with incompat := fun g => if g = e.1.name then incompatRow extra rows e.1 else c.incompat g }

/-- tagset.py:433-473 `_init_grammemes`, statement by statement (the loop over the one set of `_EXTRA_INCOMPATIBLE` is one step). -/
def initProg (rows : List GramRow) : Prog TagCls Unit := do
  Prog.write fun c => { c with known := ∅ }
  Prog.write fun c => { c with cyr2lat := [] }
  Prog.write fun c => { c with lat2cyr := [] }
  let _ ← Prog.forEach (fun r => addKnownProg r.name r.alias_) rows
  Prog.write fun c => c.expandExtra rows
  let _ ← Prog.forEach (fillRowProg rows) rows.zipIdx
  pure ()

/-- tagset.py:265-284 `OpencorporaTag.__init__` reads the known grammemes. -/
def mkTagProg (s : Str) : Prog TagCls Tag := Prog.read fun c => c.mkTag s

/-- storage.py:41-82 `load_dict`; files are not shared state here (nobody writes them meanwhile). -/
def loadDictProg (little : Bool) (d : Disk) : Prog TagCls (List (Str × Json) × Dict) := do
  let m ← Prog.lift (loadMeta d)
  Prog.lift (assertFormat m)
  let g ← Prog.lift (readJson d .grammemes)
  let rows ← Prog.lift (rowsOf g)
  initProg rows
  let strs ← Prog.lift (loadGramtab d m (c!"opencorpora-int"))
  let gramtab ← Prog.forEach mkTagProg strs
  let sj ← Prog.lift (readJson d .suffixes)
  let suffixes ← Prog.lift (asStrs sj)
  let paradigms ← Prog.lift (loadParas little d)
  let words ← Prog.lift (loadWords d)
  let prefixes ← Prog.lift (loadPrefixes d m)
  let pred ← Prog.lift (mapE (loadPred d) (List.range prefixes.length))
  let msl ← Prog.lift (maxSuffixOf m)
  pure (m, { paradigms, gramtab, prefixes, suffixes, words, pred, maxSuffixLength := msl })

/-- abbreviations.py:30-35 `_get_gender_case_tags` -/
def genderCaseProg (pattern : Str → Str → Str) : Prog TagCls (List Tag) :=
  Prog.forEach mkTagProg (GENDERS2.flatMap fun g => CASES6.map fun c => pattern g c)

/-- `[t for t in tags if g in t]` -/
def filterProg (g : Str) (tags : List Tag) : Prog TagCls (List Tag) := Prog.read fun c => filterE (fun t => c.contains t g) tags

variable {S : Type} [Score S]

/-- `unit.clone(); unit.init(morph)`: the same lines as `UnitSpec.bind`, as accesses to the tag class. -/
def UnitSpec.bindProg (sp : UnitSpec S) (id : Nat) : Prog TagCls (BUnit S) :=
  match sp with
  | .dictionary => pure ⟨id, .dictionary⟩
  | .firstName letters pattern score => do
    addKnownProg (c!"Init") (c!"иниц") false
    addKnownProg (c!"Name") (c!"имя") false
    let tags ← genderCaseProg pattern
    let masc ← filterProg (c!"masc") tags
    let femn ← filterProg (c!"femn") tags
    if tagsEq (masc ++ femn) tags then pure ⟨id, .firstName letters masc femn score⟩ else Prog.lift (.error .assertionError)
  | .patronymic letters pattern score => do
    addKnownProg (c!"Init") (c!"иниц") false
    addKnownProg (c!"Patr") (c!"отч") false
    let tags ← genderCaseProg pattern
    pure ⟨id, .patronymic letters tags score⟩
  | .number score => do
    addKnownProg (c!"NUMB") (c!"ЧИСЛО")
    addKnownProg (c!"intg") (c!"цел")
    addKnownProg (c!"real") (c!"вещ")
    let ti ← mkTagProg (c!"NUMB,intg")
    let tr ← mkTagProg (c!"NUMB,real")
    pure ⟨id, .number ti tr score⟩
  | .punct score => do
    addKnownProg (c!"PNCT") (c!"ЗПР")
    let t ← mkTagProg (c!"PNCT")
    pure ⟨id, .punct t score⟩
  | .latin score => do
    addKnownProg (c!"LATN") (c!"ЛАТ")
    let t ← mkTagProg (c!"LATN")
    pure ⟨id, .latin t score⟩
  | .roman score => do
    addKnownProg (c!"ROMN") (c!"РИМ")
    let t ← mkTagProg (c!"ROMN")
    pure ⟨id, .roman t score⟩
  | .particle ps mult => pure ⟨id, .particle ps mult⟩
  | .adverb mult => do
    let t ← mkTagProg (c!"ADVB")
    pure ⟨id, .adverb t mult⟩
  | .hyphenated skip mult => pure ⟨id, .hyphenated skip mult⟩
  | .knownPrefix ps mult k => pure ⟨id, .knownPrefix ps mult k⟩
  | .unknownPrefix mult => pure ⟨id, .unknownPrefix mult⟩
  | .knownSuffix mult k => pure ⟨id, .knownSuffix mult k⟩
  | .unkn => do
    addKnownProg (c!"UNKN") (c!"НЕИЗВ")
    let t ← mkTagProg (c!"UNKN")
    pure ⟨id, .unkn t⟩

/-- analyzer.py:226-238 `_init_units`, the loop. -/
def bindUnitsProg : List (UnitSpec S × Bool) → Nat → Prog TagCls (List (BUnit S × Bool))
  | [], _ => pure []
  | (sp, t) :: sps, id => do
    let u ← sp.bindProg id
    let rest ← bindUnitsProg sps (id + 1)
    pure ((u, t) :: rest)

/-- The language analyzer.py:197-198 hands on. -/
def MorphArgs.lang1 (a : MorphArgs S) : Option Str := if a.path = none ∧ a.lang = none then some (c!"ru") else a.lang

/-- analyzer.py:202-224: the part of `MorphAnalyzer.__init__` under the lock.  The class state stored in the result is the one at the end
(an analyzer refers to the class, it has no copy). -/
def lockedPart (s : Sys) (a : MorphArgs S) (path : Str) : Prog TagCls (Analyzer S) := do
  let r ← loadDictProg s.little (s.disk path)
  let dl ← Prog.lift (dictLang r.1)
  let l := chooseLanguage dl a.lang1
  let est ← Prog.lift (loadEst (s.disk path) r.1 a.est)
  let sub := a.sub.getD (defaultSubst l)
  let units := a.units.getD (defaultUnits l)
  let flat ← Prog.lift (mapE flattenItem units)
  let us ← bindUnitsProg flat.flatten 0
  let cls ← Prog.read fun c => .ok c
  pure ⟨⟨s.env, r.2, cls, sub, us, est⟩, l, a.path, a.lang, a.resultType, units⟩

/-! ### Threads -/

/-- A thread: it has not started its call yet, holds the lock and is running, or has finished.  What a call does before it takes the lock
does not use the shared state (analyzer.py:193-200): either an exception or the program to run under the lock.
A `free` thread accesses the shared state without the lock. -/
inductive Th (σ α : Type)
  | start (call : Except PyErr (Prog σ α))
  | inside (p : Prog σ α)
  | free (p : Prog σ α)
  | fin (r : Except PyErr α)

/-- All threads, the shared state and the owner of the lock. -/
structure Cfg (σ α : Type) where
  st : σ
  owner : Option Nat
  ths : List (Th σ α)

/-- One step of one thread. -/
inductive Step {σ α : Type} : Cfg σ α → Cfg σ α → Prop
  /-- the call fails before it needs the lock -/
  | fail (c : Cfg σ α) (i : Nat) (e : PyErr) (h : c.ths[i]? = some (.start (.error e))) :
    Step c { c with ths := c.ths.set i (.fin (.error e)) }
  /-- `with self._lock:` entered, which is possible only when no other thread is inside -/
  | acquire (c : Cfg σ α) (i : Nat) (p : Prog σ α) (h : c.ths[i]? = some (.start (.ok p))) (ho : c.owner = none) :
    Step c { c with owner := some i, ths := c.ths.set i (.inside p) }
  /-- an access to the shared state by the thread inside -/
  | access (c : Cfg σ α) (i : Nat) (u : σ → σ) (n : σ → Prog σ α) (h : c.ths[i]? = some (.inside (.act u n))) :
    Step c { c with st := u c.st, ths := c.ths.set i (.inside (n c.st)) }
  /-- the block is left, normally or by an exception: the lock is released -/
  | release (c : Cfg σ α) (i : Nat) (r : Except PyErr α) (h : c.ths[i]? = some (.inside (.done r))) :
    Step c { c with owner := none, ths := c.ths.set i (.fin r) }
  /-- an access without the lock -/
  | freeAccess (c : Cfg σ α) (i : Nat) (u : σ → σ) (n : σ → Prog σ α) (h : c.ths[i]? = some (.free (.act u n))) :
    Step c { c with st := u c.st, ths := c.ths.set i (.free (n c.st)) }
  | freeDone (c : Cfg σ α) (i : Nat) (r : Except PyErr α) (h : c.ths[i]? = some (.free (.done r))) :
    Step c { c with ths := c.ths.set i (.fin r) }

/-- A schedule: any number of steps. -/
inductive Steps {σ α : Type} : Cfg σ α → Cfg σ α → Prop
  | refl (c : Cfg σ α) : Steps c c
  | tail {a b c : Cfg σ α} (h : Steps a b) (h' : Step b c) : Steps a c

/-- The call `MorphAnalyzer(...)` in a thread. -/
def constructTh (s : Sys) (a : MorphArgs S) : Th TagCls (Analyzer S) :=
  .start ((choosePath s a.path a.lang1).map (lockedPart s a))

end Verif
