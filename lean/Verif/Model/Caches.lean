/-
The caches that threads share: shapes.py:10-18, tagset.py:300-320, cache.py:41-48, as programs that access shared state.
-/
import Verif.Model.Conc
import Verif.Model.Shapes
import Verif.Model.Cli

namespace Verif

/-- What the threads of a process share: the class and the caches.  Tag objects are numbered (two tags with the same text are different
objects). -/
structure Shared where
  cls : TagCls
  /-- `_latin_letters_cache` -/
  latin : List (Char × Bool)
  /-- `_grammemes_cache` of each tag object -/
  grams : Nat → Option Grams
  /-- `_cyr_grammemes_cache` -/
  cyrGrams : Nat → Option Grams
  /-- `_cyr` -/
  cyr : Nat → Option Str

/-- shapes.py:11-18 `is_latin_char`: look into the cache, compute, `setdefault` (one step: it keeps and returns what is there). -/
def latinProg (e : Env) (c : Char) : Prog Shared Bool := do
  let hit ← Prog.read fun s => .ok (dictGet c s.latin)
  match hit with
  | some b => pure b
  | none => do
    let b ← Prog.lift (isLatinChar e c)
    Prog.act (fun s => if (dictGet c s.latin).isSome then s else { s with latin := dictSet c b s.latin })
      fun s => .done (.ok ((dictGet c s.latin).getD b))

/-- shapes.py:21-41 `is_latin`, using the cache. -/
def allLatinProg (e : Env) : Str → Prog Shared Bool
  | [] => pure true
  | c :: cs =>
    if e.isAlpha c then do
      let b ← latinProg e c
      if b then allLatinProg e cs else pure false
    else allLatinProg e cs

def isLatinProg (e : Env) (token : Str) : Prog Shared Bool := if token.any e.isAlpha then allLatinProg e token else pure false

/-- tagset.py:300-305 `grammemes` of tag object `o`, whose text is `t`: test, write, read again. The result `none` would be Python's
`None`. -/
def grammemesProg (o : Nat) (t : Tag) : Prog Shared (Option Grams) := do
  let miss ← Prog.read fun s => .ok (s.grams o).isNone
  if miss then Prog.write fun s => { s with grams := fun o' => if o' = o then some t.grammemes else s.grams o' } else pure ()
  Prog.read fun s => .ok (s.grams o)

/-- tagset.py:307-313 `grammemes_cyr`; every grammeme is looked up on its own in the class's table. -/
def grammemesCyrProg (o : Nat) (t : Tag) : Prog Shared (Option Grams) := do
  let miss ← Prog.read fun s => .ok (s.cyrGrams o).isNone
  if miss then do
    let l ← Prog.forEach (fun g => Prog.read fun s => s.cls.cyrOf g) t.tuple
    Prog.write fun s => { s with cyrGrams := fun o' => if o' = o then some l.toFinset else s.cyrGrams o' }
  else pure ()
  Prog.read fun s => .ok (s.cyrGrams o)

/-- tagset.py:315-320 `cyr_repr` (the translation reads the table at one moment). -/
def cyrReprProg (isSpace : Char → Bool) (o : Nat) (t : Tag) : Prog Shared (Option Str) := do
  let miss ← Prog.read fun s => .ok (s.cyr o).isNone
  if miss then do
    let v ← Prog.read fun s => .ok (s.cls.toCyr isSpace t.str)
    Prog.write fun s => { s with cyr := fun o' => if o' = o then some v else s.cyr o' }
  else pure ()
  Prog.read fun s => .ok (s.cyr o)

/-- A program that works on the tag class, in a process that has caches as well. -/
def Prog.onCls {α : Type} : Prog TagCls α → Prog Shared α
  | .done r => .done r
  | .act u n => .act (fun s => { s with cls := u s.cls }) fun s => (n s.cls).onCls

/-- cache.py:41-48 `wrapper`, statement by statement: test, call, store, return; the cached value is read in a second access. -/
def memoProg {α β : Type} [DecidableEq α] (f : α → Except PyErr β) (arg : α) : Prog (List (α × β)) β := do
  let hit ← Prog.read fun c => .ok (dictGet arg c).isSome
  if hit then
    Prog.read fun c => match dictGet arg c with
      | some b => .ok b
      | none => .error .keyError
  else do
    let b ← Prog.lift (f arg)
    Prog.write fun c => dictSet arg b c
    pure b

/-- A computation that uses the caches of tags and of Latin letters any number of times, in any order, depending on what it gets.
`obj o t` stands for the `grammemes` of tag object `o`. -/
inductive Client (α : Type)
  | ret (r : Except PyErr α)
  | latin (c : Char) (k : Bool → Client α)
  | grams (o : Nat) (k : Grams → Client α)

/-- The client as it runs (`text o` is the tag of object `o`; `None` instead of a set would raise). -/
def Client.prog {α : Type} (e : Env) (text : Nat → Tag) : Client α → Prog Shared α
  | .ret r => .done r
  | .latin c k => (latinProg e c).bind fun b => (k b).prog e text
  | .grams o k => (grammemesProg o (text o)).bind fun g => match g with
    | some g => (k g).prog e text
    | none => .done (.error .typeError)

/-- What the client computes when there are no caches. -/
def Client.eval {α : Type} (e : Env) (text : Nat → Tag) : Client α → Except PyErr α
  | .ret r => r
  | .latin c k => match isLatinChar e c with
    | .ok b => (k b).eval e text
    | .error x => .error x
  | .grams o k => (k (text o).grammemes).eval e text

end Verif
