/-
Scores as Python floats: the `Score` instance for doubles, and an analyzer with its parameters rounded to doubles.
-/
import Verif.Lemmas.Double

namespace Verif

/-- The double nearest to a rational number. -/
def toDbl (x : Rat) : Dbl := ⟨fl x, fl_idem x⟩

/-- Python's float arithmetic: every operation returns the double nearest to the exact result.  `ofNat` is the conversion
of an int operand; `==` and `<=` compare exact values. -/
instance : Score Dbl where
  zero := toDbl 0
  one := toDbl 1
  ofNat := fun n => toDbl n
  add := fun a b => toDbl (a.val + b.val)
  mul := fun a b => toDbl (a.val * b.val)
  div := fun a b => toDbl (a.val / b.val)
  le := fun a b => decide (a.val ≤ b.val)
  isZero := fun a => decide (a.val = 0)

/-- Change the type of the numeric parameters of a unit (the constructor arguments of the units in lang/ru/config.py:169-192 and
lang/uk/config.py:22-44). -/
def UnitCfg.mapS {S T : Type} (f : S → T) : UnitCfg S → UnitCfg T
  | .dictionary => .dictionary
  | .firstName l m g s => .firstName l m g (f s)
  | .patronymic l t s => .patronymic l t (f s)
  | .number a b s => .number a b (f s)
  | .punct t s => .punct t (f s)
  | .latin t s => .latin t (f s)
  | .roman t s => .roman t (f s)
  | .particle p s => .particle p (f s)
  | .adverb t s => .adverb t (f s)
  | .hyphenated k s => .hyphenated k (f s)
  | .knownPrefix p s k => .knownPrefix p (f s) k
  | .unknownPrefix s => .unknownPrefix (f s)
  | .knownSuffix s k => .knownSuffix (f s) k
  | .unkn t => .unkn t

/-- The same for units that are not bound yet. -/
def UnitSpec.mapS {S T : Type} (f : S → T) : UnitSpec S → UnitSpec T
  | .dictionary => .dictionary
  | .firstName l p s => .firstName l p (f s)
  | .patronymic l p s => .patronymic l p (f s)
  | .number s => .number (f s)
  | .punct s => .punct (f s)
  | .latin s => .latin (f s)
  | .roman s => .roman (f s)
  | .particle p s => .particle p (f s)
  | .adverb s => .adverb (f s)
  | .hyphenated k s => .hyphenated k (f s)
  | .knownPrefix p s k => .knownPrefix p (f s) k
  | .unknownPrefix s => .unknownPrefix (f s)
  | .knownSuffix s k => .knownSuffix (f s) k
  | .unkn => .unkn

def BUnit.mapS {S T : Type} (f : S → T) (u : BUnit S) : BUnit T := ⟨u.id, u.cfg.mapS f⟩

/-- The analyzer with its numeric parameters rounded to doubles. -/
def Morph.toDbl (m : Morph Rat) : Morph Dbl :=
  { env := m.env, dict := m.dict, cls := m.cls, sub := m.sub,
    units := m.units.map fun u => (u.1.mapS Verif.toDbl, u.2), est := m.est }

/-- `a - 0.1 * b` in doubles (analyzer.py:383); `a` and `b` are lengths of sets. -/
def Sim.double : Sim :=
  ⟨Dbl, fun a b => toDbl (fl a - fl (fl (1 / 10) * fl b)), fun x y => decide (x.val < y.val)⟩

end Verif
