/-
Scores as IEEE-754 binary64 numbers with the exponent range of the format: gradual underflow below 2^-1022, infinity from 2^1024 on, NaN.
`Model/Double` has the same rounding without the bounds on the exponent.
SIMPLIFICATIONS: signed zero is not distinguished from zero; the conversion of an int of 2^1024 or more, which raises OverflowError in
Python, gives infinity; so does nothing here raise ZeroDivisionError (the code that divides checks first, see `applyToParses`, or divides by
a positive int), dividing by zero gives NaN.
-/
import Verif.Model.Dbl

namespace Verif

/-- A Python float. -/
inductive B64
  | fin (v : Rat)
  | inf (neg : Bool)
  | nan
  deriving DecidableEq

namespace B64

/-- The exponent of the last bit: that of the 53rd significant bit, but never below -1074. -/
def ulp (x : Rat) : Int := max (ulpExp x) (-1074)

/-- Round to nearest, ties to even. -/
def round (x : Rat) : B64 :=
  let r : Rat := if x = 0 then 0 else rne (x / 2 ^ ulp x) * 2 ^ ulp x
  if |r| < 2 ^ (1024 : Int) then .fin r else .inf (decide (x < 0))

/-- Is the number negative? -/
def isNeg : B64 → Bool
  | .fin v => decide (v < 0)
  | .inf n => n
  | .nan => false

def neg : B64 → B64
  | .fin v => .fin (-v)
  | .inf n => .inf (!n)
  | .nan => .nan

/-- `a + b` -/
def add : B64 → B64 → B64
  | .fin a, .fin b => round (a + b)
  | .inf s, .inf t => if s = t then .inf s else .nan
  | .inf s, .fin _ => .inf s
  | .fin _, .inf t => .inf t
  | .nan, _ => .nan
  | _, .nan => .nan

/-- `a * b` -/
def mul : B64 → B64 → B64
  | .fin a, .fin b => round (a * b)
  | .nan, _ => .nan
  | _, .nan => .nan
  | x, y => if x = .fin 0 ∨ y = .fin 0 then .nan else .inf (x.isNeg != y.isNeg)

/-- `a / b` -/
def div : B64 → B64 → B64
  | .fin a, .fin b => if b = 0 then .nan else round (a / b)
  | .nan, _ => .nan
  | _, .nan => .nan
  | .fin _, .inf _ => .fin 0
  | .inf _, .inf _ => .nan
  | .inf s, .fin b => .inf (s != decide (b < 0))

/-- `a <= b`; comparisons with NaN are false. -/
def le : B64 → B64 → Bool
  | .fin a, .fin b => decide (a ≤ b)
  | .nan, _ => false
  | _, .nan => false
  | .inf true, _ => true
  | _, .inf false => true
  | _, _ => false

/-- `a < b` -/
def lt : B64 → B64 → Bool
  | .fin a, .fin b => decide (a < b)
  | .nan, _ => false
  | _, .nan => false
  | .inf true, y => decide (y ≠ .inf true)
  | x, .inf false => decide (x ≠ .inf false)
  | _, _ => false

end B64

instance : Score B64 where
  zero := .fin 0
  one := .fin 1
  ofNat := fun n => B64.round n
  add := B64.add
  mul := B64.mul
  div := B64.div
  le := B64.le
  isZero := fun a => decide (a = .fin 0)

/-- analyzer.py:383 `a - 0.1 * b`; `a` and `b` are lengths of sets. -/
def Sim.b64 : Sim :=
  ⟨B64, fun a b => B64.add (B64.round a) (B64.neg (B64.mul (B64.round (1 / 10)) (B64.round b))), B64.lt⟩

/-- A double as binary64 number. -/
def Dbl.b64 (x : Dbl) : B64 := .fin x.val

/-- The same analyzer, its parameters as binary64 numbers. -/
def Morph.toB64 (m : Morph Dbl) : Morph B64 :=
  { env := m.env, dict := m.dict, cls := m.cls, sub := m.sub,
    units := m.units.map fun u => (u.1.mapS Dbl.b64, u.2), est := m.est }

end Verif
