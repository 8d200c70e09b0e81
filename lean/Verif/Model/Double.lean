/-
Double precision scores.  CPython computes scores with IEEE-754 binary64 arithmetic, round to nearest, ties to even.
SIMPLIFICATION: the exponent is unbounded, so there is neither overflow nor underflow and no infinity or NaN; signed zero is
not distinguished from zero.
-/
import Verif.Model.Config
import Verif.Model.Inflect
import Mathlib.Data.Int.Log
import Mathlib.Data.Rat.Floor
import Mathlib.Algebra.Order.Round
import Mathlib.Algebra.Ring.Int.Parity

namespace Verif

/-- The integer nearest to `x`; the even one of the two when `x` is halfway between them. -/
def rne (x : Rat) : Int :=
  if x - ⌊x⌋ < 1 / 2 then ⌊x⌋
  else if 1 / 2 < x - ⌊x⌋ then ⌊x⌋ + 1
  else if ⌊x⌋ % 2 = 0 then ⌊x⌋ else ⌊x⌋ + 1

/-- The exponent of the last of the 53 significant bits of `x`. -/
def ulpExp (x : Rat) : Int := Int.log 2 |x| - 52

/-- The double nearest to `x` (53 significant bits, ties to even). -/
def fl (x : Rat) : Rat := if x = 0 then 0 else rne (x / 2 ^ ulpExp x) * 2 ^ ulpExp x

/-- A Python float: a rational number with at most 53 significant bits. -/
structure Dbl where
  val : Rat
  rep : fl val = val

instance : DecidableEq Dbl := fun a b =>
  if h : a.val = b.val then isTrue (by cases a; cases b; cases h; rfl) else isFalse (by rintro rfl; exact h rfl)

end Verif
