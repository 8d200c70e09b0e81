/-
Number formatting of the `parse` command of /repo/pymorphy2/cli.py: `"%0.3f" % score` (cli.py:221, 244, 253).
-/
import Verif.Model.Double
import Verif.Base

namespace Verif

/-- The last three decimal digits. -/
def threeDigits (n : Nat) : Str := [(n / 100 % 10).digitChar, (n / 10 % 10).digitChar, (n % 10).digitChar]

/-- `n` thousandths. -/
def thousandths (n : Nat) : Str := Nat.toDigits 10 (n / 1000) ++ '.' :: threeDigits n

/-- `"%0.3f" % x` for a finite float with the value `x` (cli.py:221, 244, 253; CPython's `PyOS_double_to_string`, format code `f`): correctly rounded to three
places, ties to even.  The sign of a negative zero is not modelled. -/
def fmtScore (x : Rat) : Str :=
  if x < 0 then '-' :: thousandths (rne (-x * 1000)).toNat else thousandths (rne (x * 1000)).toNat

end Verif
