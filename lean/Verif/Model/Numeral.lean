/-
Agreement with numbers that are not ints: floats and fractions (tagset.py:485-512 and analyzer.py:38-42 take any number; `Model/Inflect` has them for
ints).
SIMPLIFICATIONS: complex numbers and strings are not modelled; a zero float has no sign.
-/
import Verif.Model.Inflect
import Verif.Model.Binary64

namespace Verif

/-- A number given to `make_agree_with_number`: an int, a `fractions.Fraction`, a float. -/
inductive PyNum
  | int (n : Int)
  | frac (q : Rat)
  | float (x : B64)

/-- `a % n` of a fraction and a positive int: `a - n * (a // n)`. -/
def ratMod (q : Rat) (n : Nat) : Rat := q - n * ⌊q / n⌋

/-- C's `fmod(v, n)`: `v` minus the multiple of `n` next to it towards zero; exact. -/
def fmod (v : Rat) (n : Nat) : Rat := if v < 0 then - ratMod (-v) n else ratMod v n

/-- `x % n` of a float and a positive int (CPython's `float_rem`): `fmod`, then `n` is added if the result is negative. -/
def floatMod (x : B64) (n : Nat) : B64 :=
  match x with
  | .fin v => if fmod v n < 0 then B64.round (fmod v n + n) else .fin (fmod v n)
  | _ => .nan

/-- tagset.py:486-491 for fractions. -/
def numeralIndexQ (q : Rat) : Nat :=
  if ratMod q 10 = 1 ∧ ratMod q 100 ≠ 11 then 0
  else if ratMod q 10 ≥ 2 ∧ ratMod q 10 ≤ 4 ∧ (ratMod q 100 < 10 ∨ ratMod q 100 ≥ 20) then 1
  else 2

/-- tagset.py:486-491 for floats. -/
def numeralIndexF (x : B64) : Nat :=
  if floatMod x 10 = .fin 1 ∧ floatMod x 100 ≠ .fin 11 then 0
  else if B64.le (.fin 2) (floatMod x 10) = true ∧ B64.le (floatMod x 10) (.fin 4) = true ∧
    (B64.lt (floatMod x 100) (.fin 10) = true ∨ B64.le (.fin 20) (floatMod x 100) = true) then 1
  else 2

/-- tagset.py:486-491 for any number. -/
def PyNum.index : PyNum → Nat
  | .int n => numeralIndex n
  | .frac q => numeralIndexQ q
  | .float x => numeralIndexF x

/-- tagset.py:493-512: the rest of `numeral_agreement_grammemes`, once `index` is known. -/
def numeralAgreementI (pick : Grams → Option Str) (t : Tag) (index : Nat) : List (Option Str) :=
  let POS := t.category pick PARTS_OF_SPEECH
  let case := t.category pick CASES
  let gender := t.category pick GENDERS
  if POS ≠ some (c!"NOUN") ∧ POS ≠ some (c!"ADJF") ∧ POS ≠ some (c!"PRTF") then []
  else if POS = some (c!"NOUN") ∧ case ≠ some (c!"nomn") ∧ case ≠ some (c!"accs") then
    if index = 0 then [some (c!"sing"), case] else [some (c!"plur"), case]
  else if index = 0 then
    if case = some (c!"nomn") then [some (c!"sing"), some (c!"nomn")] else [some (c!"sing"), some (c!"accs")]
  else if POS = some (c!"NOUN") ∧ index = 1 then [some (c!"sing"), some (c!"gent")]
  else if (POS = some (c!"ADJF") ∨ POS = some (c!"PRTF")) ∧ gender = some (c!"femn") ∧ index = 1 then
    [some (c!"plur"), some (c!"nomn")]
  else [some (c!"plur"), some (c!"gent")]

/-- tagset.py:485-512 `numeral_agreement_grammemes` for any number. -/
def numeralAgreementN (pick : Grams → Option Str) (t : Tag) (num : PyNum) : List (Option Str) := numeralAgreementI pick t num.index

/-- analyzer.py:38-42 `make_agree_with_number`, once the `index` of the number is known (as `Morph.makeAgree`). -/
def Morph.makeAgreeI {S : Type} [Score S] (m : Morph S) (sim : Sim) (pick : Grams → Option Str) (p : Parse S) (index : Nat) :
    Except PyErr (Option (Parse S)) :=
  match allSome (numeralAgreementI pick p.tag index) with
  | some req => m.inflect sim p req
  | none => do
    let _ ← m.lexeme p
    m.cls.assertInit
    .error .valueError

/-- analyzer.py:38-42 `make_agree_with_number` for any number. -/
def Morph.makeAgreeN {S : Type} [Score S] (m : Morph S) (sim : Sim) (pick : Grams → Option Str) (p : Parse S) (num : PyNum) :
    Except PyErr (Option (Parse S)) := m.makeAgreeI sim pick p num.index

/-! ### `decimal.Decimal` -/

/-- A `decimal.Decimal`: `coeff * 10 ^ exp`, infinite, or not a number. -/
inductive Dec
  | fin (neg : Bool) (coeff : Nat) (exp : Int)
  | inf (neg : Bool)
  | nan

/-- The exact value of a finite decimal. -/
def Dec.value : Dec → Option Rat
  | .fin neg c e => some ((if neg then -1 else 1) * c * 10 ^ e)
  | _ => none

/-- Rounding to the precision of the default context: 28 significant digits, half to even (the limits on exponents are not modelled). -/
def decFix (r : Rat) : Rat :=
  if r = 0 then 0 else rne (r / 10 ^ (Int.log 10 |r| - 27)) * 10 ^ (Int.log 10 |r| - 27)

/-- `x % n` of a decimal value and a positive int: unlike for other numbers the quotient is rounded towards zero, so the remainder has the sign of `x`;
it is rounded to the precision.  `none` is `decimal.InvalidOperation`: the quotient needs more digits than the precision. -/
def decMod (v : Rat) (n : Nat) : Option Rat :=
  if 10 ^ 28 ≤ |v - fmod v n| / n then none else some (decFix (fmod v n))

/-- tagset.py:486-491 for decimals; `none` is `decimal.InvalidOperation`, which also comes from `Infinity % 10` and from `NaN % 10 >= 2`.  (The code computes
`num % 100` only after `num % 10`, and not always; it is defined whenever `num % 10` is.) -/
def numeralIndexD (x : Dec) : Option Nat := do
  let v ← x.value
  let a ← decMod v 10
  let b ← decMod v 100
  pure (if a = 1 ∧ b ≠ 11 then 0 else if a ≥ 2 ∧ a ≤ 4 ∧ (b < 10 ∨ b ≥ 20) then 1 else 2)

/-- analyzer.py:38-42 `make_agree_with_number` for a decimal; `none` is `decimal.InvalidOperation`. -/
def Morph.makeAgreeD {S : Type} [Score S] (m : Morph S) (sim : Sim) (pick : Grams → Option Str) (p : Parse S) (x : Dec) :
    Option (Except PyErr (Option (Parse S))) :=
  (numeralIndexD x).map fun index => m.makeAgreeI sim pick p index

end Verif
