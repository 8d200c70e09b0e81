/-
Specification vocabulary for C81: which texts are numbers.  Independent of the scanners in `Model/Cpython`.
-/
import Verif.Base

namespace Verif.Numbers

/-- Digits, with single underscores between digits allowed; `n` is the number of digits.  `D` says what a digit is. -/
inductive Run (D : Char → Prop) : Str → Nat → Prop
  | one {d : Char} : D d → Run D [d] 1
  | next {d : Char} {s : Str} {n : Nat} : D d → Run D s n → Run D (d :: s) (n + 1)
  | under {d : Char} {s : Str} {n : Nat} : D d → Run D s n → Run D (d :: '_' :: s) (n + 1)

/-- Nothing, plus or minus. -/
def Sign (s : Str) : Prop := s = [] ∨ s = ['+'] ∨ s = ['-']

/-- An integer: at most 4300 digits, perhaps with a sign, perhaps with blanks (`B`) around. -/
def IntText (B D : Char → Prop) (w : Str) : Prop :=
  ∃ a s r b n, w = a ++ (s ++ r) ++ b ∧ (∀ c ∈ a, B c) ∧ Sign s ∧ Run D r n ∧ n ≤ 4300 ∧ ∀ c ∈ b, B c

/-- `12`, `12.`, `12.5`, `.5`; `P` says what a point is. -/
inductive Mantissa (P D : Char → Prop) : Str → Prop
  | whole {r : Str} {n : Nat} : Run D r n → Mantissa P D r
  | point {r : Str} {n : Nat} {p : Char} : Run D r n → P p → Mantissa P D (r ++ [p])
  | both {r q : Str} {n k : Nat} {p : Char} : Run D r n → P p → Run D q k → Mantissa P D (r ++ p :: q)
  | fraction {q : Str} {k : Nat} {p : Char} : P p → Run D q k → Mantissa P D (p :: q)

/-- Nothing, or `e`, perhaps a sign, and digits. -/
def Exponent (D : Char → Prop) (x : Str) : Prop :=
  x = [] ∨ ∃ e s r n, x = e :: (s ++ r) ∧ (e = 'e' ∨ e = 'E') ∧ Sign s ∧ Run D r n

/-- The same letters, upper or lower case. -/
def SameLetters (x y : Str) : Prop := x.length = y.length ∧ ∀ p ∈ x.zip y, p.1 = p.2 ∨ p.1.toNat + 32 = p.2.toNat

/-- `inf`, `infinity` or `nan` in any case. -/
def Special (x : Str) : Prop := SameLetters x (c!"inf") ∨ SameLetters x (c!"infinity") ∨ SameLetters x (c!"nan")

/-- A number for `float()`. -/
def FloatText (B P D : Char → Prop) (w : Str) : Prop :=
  ∃ a s x b, w = a ++ (s ++ x) ++ b ∧ (∀ c ∈ a, B c) ∧ Sign s ∧ (Special x ∨ ∃ m e, x = m ++ e ∧ Mantissa P D m ∧ Exponent D e) ∧ ∀ c ∈ b, B c

end Verif.Numbers
