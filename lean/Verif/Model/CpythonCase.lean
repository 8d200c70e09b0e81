/-
The case methods of strings in CPython 3.11 (Unicode 14.0), which /repo/pymorphy2/shapes.py:157-165 calls: a concrete `CaseEnv`.  They are not part of /repo; each
definition says which C function it follows.  tools/diff_case.py compares them with the interpreter.
-/
import Verif.Model.Case
import Verif.Model.Cpython
import Verif.Model.UnicodeCase

namespace Verif.Cpython

open Verif.Unicode

/-- Upper case of a code point, if it is one character. -/
def upperNat (n : Nat) : Nat :=
  match upperTable.find? fun r => r.1 ≤ n && n ≤ r.2.1 && (n - r.1) % r.2.2.1 == 0 with
  | some r => r.2.2.2 + (n - r.1)
  | none => n

/-- `_PyUnicode_ToUpperFull` -/
def upperNats (n : Nat) : List Nat :=
  match upperSpecial.find? fun r => r.1 == n with
  | some r => r.2
  | none => [upperNat n]

/-- `_PyUnicode_ToTitleFull` -/
def titleNats (n : Nat) : List Nat :=
  match titleTable.find? fun r => r.1 == n with
  | some r => r.2
  | none => upperNats n

def upperFull (c : Char) : Str := (upperNats c.toNat).map Char.ofNat
def titleFull (c : Char) : Str := (titleNats c.toNat).map Char.ofNat

/-- `_PyUnicode_IsLowercase`, `_PyUnicode_IsUppercase`, `_PyUnicode_IsTitlecase`, `_PyUnicode_IsCased` -/
def isL (c : Char) : Bool := inTable islowerTable c
def isU (c : Char) : Bool := inTable isupperTable c
def isT (c : Char) : Bool := inTable istitleTable c
def cased (c : Char) : Bool := isL c || isU c || isT c

/-- `str.upper`, shapes.py:161 -/
def upper (w : Str) : Str := w.flatMap upperFull

/-- `do_title` (Objects/unicodeobject.c): `before` is reversed, `prev` tells whether the previous character is cased. -/
def titleLoop : Str → Bool → Str → Str
  | _, _, [] => []
  | before, prev, c :: s => (if prev then lowerAt before c s else titleFull c) ++ titleLoop (c :: before) (cased c) s

/-- `str.title`, shapes.py:163 -/
def title (w : Str) : Str := titleLoop [] false w

/-- `str.islower`, shapes.py:158 -/
def isLowerStr (w : Str) : Bool := w.any isL && w.all fun c => !(isU c || isT c)

/-- `str.isupper`, shapes.py:160 -/
def isUpperStr (w : Str) : Bool := w.any isU && w.all fun c => !(isL c || isT c)

/-- The loop of `unicode_istitle_impl`. -/
def istitleLoop : Bool → Bool → Str → Bool
  | _, found, [] => found
  | prev, found, c :: s =>
    if isU c || isT c then !prev && istitleLoop true true s
    else if isL c then prev && istitleLoop true true s
    else istitleLoop false found s

/-- `str.istitle`, shapes.py:162 -/
def isTitleStr (w : Str) : Bool := istitleLoop false false w

/-- CPython 3.11. -/
def cpythonCase : CaseEnv := { lower, upper, title, isLower := isLowerStr, isUpper := isUpperStr, isTitle := isTitleStr }

end Verif.Cpython
