/-
The grammar of JSON (RFC 8259) as a relation between values and texts, and of UTF-8 with a cut-off last character, for C112.  Nothing here refers to the reader.
A number with a fraction or an exponent stands for its text (`parse_float=str`, as metadata is read).
-/
import Verif.Model.JsonText
import Verif.Spec.Firsts

namespace Verif

/-- White space: blanks, tabs, line feeds and carriage returns. -/
def JSpace (s : Str) : Prop := ∀ c ∈ s, c = ' ' ∨ c = Char.ofNat 9 ∨ c = Char.ofNat 10 ∨ c = Char.ofNat 13

/-- `c` is the hexadecimal digit with value `v`, in either case. -/
def JHex (c : Char) (v : Nat) : Prop := (c!"0123456789abcdef")[v]? = some c ∨ (c!"0123456789ABCDEF")[v]? = some c

/-- Four hexadecimal digits. -/
def JHex4 (s : Str) (n : Nat) : Prop :=
  ∃ a b c d x y z t, s = [a, b, c, d] ∧ JHex a x ∧ JHex b y ∧ JHex c z ∧ JHex d t ∧ n = 4096 * x + 256 * y + 16 * z + t

/-- The escapes of two characters, and what they stand for. -/
def jsonShorts : List (Char × Char) :=
  [('"', '"'), ('\\', '\\'), ('/', '/'), ('b', Char.ofNat 8), ('f', Char.ofNat 12), ('n', Char.ofNat 10), ('r', Char.ofNat 13), ('t', Char.ofNat 9)]

/-- The ways of writing a character inside a string. -/
inductive JChar (c : Char) : Str → Prop
  | plain (h1 : c ≠ '"') (h2 : c ≠ '\\') (h3 : 32 ≤ c.toNat) : JChar c [c]
  | short (e : Char) (h : (e, c) ∈ jsonShorts) : JChar c ['\\', e]
  | unit (x : Str) (h : JHex4 x c.toNat) : JChar c (c!"\\u" ++ x)
  | pair (x y : Str) (hi lo : Nat) (hx : JHex4 x hi) (hy : JHex4 y lo) (h1 : 0xD800 ≤ hi ∧ hi < 0xDC00) (h2 : 0xDC00 ≤ lo ∧ lo < 0xE000)
    (hc : c.toNat = 0x10000 + (hi - 0xD800) * 0x400 + (lo - 0xDC00)) : JChar c (c!"\\u" ++ x ++ c!"\\u" ++ y)

/-- The ways of writing a string, without the quotes. -/
inductive JString : Str → Str → Prop
  | nil : JString [] []
  | cons {c : Char} {s x t : Str} (hc : JChar c x) (hs : JString s t) : JString (c :: s) (x ++ t)

/-- One digit or more. -/
def JDigits (s : Str) : Prop := s ≠ [] ∧ ∀ c ∈ s, c.isDigit = true

/-- Digits before the point: no superfluous zeros. -/
def JWhole (s : Str) : Prop := JDigits s ∧ ∀ r, s = '0' :: r → r = []

/-- The fraction of a number, which may be missing. -/
def JFrac (s : Str) : Prop := s = [] ∨ ∃ ds, s = '.' :: ds ∧ JDigits ds

/-- The exponent of a number, which may be missing. -/
def JExp (s : Str) : Prop := s = [] ∨ ∃ e g ds, s = e :: (g ++ ds) ∧ (e = 'e' ∨ e = 'E') ∧ (g = [] ∨ g = ['+'] ∨ g = ['-']) ∧ JDigits ds

/-- What a Python dict holds after the entries were put into it one after the other: each key once, at its first place, with its last value. -/
def LastWins (ps l : List (Str × Json)) : Prop :=
  l.map Prod.fst = firsts (ps.map Prod.fst) ∧ ∀ e ∈ l, ∃ before after, ps = before ++ e :: after ∧ e.1 ∉ after.map Prod.fst

mutual
/-- The texts of a value. -/
inductive JText : Json → Str → Prop
  | null : JText .null (c!"null")
  | true : JText (.bool true) (c!"true")
  | false : JText (.bool false) (c!"false")
  | pos (d : Str) (h : JWhole d) : JText (.num (Nat.ofDigitChars 10 d 0 : Nat)) d
  | neg (d : Str) (h : JWhole d) : JText (.num (-(Nat.ofDigitChars 10 d 0 : Nat))) ('-' :: d)
  | real (g d f e : Str) (hg : g = [] ∨ g = ['-']) (hd : JWhole d) (hf : JFrac f) (he : JExp e) (h : f ≠ [] ∨ e ≠ []) :
    JText (.str (g ++ d ++ f ++ e)) (g ++ d ++ f ++ e)
  | str {s t : Str} (h : JString s t) : JText (.str s) ('"' :: (t ++ ['"']))
  | noItems (w : Str) (hw : JSpace w) : JText (.arr []) ('[' :: (w ++ [']']))
  | items {l : List Json} {t : Str} (w : Str) (hw : JSpace w) (h : JItems l t) : JText (.arr l) ('[' :: (w ++ t))
  | noPairs (w : Str) (hw : JSpace w) : JText (.obj []) ('{' :: (w ++ ['}']))
  | pairs {ps l : List (Str × Json)} {t : Str} (w : Str) (hw : JSpace w) (h : JPairs ps t) (hl : LastWins ps l) : JText (.obj l) ('{' :: (w ++ t))
/-- One item or more, with commas between them, and the closing bracket. -/
inductive JItems : List Json → Str → Prop
  | last {j : Json} {t : Str} (w : Str) (h : JText j t) (hw : JSpace w) : JItems [j] (t ++ (w ++ [']']))
  | more {j : Json} {t : Str} {l : List Json} {t' : Str} (w w' : Str) (h : JText j t) (hw : JSpace w) (hw' : JSpace w') (hl : JItems l t') :
    JItems (j :: l) (t ++ (w ++ ',' :: (w' ++ t')))
/-- One entry or more, with commas between them, and the closing bracket. -/
inductive JPairs : List (Str × Json) → Str → Prop
  | last {k kt : Str} {j : Json} {t : Str} (w1 w2 w : Str) (hk : JString k kt) (h1 : JSpace w1) (h2 : JSpace w2) (h : JText j t) (hw : JSpace w) :
    JPairs [(k, j)] ('"' :: (kt ++ '"' :: (w1 ++ ':' :: (w2 ++ (t ++ (w ++ ['}']))))))
  | more {k kt : Str} {j : Json} {t : Str} {l : List (Str × Json)} {t' : Str} (w1 w2 w w' : Str) (hk : JString k kt) (h1 : JSpace w1) (h2 : JSpace w2)
    (h : JText j t) (hw : JSpace w) (hw' : JSpace w') (hl : JPairs l t') :
    JPairs ((k, j) :: l) ('"' :: (kt ++ '"' :: (w1 ++ ':' :: (w2 ++ (t ++ (w ++ ',' :: (w' ++ t')))))))
end

/-- A document: a value with white space around it. -/
def JDocument (j : Json) (s : Str) : Prop := ∃ w t w', s = w ++ t ++ w' ∧ JSpace w ∧ JText j t ∧ JSpace w'

/-- The first bytes, but not all, of a character (perhaps none at all). -/
def CutChar (b : List Nat) : Prop := ∃ c, b <+: utf8Char c ∧ b ≠ utf8Char c

end Verif
