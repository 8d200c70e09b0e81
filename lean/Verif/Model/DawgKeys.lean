/-
The layout of the word files: what dawg.py:20-46 and docs/internals/dict.rst ("Упаковка слов") say is stored in a `RecordDAWG`.  The library itself is third
party; this is the documented content of its files, as a sorted list of byte strings.
SIMPLIFICATION: the graph that shares common parts of the keys is not modelled, only the set of the keys and that they are visited in the order of bytes.
-/
import Verif.Model.Dict
import Verif.Model.JsonText
import Mathlib.Data.List.Lex
import Mathlib.Data.List.Sort

namespace Verif

/-- dawg.py:28 `">H"`: two bytes, the high one first. -/
def packBE (n : Nat) : List Nat := [n / 256, n % 256]

/-- dawg.py:28 and 46: the formats `">HH"` and `">HHH"`, for the numbers of a record. -/
def packRecord (r : List Nat) : List Nat := r.flatMap packBE

/-- Reading a record back. -/
def unpackRecord : List Nat → List Nat
  | a :: b :: r => (a * 256 + b) :: unpackRecord r
  | _ => []

/-- The alphabet of base64 (docs/internals/dict.rst, "значения в base64"): `A-Z a-z 0-9 + /`. -/
def b64Digit (d : Nat) : Nat :=
  if d < 26 then 65 + d else if d < 52 then 71 + d else if d < 62 then d - 4 else if d = 62 then 43 else 47

/-- The value of a base64 character. -/
def b64Value (c : Nat) : Nat :=
  if 97 ≤ c then c - 71 else if 65 ≤ c then c - 65 else if 48 ≤ c then c + 4 else if c = 43 then 62 else 63

/-- base64 of bytes, padded with `=` (docs/internals/dict.rst). -/
def b64 : List Nat → List Nat
  | a :: b :: c :: r => b64Digit (a / 4) :: b64Digit (a % 4 * 16 + b / 16) :: b64Digit (b % 16 * 4 + c / 64) :: b64Digit (c % 64) :: b64 r
  | [a, b] => [b64Digit (a / 4), b64Digit (a % 4 * 16 + b / 16), b64Digit (b % 16 * 4), 61]
  | [a] => [b64Digit (a / 4), b64Digit (a % 4 * 16), 61, 61]
  | [] => []

/-- Reading base64 back; what follows the last full group is skipped. -/
def unb64 : List Nat → List Nat
  | p :: q :: s :: t :: r =>
    if s = 61 then [b64Value p * 4 + b64Value q / 16]
    else if t = 61 then [b64Value p * 4 + b64Value q / 16, b64Value q % 16 * 16 + b64Value s / 4]
    else (b64Value p * 4 + b64Value q / 16) :: (b64Value q % 16 * 16 + b64Value s / 4) :: (b64Value s % 4 * 64 + b64Value t) :: unb64 r
  | _ => []

/-- A record as a text: packed, in base64 (with the newline that `b2a_base64` puts at the end). -/
def recordText (r : List Nat) : List Nat := b64 (packRecord r) ++ [10]

/-- docs/internals/dict.rst, "Упаковка слов": the key of a record is the word in UTF-8, a separator (the byte 1), and the record. -/
def dawgKey (e : Str × List Nat) : List Nat := utf8 e.1 ++ 1 :: recordText e.2

/-- A word file made of the records: each key once, in the order of bytes. -/
def dawgFile (l : List (Str × List Nat)) : List (List Nat) := (l.map dawgKey).dedup.insertionSort (· ≤ ·)

/-- docs/internals/dict.rst: "to get all analyses of a word find all keys that start with <word> <separator>". -/
def fileVals (f : List (List Nat)) (w : Str) : List (List Nat) :=
  (f.filter fun k => (utf8 w ++ [1]).isPrefixOf k).map fun k => unpackRecord (unb64 (k.drop (utf8 w ++ [1]).length))

/-- `word in words`: is there such a key? -/
def fileHas (f : List (List Nat)) (w : Str) : Bool := f.any fun k => (utf8 w ++ [1]).isPrefixOf k

/-- A key, read back: the word is what precedes the first separator. -/
def readKey (k : List Nat) : Str × List Nat :=
  ((utf8Decode (k.takeWhile (· ≠ 1))).getD [], unpackRecord (unb64 ((k.dropWhile (· ≠ 1)).drop 1)))

/-- wrapper.py:135 `words.iteritems(prefix)`: all keys that start with the prefix. -/
def fileItems (f : List (List Nat)) (p : Str) : List (Str × List Nat) :=
  (f.filter fun k => (utf8 p).isPrefixOf k).map readKey

end Verif
