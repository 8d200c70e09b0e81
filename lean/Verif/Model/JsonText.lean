/-
Model of `json_write` and `json_read` (/repo/pymorphy2/utils.py:77-89) down to the bytes in the file: `json.dump(obj, f, ensure_ascii=False, indent=2)` into
a file opened with `codecs.open(filename, 'w', 'utf8')`, and `json.load` of a file opened with `codecs.open(filename, 'r', 'utf8')`.  The module `json` and the
codec are CPython's; what they do is modelled here from their documentation and was compared with CPython 3.11.  Not modelled: the limits on the depth of
nesting and on the number of digits of an integer (4300).
-/
import Verif.Model.Storage

namespace Verif

/-! ### Writing -/

/-- json.encoder `ESCAPE_DCT`: quotes, backslashes and control characters are escaped, nothing else (`ensure_ascii=False`, utils.py:80). -/
def jsonEsc (c : Char) : Str :=
  if c = '"' then ['\\', '"'] else if c = '\\' then ['\\', '\\']
  else if c = Char.ofNat 10 then ['\\', 'n'] else if c = Char.ofNat 13 then ['\\', 'r'] else if c = Char.ofNat 9 then ['\\', 't']
  else if c = Char.ofNat 12 then ['\\', 'f'] else if c = Char.ofNat 8 then ['\\', 'b']
  else if c.toNat < 32 then ['\\', 'u', '0', '0', (c.toNat / 16).digitChar, (c.toNat % 16).digitChar]
  else [c]

/-- A string in quotes. -/
def jsonStr (s : Str) : Str := '"' :: (s.flatMap jsonEsc ++ ['"'])

/-- `int.__repr__` -/
def jsonInt : Int → Str
  | .ofNat n => Nat.toDigits 10 n
  | .negSucc n => '-' :: Nat.toDigits 10 (n + 1)

/-- A new line and the indentation (`indent=2`, utils.py:81). -/
def jsonNl (k : Nat) : Str := Char.ofNat 10 :: List.replicate k ' '

mutual
/-- utils.py:77-83: `json.dump` of a value at indentation `k`. -/
def Json.text (k : Nat) : Json → Str
  | .null => c!"null"
  | .bool true => c!"true"
  | .bool false => c!"false"
  | .num n => jsonInt n
  | .str s => jsonStr s
  | .arr l => '[' :: arrText k l
  | .obj l => '{' :: objText k l
/-- A list after its opening bracket. -/
def arrText (k : Nat) : List Json → Str
  | [] => [']']
  | x :: xs => jsonNl (k + 2) ++ (x.text (k + 2) ++ arrTail k xs)
/-- A list after one of its items. -/
def arrTail (k : Nat) : List Json → Str
  | [] => jsonNl k ++ [']']
  | x :: xs => ',' :: (jsonNl (k + 2) ++ (x.text (k + 2) ++ arrTail k xs))
/-- An object after its opening bracket. -/
def objText (k : Nat) : List (Str × Json) → Str
  | [] => ['}']
  | e :: es => jsonNl (k + 2) ++ (pairText (k + 2) e ++ objTail k es)
/-- An object after one of its entries. -/
def objTail (k : Nat) : List (Str × Json) → Str
  | [] => jsonNl k ++ ['}']
  | e :: es => ',' :: (jsonNl (k + 2) ++ (pairText (k + 2) e ++ objTail k es))
/-- An entry of an object. -/
def pairText (k : Nat) : Str × Json → Str
  | (key, v) => jsonStr key ++ ':' :: ' ' :: v.text k
end

/-! ### Reading -/

/-- json.decoder `WHITESPACE` -/
def jsonWs (c : Char) : Bool := c = ' ' || c = Char.ofNat 9 || c = Char.ofNat 10 || c = Char.ofNat 13

def skipWs (s : Str) : Str := s.dropWhile jsonWs

/-- The value of a hexadecimal digit. -/
def hexVal (c : Char) : Option Nat :=
  if '0' ≤ c ∧ c ≤ '9' then some (c.toNat - 48)
  else if 'a' ≤ c ∧ c ≤ 'f' then some (c.toNat - 87)
  else if 'A' ≤ c ∧ c ≤ 'F' then some (c.toNat - 55)
  else none

/-- Four hexadecimal digits. -/
def hex4 (a b c d : Char) : Option Nat := do
  let a ← hexVal a
  let b ← hexVal b
  let c ← hexVal c
  let d ← hexVal d
  pure (4096 * a + 256 * b + 16 * c + d)

/-- json.decoder `BACKSLASH` -/
def jsonUnesc (c : Char) : Option Char :=
  if c = '"' then some '"' else if c = '\\' then some '\\' else if c = '/' then some '/'
  else if c = 'b' then some (Char.ofNat 8) else if c = 'f' then some (Char.ofNat 12) else if c = 'n' then some (Char.ofNat 10)
  else if c = 'r' then some (Char.ofNat 13) else if c = 't' then some (Char.ofNat 9)
  else none

/-- Code units that are no characters of their own. -/
def isSurrogate (n : Nat) : Bool := decide (0xD800 ≤ n) && decide (n ≤ 0xDFFF)

/-- The character of a surrogate pair. -/
def surrogatePair (hi lo : Nat) : Option Char :=
  if 0xD800 ≤ hi ∧ hi ≤ 0xDBFF ∧ 0xDC00 ≤ lo ∧ lo ≤ 0xDFFF then some (Char.ofNat (0x10000 + 1024 * (hi - 0xD800) + (lo - 0xDC00))) else none

/-- Put a character in front of a scanned string. -/
def consScanned (c : Char) (r : Option (Str × Str)) : Option (Str × Str) := r.map fun x => (c :: x.1, x.2)

/-- json.decoder `scanstring` (strict) after the opening quote: the string and the rest; `none` is `JSONDecodeError`.  A lone surrogate, which is no character
here, is refused (Python accepts it; it is never written). -/
def scanStr : Str → Option (Str × Str)
  | [] => none
  | c :: r =>
    if c = '"' then some ([], r)
    else if c = '\\' then
      match r with
      | [] => none
      | e :: r1 =>
        if e = 'u' then
          match r1 with
          | a :: b :: c :: d :: r2 =>
            match hex4 a b c d with
            | none => none
            | some n =>
              if isSurrogate n then
                match r2 with
                | '\\' :: 'u' :: a2 :: b2 :: c2 :: d2 :: r3 =>
                  match (hex4 a2 b2 c2 d2).bind (surrogatePair n) with
                  | none => none
                  | some x => consScanned x (scanStr r3)
                | _ => none
              else consScanned (Char.ofNat n) (scanStr r2)
          | _ => none
        else match jsonUnesc e with
          | none => none
          | some x => consScanned x (scanStr r1)
    else if c.toNat < 32 then none
    else consScanned c (scanStr r)

/-- The fraction of a number: a point followed by a digit. -/
def scanFrac : Str → Str × Str
  | '.' :: d :: r => if d.isDigit then ('.' :: d :: r.takeWhile Char.isDigit, r.dropWhile Char.isDigit) else ([], '.' :: d :: r)
  | s => ([], s)

/-- The sign of an exponent. -/
def scanSign : Str → Str × Str
  | c :: r => if c = '+' ∨ c = '-' then ([c], r) else ([], c :: r)
  | [] => ([], [])

/-- The exponent of a number. -/
def scanExp : Str → Str × Str
  | [] => ([], [])
  | c :: r =>
    if c = 'e' ∨ c = 'E' then
      if ((scanSign r).2.takeWhile Char.isDigit).isEmpty then ([], c :: r)
      else (c :: ((scanSign r).1 ++ (scanSign r).2.takeWhile Char.isDigit), (scanSign r).2.dropWhile Char.isDigit)
    else ([], c :: r)

/-- json.scanner `_match_number_unicode` after the digits before the point: an integer, or (`parse_float=str`, storage.py:155; only metadata is read back with
numbers in it) the text of the number. -/
def scanRest (neg : Bool) (ip s : Str) : Json × Str :=
  let f := scanFrac s
  let e := scanExp f.2
  if f.1 = [] ∧ e.1 = [] then (.num (if neg then -(Nat.ofDigitChars 10 ip 0 : Int) else Nat.ofDigitChars 10 ip 0), s)
  else (.str ((if neg then ['-'] else []) ++ ip ++ f.1 ++ e.1), e.2)

/-- json.scanner `_match_number_unicode` without the sign. -/
def scanNat (neg : Bool) : Str → Option (Json × Str)
  | [] => none
  | c :: r =>
    if c = '0' then some (scanRest neg ['0'] r)
    else if c.isDigit then some (scanRest neg (c :: r.takeWhile Char.isDigit) (r.dropWhile Char.isDigit))
    else none

/-- json.scanner `_match_number_unicode` -/
def scanNum : Str → Option (Json × Str)
  | [] => none
  | c :: r => if c = '-' then scanNat true r else scanNat false (c :: r)

/-- `null`, `true`, `false` or a number.  (`NaN`, `Infinity` and `-Infinity` are refused; Python accepts them, they are never written.) -/
def scanAtom (s : Str) : Option (Json × Str) :=
  if (c!"null").isPrefixOf s then some (.null, s.drop 4)
  else if (c!"true").isPrefixOf s then some (.bool true, s.drop 4)
  else if (c!"false").isPrefixOf s then some (.bool false, s.drop 5)
  else scanNum s

mutual
/-- json.scanner `scan_once`; the first argument bounds the depth of the calls (`c92_fuel`: the bound of `jsonLoads` is never met). -/
def scanVal : Nat → Str → Option (Json × Str)
  | 0, _ => none
  | _ + 1, [] => none
  | n + 1, c :: r =>
    if c = '"' then (scanStr r).map fun x => (.str x.1, x.2)
    else if c = '[' then
      match skipWs r with
      | ']' :: r' => some (.arr [], r')
      | r' => (scanItems n r').map fun x => (.arr x.1, x.2)
    else if c = '{' then
      match skipWs r with
      | '}' :: r' => some (.obj [], r')
      | r' => (scanPairs n r').map fun x => (.obj (toDictOrdered x.1), x.2)
    else scanAtom (c :: r)
/-- json.scanner `_parse_array_unicode`: at least one item. -/
def scanItems : Nat → Str → Option (List Json × Str)
  | 0, _ => none
  | n + 1, s =>
    match scanVal n s with
    | none => none
    | some v =>
      match skipWs v.2 with
      | ']' :: r => some ([v.1], r)
      | ',' :: r => (scanItems n (skipWs r)).map fun x => (v.1 :: x.1, x.2)
      | _ => none
/-- json.scanner `_parse_object_unicode`: at least one entry. -/
def scanPairs : Nat → Str → Option (List (Str × Json) × Str)
  | 0, _ => none
  | n + 1, s =>
    match s with
    | '"' :: s' =>
      match scanStr s' with
      | none => none
      | some k =>
        match skipWs k.2 with
        | ':' :: s'' =>
          match scanVal n (skipWs s'') with
          | none => none
          | some v =>
            match skipWs v.2 with
            | '}' :: r => some ([(k.1, v.1)], r)
            | ',' :: r => (scanPairs n (skipWs r)).map fun x => ((k.1, v.1) :: x.1, x.2)
            | _ => none
        | _ => none
    | _ => none
end

/-- `json.loads`, json.decoder `JSONDecoder.decode`: nothing but white space may be around the value.  `JSONDecodeError` is a `ValueError`. -/
def jsonLoads (s : Str) : Except PyErr Json :=
  match scanVal (2 * s.length + 2) (skipWs s) with
  | none => .error .valueError
  | some v => if skipWs v.2 = [] then .ok v.1 else .error .valueError

/-! ### UTF-8 -/

/-- The bytes of a character. -/
def utf8Char (c : Char) : List Nat :=
  let n := c.toNat
  if n < 0x80 then [n]
  else if n < 0x800 then [0xC0 + n / 64, 0x80 + n % 64]
  else if n < 0x10000 then [0xE0 + n / 4096, 0x80 + n / 64 % 64, 0x80 + n % 64]
  else [0xF0 + n / 262144, 0x80 + n / 4096 % 64, 0x80 + n / 64 % 64, 0x80 + n % 64]

/-- `s.encode('utf8')` -/
def utf8 (s : Str) : List Nat := s.flatMap utf8Char

/-- A continuation byte. -/
def isCont (b : Nat) : Bool := decide (0x80 ≤ b) && decide (b < 0xC0)

/-- Put a character in front of a decoded text. -/
def consDecoded (n : Nat) (r : Option Str) : Option Str := r.map fun s => Char.ofNat n :: s

/-- May `b` follow the first byte `a`?  (No overlong forms, no surrogates, nothing above U+10FFFF.) -/
def secondOk (a b : Nat) : Bool :=
  isCont b && !(decide (a = 0xE0) && decide (b < 0xA0)) && !(decide (a = 0xED) && decide (0xA0 ≤ b)) && !(decide (a = 0xF0) && decide (b < 0x90))
    && !(decide (a = 0xF4) && decide (0x90 ≤ b))

/-- `codecs.open(…, 'r', 'utf8').read()` (utils.py:88): strict, except that the `StreamReader` leaves out a character whose bytes are not all there at the end of the
file; `none` is `UnicodeDecodeError`, a `ValueError`. -/
def utf8Decode : List Nat → Option Str
  | [] => some []
  | a :: r =>
    if a < 0x80 then consDecoded a (utf8Decode r)
    else if a < 0xC2 then none
    else if a < 0xE0 then
      match r with
      | [] => some []
      | b :: r => if isCont b then consDecoded ((a - 0xC0) * 64 + (b - 0x80)) (utf8Decode r) else none
    else if a < 0xF0 then
      match r with
      | [] => some []
      | [b] => if secondOk a b then some [] else none
      | b :: c :: r =>
        if secondOk a b && isCont c then consDecoded ((a - 0xE0) * 4096 + (b - 0x80) * 64 + (c - 0x80)) (utf8Decode r) else none
    else if a < 0xF5 then
      match r with
      | [] => some []
      | [b] => if secondOk a b then some [] else none
      | [b, c] => if secondOk a b && isCont c then some [] else none
      | b :: c :: d :: r =>
        if secondOk a b && isCont c && isCont d then
          consDecoded ((a - 0xF0) * 262144 + (b - 0x80) * 4096 + (c - 0x80) * 64 + (d - 0x80)) (utf8Decode r)
        else none
    else none

/-! ### Files -/

/-- utils.py:77-83 `json_write`: the bytes in the file. -/
def jsonWrite (j : Json) : List Nat := utf8 (j.text 0)

/-- utils.py:86-89 `json_read` of a file with these bytes. -/
def jsonRead (b : List Nat) : Except PyErr Json :=
  match utf8Decode b with
  | none => .error .valueError
  | some s => jsonLoads s

/-! ### Folders with bytes -/

/-- A file of a dictionary on the disk: a JSON file is bytes; the other kinds are as in `File`. -/
inductive RawFile
  | text (b : List Nat)
  | other (f : File)

/-- A folder. -/
abbrev RawDisk := FName → Option RawFile

/-- utils.py:77-83: what is in a file after it was written. -/
def File.raw : File → RawFile
  | .json j => .text (jsonWrite j)
  | f => .other f

/-- utils.py:86-89: what a reader gets from a file. -/
def RawFile.seen : RawFile → File
  | .text b => match jsonRead b with
    | .ok j => .json j
    | .error _ => .broken
  | .other f => f

/-- What the functions of storage.py get from a folder. -/
def RawDisk.seen (d : RawDisk) : Disk := fun n => (d n).map RawFile.seen

/-- Replace one file. -/
def RawDisk.set (d : RawDisk) (n : FName) (f : RawFile) : RawDisk := fun n' => if n' = n then some f else d n'

/-- All writes done. -/
def RawDisk.writeAll (d : RawDisk) : List (FName × File) → RawDisk
  | [] => d
  | w :: ws => (d.set w.1 w.2.raw).writeAll ws

/-- What may be in a file when writing it was interrupted: `codecs.open(filename, 'w', 'utf8')` (utils.py:82) truncates the file, then bytes are appended, so any
number of the bytes of a JSON file may be there, all of them included. -/
inductive RawPartOf : File → RawFile → Prop
  | json (j : Json) (b : List Nat) (h : b <+: jsonWrite j) : RawPartOf (.json j) (.text b)
  | other (f f' : File) (hf : ∀ j, f ≠ .json j) (h : PartOf f f') : RawPartOf f (.other f')

/-- The folders a process can leave when it is killed while doing the writes in order. -/
inductive KilledRaw : RawDisk → List (FName × File) → RawDisk → Prop
  | before (d : RawDisk) (w : FName × File) (ws : List (FName × File)) : KilledRaw d (w :: ws) d
  | inside (d : RawDisk) (w : FName × File) (ws : List (FName × File)) (f : RawFile) (h : RawPartOf w.2 f) : KilledRaw d (w :: ws) (d.set w.1 f)
  | later (d d' : RawDisk) (w : FName × File) (ws : List (FName × File)) (h : KilledRaw (d.set w.1 w.2.raw) ws d') : KilledRaw d (w :: ws) d'

end Verif
