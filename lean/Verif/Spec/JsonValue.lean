/-
The values `json_write` is given, for C92.
-/
import Verif.Model.Storage

namespace Verif

/-- A value Python can hold: the keys of a dict are different. -/
inductive Json.Plain : Json → Prop
  | null : Json.Plain .null
  | bool (b : Bool) : Json.Plain (.bool b)
  | num (n : Int) : Json.Plain (.num n)
  | str (s : Str) : Json.Plain (.str s)
  | arr (l : List Json) (h : ∀ j ∈ l, Json.Plain j) : Json.Plain (.arr l)
  | obj (l : List (Str × Json)) (hk : (l.map Prod.fst).Nodup) (h : ∀ e ∈ l, Json.Plain e.2) : Json.Plain (.obj l)

/-- A list or a dict: what the functions of storage.py write into a file. -/
def Json.Container : Json → Prop
  | .arr _ => True
  | .obj _ => True
  | _ => False

end Verif
