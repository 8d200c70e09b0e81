/-
Model of pymorphy2/utils.py: `longest_common_substring`, `largest_elements`.
-/
import Verif.Base
import Mathlib.Data.List.Infix
import Mathlib.Data.List.Sort
import Mathlib.Data.List.Dedup

namespace Verif

/-- Python `s[i:i+j]` for non-negative indices. -/
def sliceAt (s : Str) (i j : Nat) : Str := (s.drop i).take j

/-- utils.py:72-73: one step of the inner loop (`sub in x` is "is a contiguous part of"). -/
def lcsStep (data : List Str) (first : Str) (i : Nat) (substr : Str) (j : Nat) : Str :=
  if j > substr.length ∧ ∀ x ∈ data, sliceAt first i j <:+: x then sliceAt first i j else substr

/-- utils.py:70-73: the two loops (`range(len(data[0]))`, `range(len(data[0])-i+1)`). -/
def lcsLoop (data : List Str) (first : Str) : Str :=
  (List.range first.length).foldl
    (fun substr i => (List.range (first.length - i + 1)).foldl (lcsStep data first i) substr) []

/-- utils.py:46-74 `longest_common_substring` -/
def longestCommonSubstring (data : List Str) : Str :=
  match data with
  | [x] => x
  | [] => []
  | first :: rest => if first.length = 0 then [] else lcsLoop (first :: rest) first

/-- Python `set(iterable)` seen as a list without repetitions (its order does not matter for the result below);
`heapq.nlargest(n, ·)`: the `n` largest, in descending order. -/
def nlargest {K : Type} [LinearOrder K] (n : Nat) (keys : List K) : List K :=
  (keys.insertionSort (fun a b => b ≤ a)).take n

/-- utils.py:92-112 `largest_elements` -/
def largestElements {α K : Type} [LinearOrder K] (xs : List α) (key : α → K) (n : Nat) : List α :=
  xs.filter fun el => decide (key el ∈ nlargest n (xs.map key).dedup)

end Verif
