/-
Model of the comparison operators on tags and on results: /repo/pymorphy2/tagset.py:358-371 (`__eq__`, `__ne__`, `__lt__`, `__gt__`, `__hash__`; there is
no `__le__` and no `__ge__`), and Python's rules for operators and for comparing tuples (results are tuples, analyzer.py:17).
SIMPLIFICATIONS: "other" operands are objects without an attribute `_grammemes_tuple` whose own comparison methods do not know tags (all builtin types);
equality of scores is `a <= b and b <= a`; an int never equals a score (they do not occur in the same place).
-/
import Verif.Model.Inflect

namespace Verif

/-- The comparison operators. -/
inductive CmpOp
  | eq | ne | lt | le | gt | ge
  deriving DecidableEq

/-- The operator for swapped operands. -/
def CmpOp.swap : CmpOp → CmpOp
  | .eq => .eq
  | .ne => .ne
  | .lt => .gt
  | .le => .ge
  | .gt => .lt
  | .ge => .le

/-- An operand: a tag, with its class, or something else. -/
inductive Operand
  | tag (cls : Nat) (t : Tag)
  | other

/-- tagset.py:358-368: the comparison methods of tags; `none` is `NotImplemented` (which the methods of `object` return for `<=` and `>=`).  An operand
without `_grammemes_tuple` raises `AttributeError`. -/
def tagMethod (op : CmpOp) (t : Tag) : Operand → Except PyErr (Option Bool)
  | .other => match op with
    | .le | .ge => .ok none
    | _ => .error .attributeError
  | .tag _ u => match op with
    | .eq => .ok (some (t.eqv u))
    | .ne => .ok (some (!t.eqv u))
    | .lt => .ok (some (t.lt u))
    | .gt => .ok (some (t.gt u))
    | .le | .ge => .ok none

/-- The method of an operand. -/
def Operand.method (op : CmpOp) : Operand → Operand → Except PyErr (Option Bool)
  | .tag _ t, b => tagMethod op t b
  | .other, _ => .ok none

/-- Python's rule: the method of the left operand is asked first — or, if the class of the right one is derived from that of the left one (`derived`), the
method of the right one, for the swapped operator; if it does not know, the other is asked; if none knows, `==` and `!=` compare identities (of
different objects here) and the others raise `TypeError`. -/
def compareTags (derived : Nat → Nat → Bool) (op : CmpOp) (a b : Operand) : Except PyErr Bool := do
  let rightFirst := match a, b with
    | .tag c _, .tag d _ => derived d c
    | _, _ => false
  let r ← if rightFirst then b.method op.swap a else a.method op b
  match r with
  | some x => pure x
  | none =>
    let r' ← if rightFirst then a.method op b else b.method op.swap a
    match r' with
    | some x => pure x
    | none => match op with
      | .eq => pure false
      | .ne => pure true
      | _ => .error .typeError

/-- The values that occur in results. -/
inductive PyV (S : Type)
  | str (s : Str)
  | int (n : Nat)
  | num (x : S)
  | tag (t : Tag)
  | unit (u : UObj)
  | tuple (l : List (PyV S))

variable {S : Type} [Score S]

mutual
/-- `a == b` -/
def PyV.eq : PyV S → PyV S → Except PyErr Bool
  | .str a, .str b => .ok (decide (a = b))
  | .int a, .int b => .ok (decide (a = b))
  | .num a, .num b => .ok (Score.le a b && Score.le b a)
  | .tag t, .tag u => .ok (t.eqv u)
  | .tag _, _ => .error .attributeError
  | .unit a, .unit b => .ok (decide (a = b))
  | .tuple l, .tuple k => PyV.eqs l k
  | _, .tag _ => .error .attributeError
  | _, _ => .ok false
/-- `==` of tuples: member by member, up to the first that differs. -/
def PyV.eqs : List (PyV S) → List (PyV S) → Except PyErr Bool
  | [], [] => .ok true
  | [], _ :: _ => .ok false
  | _ :: _, [] => .ok false
  | a :: l, b :: k => do
    let e ← PyV.eq a b
    if e then PyV.eqs l k else pure false
end

/-- What an order operator says of values of which the first is less, equal, greater. -/
def CmpOp.holds (op : CmpOp) (less equal : Bool) : Bool :=
  match op with
  | .lt => less
  | .le => less || equal
  | .gt => !less && !equal
  | .ge => !less
  | .eq => equal
  | .ne => !equal

mutual
/-- `a < b`, `a <= b`, `a > b`, `a >= b` (for the other two operators use `PyV.eq`). -/
def PyV.cmp (op : CmpOp) : PyV S → PyV S → Except PyErr Bool
  | .str a, .str b => .ok (op.holds (strLt a b) (decide (a = b)))
  | .int a, .int b => .ok (op.holds (decide (a < b)) (decide (a = b)))
  | .num a, .num b => .ok (op.holds (Score.le a b && !Score.le b a) (Score.le a b && Score.le b a))
  | .tag t, .tag u => compareTags (fun _ _ => false) op (.tag 0 t) (.tag 0 u)
  | .tag t, _ => compareTags (fun _ _ => false) op (.tag 0 t) .other
  | .tuple l, .tuple k => PyV.cmps op l k
  | _, .tag u => compareTags (fun _ _ => false) op .other (.tag 0 u)
  | _, _ => .error .typeError
/-- Tuples: the first members that are not equal decide; if there are none, the lengths. -/
def PyV.cmps (op : CmpOp) : List (PyV S) → List (PyV S) → Except PyErr Bool
  | [], [] => .ok (op.holds false true)
  | [], _ :: _ => .ok (op.holds true false)
  | _ :: _, [] => .ok (op.holds false false)
  | a :: l, b :: k => do
    let e ← PyV.eq a b
    if e then PyV.cmps op l k else PyV.cmp op a b
end

mutual
/-- A method as a tuple. -/
def Method.value : Method → PyV S
  | .dict u w para idx => .tuple [.unit u, .str w, .int para, .int idx]
  | .simple u arg => .tuple [.unit u, .str arg]
  | .fixed u left right => .tuple [.unit u, .str left, .tuple (Stack.values right)]
  | .both u left right => .tuple [.unit u, .tuple (Stack.values left), .tuple (Stack.values right)]
/-- A methods stack as a tuple. -/
def Stack.values : Stack → List (PyV S)
  | .nil => []
  | .push rest m => Stack.values rest ++ [Method.value m]
end

/-- A result as a tuple, analyzer.py:17. -/
def Parse.members (p : Parse S) : List (PyV S) := [.str p.word, .tag p.tag, .str p.nf, .num p.score, .tuple p.stack.values]

/-- `p < q` and the like, for results. -/
def Parse.cmp (op : CmpOp) (p q : Parse S) : Except PyErr Bool := PyV.cmps op p.members q.members

/-- `p == q` -/
def Parse.eq (p q : Parse S) : Except PyErr Bool := PyV.eqs p.members q.members

end Verif
