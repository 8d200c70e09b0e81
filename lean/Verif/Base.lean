/-
Base layer: Python strings as lists of code points, Python exceptions as values,
and the handful of `str` methods that pymorphy2 uses.
-/
namespace Verif

/-- A Python (unicode) string: the list of its code points. -/
abbrev Str := List Char

/-- `c!"abc"` is the list of characters of a string literal. -/
macro "c!" s:str : term => do
  let cs := s.getString.toList
  let elems : List (Lean.TSyntax `term) := cs.map fun c => ⟨Lean.Syntax.mkCharLit c⟩
  `(([$(elems.toArray),*] : List Char))

/-- Python exceptions, as far as the modelled code can raise them. -/
inductive PyErr
  | indexError
  | keyError
  | valueError
  | assertionError
  | runtimeError
  | typeError
  | zeroDivisionError
  | overflowError
  | structError
  | recursionError
  | stopIteration
  | ioError
  | eofError
  | attributeError
  | notImplementedError
  deriving DecidableEq, Repr

/-- `l[i]` for a Python list and a non-negative index. -/
def pyGet {α : Type} (l : List α) (i : Nat) : Except PyErr α :=
  match l[i]? with
  | some a => .ok a
  | none => .error .indexError

/-! ### `str` methods -/

/-- `s.startswith(p)` -/
def startsWith (s p : Str) : Bool := p.isPrefixOf s

/-- `s.endswith(p)` -/
def endsWith (s p : Str) : Bool := p.isSuffixOf s

/-- `s[:-n]`; note that Python's `s[:-0]` is the empty string. -/
def dropRight (s : Str) (n : Nat) : Str := if n = 0 then [] else s.take (s.length - n)

/-- `s[-n:]`; note that Python's `s[-0:]` is the whole string. -/
def takeRight (s : Str) (n : Nat) : Str := if n = 0 then s else s.drop (s.length - n)

/-- `s[a:-b]` for `b > 0` (empty when the bounds cross). -/
def sliceMid (s : Str) (a b : Nat) : Str := (s.take (s.length - b)).drop a

/-- Put a character in front of the first piece. -/
def consHead (x : Char) : List Str → List Str
  | [] => [[x]]
  | p :: ps => (x :: p) :: ps

/-- `s.split(c)` for a one-character separator. -/
def splitC (c : Char) : Str → List Str
  | [] => [[]]
  | x :: xs => if x = c then [] :: splitC c xs else consHead x (splitC c xs)

/-- `sep.join(parts)` for a one-character separator. -/
def joinC (c : Char) : List Str → Str
  | [] => []
  | [p] => p
  | p :: q :: ps => p ++ c :: joinC c (q :: ps)

/-- `s.replace(a, b, 1)` for single characters `a`, `b`. -/
def replaceFirst (a b : Char) : Str → Str
  | [] => []
  | x :: xs => if x = a then b :: xs else x :: replaceFirst a b xs

/-- `s.strip(c)` for a one-character argument. -/
def stripC (c : Char) (s : Str) : Str :=
  ((s.dropWhile (· == c)).reverse.dropWhile (· == c)).reverse

/-- Is `x` a (contiguous) substring of `s`: Python's `x in s`. -/
def isSub (x : Str) : Str → Bool
  | [] => x.isPrefixOf []
  | c :: cs => x.isPrefixOf (c :: cs) || isSub x cs

/-! ### Elementary facts -/

theorem bind_ok_iff {ε α β : Type} (x : Except ε α) (f : α → Except ε β) (b : β) :
    (x >>= f) = .ok b ↔ ∃ a, x = .ok a ∧ f a = .ok b := by
  cases x with
  | error e => simp [bind, Except.bind]
  | ok a => simp [bind, Except.bind]

theorem map_ok_iff {ε α β : Type} (x : Except ε α) (f : α → β) (b : β) :
    (f <$> x) = .ok b ↔ ∃ a, x = .ok a ∧ f a = b := by
  cases x with
  | error e => simp [Functor.map, Except.map]
  | ok a => simp [Functor.map, Except.map]

@[simp] theorem ok_bind {ε α β : Type} (a : α) (f : α → Except ε β) :
    ((Except.ok a : Except ε α) >>= f) = f a := rfl

@[simp] theorem error_bind {ε α β : Type} (e : ε) (f : α → Except ε β) :
    ((Except.error e : Except ε α) >>= f) = .error e := rfl

@[simp] theorem pure_eq_ok {ε α : Type} (a : α) : (pure a : Except ε α) = .ok a := rfl

theorem pyGet_ok_iff {α : Type} (l : List α) (i : Nat) (a : α) :
    pyGet l i = .ok a ↔ l[i]? = some a := by
  unfold pyGet; cases h : l[i]? <;> simp

theorem startsWith_iff (s p : Str) : startsWith s p = true ↔ p <+: s := by
  simp [startsWith, List.isPrefixOf_iff_prefix]

theorem endsWith_iff (s p : Str) : endsWith s p = true ↔ p <:+ s := by
  simp [endsWith, List.isSuffixOf_iff_suffix]

theorem isSub_iff (x s : Str) : isSub x s = true ↔ x <:+: s := by
  induction s with
  | nil => simp [isSub, List.isPrefixOf_iff_prefix]
  | cons c cs ih =>
    simp [isSub, List.isPrefixOf_iff_prefix, ih, List.infix_cons_iff]

theorem splitC_ne_nil (c : Char) (s : Str) : splitC c s ≠ [] := by
  cases s with
  | nil => simp [splitC]
  | cons x xs =>
    unfold splitC; split
    · simp
    · cases splitC c xs <;> simp [consHead]

/-- `split` loses nothing: joining the pieces gives the string back. -/
theorem joinC_splitC (c : Char) (s : Str) : joinC c (splitC c s) = s := by
  induction s with
  | nil => simp [splitC, joinC]
  | cons x xs ih =>
    unfold splitC
    split
    · next h =>
      subst h
      cases hs : splitC x xs with
      | nil => exact absurd hs (splitC_ne_nil x xs)
      | cons p ps => rw [hs] at ih; simp [joinC, ih]
    · cases hs : splitC c xs with
      | nil => exact absurd hs (splitC_ne_nil c xs)
      | cons p ps =>
        rw [hs] at ih
        cases ps with
        | nil => simpa [consHead, joinC] using ih
        | cons q qs => simpa [consHead, joinC] using ih

theorem not_mem_of_mem_splitC (c : Char) (s p : Str) (h : p ∈ splitC c s) : c ∉ p := by
  induction s generalizing p with
  | nil => simp [splitC] at h; simp [h]
  | cons x xs ih =>
    unfold splitC at h
    split at h
    · simp only [List.mem_cons] at h
      rcases h with rfl | h
      · simp
      · exact ih p h
    · next hx =>
      cases hs : splitC c xs with
      | nil => exact absurd hs (splitC_ne_nil c xs)
      | cons q qs =>
        rw [hs] at h ih
        simp only [consHead, List.mem_cons] at h
        rcases h with rfl | h
        · simp only [List.mem_cons, not_or]
          exact ⟨fun e => hx e.symm, ih q (by simp)⟩
        · exact ih p (by simp [h])

theorem splitC_of_not_mem (c : Char) (p : Str) (h : c ∉ p) : splitC c p = [p] := by
  induction p with
  | nil => rfl
  | cons x xs ih =>
    simp only [List.mem_cons, not_or] at h
    unfold splitC
    rw [if_neg (fun e => h.1 e.symm), ih h.2]; rfl

theorem splitC_append (c : Char) (p s : Str) (h : c ∉ p) :
    splitC c (p ++ c :: s) = p :: splitC c s := by
  induction p with
  | nil => simp [splitC]
  | cons x xs ih =>
    simp only [List.mem_cons, not_or] at h
    rw [List.cons_append, splitC, if_neg (fun e => h.1 e.symm), ih h.2]; rfl

/-- Splitting what was joined from separator-free pieces gives the pieces back. -/
theorem splitC_joinC (c : Char) (ps : List Str) (hne : ps ≠ []) (h : ∀ p ∈ ps, c ∉ p) :
    splitC c (joinC c ps) = ps := by
  induction ps with
  | nil => exact absurd rfl hne
  | cons p ps ih =>
    cases ps with
    | nil => simpa [joinC] using splitC_of_not_mem c p (h p (by simp))
    | cons q qs =>
      rw [joinC, splitC_append c p _ (h p (by simp)), ih (by simp) (fun r hr => h r (by simp [hr]))]

end Verif
