/-
Lemmas about `Model/JsonText`: reading what was written, reading longer texts, UTF-8.
-/
import Verif.Model.JsonText
import Verif.Spec.JsonValue
import Verif.Props.C37
import Mathlib.Tactic.IntervalCases

namespace Verif

/-! ### Numbers -/

/-- What follows a value in a written text: nothing, a comma or a new line. -/
def Stops : Str → Prop
  | [] => True
  | c :: _ => c = ',' ∨ c = Char.ofNat 10

theorem toDigits_digit {n : Nat} {c : Char} (h : c ∈ Nat.toDigits 10 n) : c.isDigit = true :=
  Nat.isDigit_of_mem_toDigits (by decide) (by decide) h

theorem toDigits_zero_head : ∀ (n : Nat) (r : Str), Nat.toDigits 10 n = '0' :: r → r = [] := by
  intro n
  induction n using Nat.strongRecOn with
  | _ n ih =>
    intro r h
    by_cases hn : n < 10
    · rw [Nat.toDigits_of_lt_base hn] at h
      injection h with h1 h2
      exact h2.symm
    · have hq := Nat.toDigits_of_base_le (b := 10) (n := n) (by decide) (by omega)
      rw [hq] at h
      cases hd : Nat.toDigits 10 (n / 10) with
      | nil => exact absurd hd Nat.toDigits_ne_nil
      | cons c l =>
        rw [hd] at h
        injection h with h1 h2
        subst h1
        have := ih (n / 10) (by omega) l hd
        subst this
        have h0 : Nat.ofDigitChars 10 (Nat.toDigits 10 (n / 10)) 0 = n / 10 := Nat.ofDigitChars_ten_toDigits
        rw [hd] at h0
        have : Nat.ofDigitChars 10 ['0'] 0 = 0 := by decide
        omega

theorem stops_takeWhile {rest : Str} (h : Stops rest) : rest.takeWhile Char.isDigit = [] := by
  cases rest with
  | nil => rfl
  | cons c r => rcases h with rfl | rfl <;> rfl

theorem stops_dropWhile {rest : Str} (h : Stops rest) : rest.dropWhile Char.isDigit = rest := by
  cases rest with
  | nil => rfl
  | cons c r => rcases h with rfl | rfl <;> rfl

theorem takeWhile_all_append {p : Char → Bool} {l r : Str} (h : ∀ c ∈ l, p c = true) : (l ++ r).takeWhile p = l ++ r.takeWhile p := by
  induction l with
  | nil => rfl
  | cons c l ih =>
    have hc := h c (List.mem_cons_self ..)
    simp [hc, ih fun x hx => h x (List.mem_cons_of_mem _ hx)]

theorem dropWhile_all_append {p : Char → Bool} {l r : Str} (h : ∀ c ∈ l, p c = true) : (l ++ r).dropWhile p = r.dropWhile p := by
  induction l with
  | nil => rfl
  | cons c l ih =>
    have hc := h c (List.mem_cons_self ..)
    simp [hc, ih fun x hx => h x (List.mem_cons_of_mem _ hx)]

theorem stops_frac {rest : Str} (h : Stops rest) : scanFrac rest = ([], rest) := by
  cases rest with
  | nil => rfl
  | cons c r => rcases h with rfl | rfl <;> rfl

theorem stops_exp {rest : Str} (h : Stops rest) : scanExp rest = ([], rest) := by
  cases rest with
  | nil => rfl
  | cons c r => rcases h with rfl | rfl <;> rfl

theorem scanRest_stops (neg : Bool) (ip : Str) {rest : Str} (h : Stops rest) :
    scanRest neg ip rest = (.num (if neg then -(Nat.ofDigitChars 10 ip 0 : Int) else Nat.ofDigitChars 10 ip 0), rest) := by
  simp [scanRest, stops_frac h, stops_exp h]

theorem scanNat_digits (neg : Bool) (n : Nat) {rest : Str} (h : Stops rest) :
    scanNat neg (Nat.toDigits 10 n ++ rest) = some (.num (if neg then -(n : Int) else n), rest) := by
  have h0 : Nat.ofDigitChars 10 (Nat.toDigits 10 n) 0 = n := Nat.ofDigitChars_ten_toDigits
  cases hd : Nat.toDigits 10 n with
  | nil => exact absurd hd Nat.toDigits_ne_nil
  | cons c r =>
    rw [hd] at h0
    have hall : ∀ x ∈ c :: r, x.isDigit = true := fun x hx => toDigits_digit (hd ▸ hx)
    rw [List.cons_append, scanNat]
    by_cases hc : c = '0'
    · subst hc
      have := toDigits_zero_head n r hd
      subst this
      rw [if_pos rfl, List.nil_append, scanRest_stops _ _ h, h0]
    · have hr : ∀ x ∈ r, x.isDigit = true := fun x hx => hall x (List.mem_cons_of_mem _ hx)
      rw [if_neg hc, if_pos (hall c (List.mem_cons_self ..)), takeWhile_all_append hr, dropWhile_all_append hr, stops_takeWhile h,
        stops_dropWhile h, List.append_nil, scanRest_stops _ _ h, h0]

/-- The first character of a number. -/
theorem jsonInt_head (n : Int) : ∃ c r, jsonInt n = c :: r ∧ (c = '-' ∨ c.isDigit = true) := by
  cases n with
  | ofNat n =>
    rw [jsonInt]
    cases hd : Nat.toDigits 10 n with
    | nil => exact absurd hd Nat.toDigits_ne_nil
    | cons c r => exact ⟨c, r, rfl, .inr (toDigits_digit (n := n) (hd ▸ List.mem_cons_self ..))⟩
  | negSucc n => exact ⟨'-', _, rfl, .inl rfl⟩

theorem scanNum_int (n : Int) {rest : Str} (h : Stops rest) : scanNum (jsonInt n ++ rest) = some (.num n, rest) := by
  cases n with
  | ofNat n =>
    have hs := scanNat_digits false n h
    rw [jsonInt]
    cases hd : Nat.toDigits 10 n with
    | nil => exact absurd hd Nat.toDigits_ne_nil
    | cons c r =>
      rw [hd] at hs
      have hc : c ≠ '-' := by
        rintro rfl
        have := toDigits_digit (n := n) (c := '-') (hd ▸ List.mem_cons_self ..)
        revert this; decide
      rw [List.cons_append] at hs ⊢
      rw [scanNum, if_neg hc, hs]
      rfl
  | negSucc n =>
    have hs := scanNat_digits true (n + 1) h
    rw [jsonInt, List.cons_append, scanNum, if_pos rfl, hs]
    simp only [if_true]
    rfl

/-! ### Strings -/

theorem hexVal_digit : ∀ n < 16, hexVal n.digitChar = some n := by decide +kernel

theorem char_ofNat_toNat (c : Char) : Char.ofNat c.toNat = c := by simp

/-- An escape sequence after its backslash. -/
def scanEsc : Str → Option (Char × Str)
  | [] => none
  | e :: r1 =>
    if e = 'u' then
      match r1 with
      | a :: b :: c :: d :: r2 =>
        match hex4 a b c d with
        | none => none
        | some n =>
          if isSurrogate n then
            match r2 with
            | '\\' :: 'u' :: a2 :: b2 :: c2 :: d2 :: r3 => ((hex4 a2 b2 c2 d2).bind (surrogatePair n)).map fun x => (x, r3)
            | _ => none
          else some (Char.ofNat n, r2)
      | _ => none
    else (jsonUnesc e).map fun x => (x, r1)

theorem scanStr_quote (r : Str) : scanStr ('"' :: r) = some ([], r) := by
  rw [scanStr.eq_def]; rfl

theorem scanStr_plain {c : Char} (h1 : c ≠ '"') (h2 : c ≠ '\\') (r : Str) :
    scanStr (c :: r) = if c.toNat < 32 then none else consScanned c (scanStr r) := by
  rw [scanStr.eq_def]
  simp only [if_neg h1, if_neg h2]

theorem scanStr_backslash (r : Str) : scanStr ('\\' :: r) = (scanEsc r).bind fun x => consScanned x.1 (scanStr x.2) := by
  rw [scanStr.eq_def]
  simp only [show ('\\' : Char) ≠ '"' by decide, if_false, if_true]
  cases r with
  | nil => rfl
  | cons e r1 =>
    simp only [scanEsc]
    by_cases he : e = 'u'
    · simp only [if_pos he]
      split
      · dsimp only
        split
        · rename_i h; rw [h]; rfl
        · rename_i h
          rw [h]
          dsimp only
          split
          · rename_i hs
            split
            · split
              · rename_i h; simp [h]
              · rename_i h; simp [h]
            · rename_i hne
              split
              · rename_i a2 b2 c2 d2 r3 _
                exact absurd rfl (hne _ _ _ _ _)
              · rfl
          · rfl
      · rename_i hne
        split
        · exact absurd rfl (hne _ _ _ _ _)
        · rfl
    · simp only [if_neg he]
      cases jsonUnesc e <;> rfl

theorem scanStr_esc (c : Char) (s : Str) : scanStr (jsonEsc c ++ s) = consScanned c (scanStr s) := by
  unfold jsonEsc
  split
  · rename_i h; subst h; exact scanStr_backslash _
  split
  · rename_i h; subst h; exact scanStr_backslash _
  split
  · rename_i h; subst h; exact scanStr_backslash _
  split
  · rename_i h; subst h; exact scanStr_backslash _
  split
  · rename_i h; subst h; exact scanStr_backslash _
  split
  · rename_i h; subst h; exact scanStr_backslash _
  split
  · rename_i h; subst h; exact scanStr_backslash _
  rename_i h1 h2 _ _ _ _ _
  split
  · rename_i h
    have e : hex4 '0' '0' (c.toNat / 16).digitChar (c.toNat % 16).digitChar = some c.toNat := by
      simp only [hex4, hexVal_digit _ (show c.toNat / 16 < 16 by omega), hexVal_digit _ (show c.toNat % 16 < 16 by omega)]
      have : hexVal '0' = some 0 := by decide
      rw [this]
      show some _ = some _
      congr 1
      omega
    have hs : isSurrogate c.toNat = false := by
      simp only [isSurrogate, Bool.and_eq_false_iff, decide_eq_false_iff_not]
      left; omega
    show scanStr ('\\' :: 'u' :: '0' :: '0' :: (c.toNat / 16).digitChar :: (c.toNat % 16).digitChar :: s) = _
    rw [scanStr_backslash]
    simp [scanEsc, e, hs]
  · rename_i h
    show scanStr (c :: s) = _
    rw [scanStr_plain h1 h2, if_neg h]

theorem scanStr_written (s : Str) (rest : Str) : scanStr (s.flatMap jsonEsc ++ '"' :: rest) = some (s, rest) := by
  induction s with
  | nil => exact scanStr_quote rest
  | cons c s ih =>
    rw [List.flatMap_cons, List.append_assoc, scanStr_esc, ih]
    rfl

/-! ### What is left is shorter -/

theorem skipWs_length (s : Str) : (skipWs s).length ≤ s.length := (List.dropWhile_sublist _).length_le

theorem scanEsc_length {s : Str} {x : Char × Str} (h : scanEsc s = some x) : x.2.length < s.length := by
  cases s with
  | nil => simp [scanEsc] at h
  | cons e r1 =>
    simp only [scanEsc] at h
    split at h
    · split at h
      · split at h
        · cases h
        · split at h
          · split at h
            · simp only [Option.map_eq_some_iff] at h
              obtain ⟨_, _, rfl⟩ := h
              simp; omega
            · cases h
          · cases h
            simp; omega
      · cases h
    · simp only [Option.map_eq_some_iff] at h
      obtain ⟨_, _, rfl⟩ := h
      simp

theorem scanStr_length : ∀ (n : Nat) (s : Str) (x : Str × Str), s.length ≤ n → scanStr s = some x → x.2.length < s.length := by
  intro n
  induction n with
  | zero =>
    intro s x hs h
    have : s = [] := List.length_eq_zero_iff.mp (by omega)
    subst this
    cases h
  | succ n ih =>
    intro s x hs h
    cases s with
    | nil => cases h
    | cons c r =>
      by_cases h1 : c = '"'
      · subst h1
        rw [scanStr_quote] at h
        cases h
        simp
      by_cases h2 : c = '\\'
      · subst h2
        rw [scanStr_backslash, Option.bind_eq_some_iff] at h
        obtain ⟨y, hy, h⟩ := h
        simp only [consScanned, Option.map_eq_some_iff] at h
        obtain ⟨z, hz, rfl⟩ := h
        have := scanEsc_length hy
        simp only [List.length_cons] at hs ⊢
        have := ih _ _ (by omega) hz
        show z.2.length < _
        omega
      · rw [scanStr_plain h1 h2] at h
        split at h
        · cases h
        · simp only [consScanned, Option.map_eq_some_iff] at h
          obtain ⟨z, hz, rfl⟩ := h
          simp only [List.length_cons] at hs ⊢
          have := ih _ _ (by omega) hz
          show z.2.length < _
          omega

theorem scanFrac_length (s : Str) : (scanFrac s).2.length ≤ s.length := by
  unfold scanFrac
  split
  · rename_i d r
    split
    · have := (List.dropWhile_sublist Char.isDigit (l := r)).length_le
      simp only [List.length_cons]; omega
    · simp
  · simp

theorem scanSign_length (s : Str) : (scanSign s).2.length ≤ s.length := by
  unfold scanSign
  split
  · split <;> simp
  · simp

theorem scanExp_length (s : Str) : (scanExp s).2.length ≤ s.length := by
  unfold scanExp
  split
  · simp
  · rename_i c r
    split
    · split
      · simp
      · have := (List.dropWhile_sublist Char.isDigit (l := (scanSign r).2)).length_le
        have := scanSign_length r
        simp only [List.length_cons]; omega
    · simp

theorem scanRest_length (neg : Bool) (ip s : Str) : (scanRest neg ip s).2.length ≤ s.length := by
  simp only [scanRest]
  split
  · simp
  · have := scanFrac_length s
    have := scanExp_length (scanFrac s).2
    show (scanExp (scanFrac s).2).2.length ≤ _
    omega

theorem scanNat_length {neg : Bool} {s : Str} {x : Json × Str} (h : scanNat neg s = some x) : x.2.length < s.length := by
  cases s with
  | nil => cases h
  | cons c r =>
    simp only [scanNat] at h
    split at h
    · cases h
      have := scanRest_length neg ['0'] r
      simp only [List.length_cons]; omega
    · split at h
      · cases h
        have := scanRest_length neg (c :: r.takeWhile Char.isDigit) (r.dropWhile Char.isDigit)
        have := (List.dropWhile_sublist Char.isDigit (l := r)).length_le
        simp only [List.length_cons]; omega
      · cases h

theorem scanNum_length {s : Str} {x : Json × Str} (h : scanNum s = some x) : x.2.length < s.length := by
  cases s with
  | nil => cases h
  | cons c r =>
    simp only [scanNum] at h
    split at h
    · have := scanNat_length h
      simp only [List.length_cons]; omega
    · exact scanNat_length h

theorem drop_length_lt {p s : Str} {k : Nat} (hk : 0 < k) (hp : p.length = k) (h : p.isPrefixOf s = true) : (s.drop k).length < s.length := by
  have := (List.isPrefixOf_iff_prefix.mp h).length_le
  rw [List.length_drop]; omega

theorem scanAtom_length {s : Str} {x : Json × Str} (h : scanAtom s = some x) : x.2.length < s.length := by
  unfold scanAtom at h
  split at h
  · rename_i hp; cases h; exact drop_length_lt (by decide) rfl hp
  split at h
  · rename_i hp; cases h; exact drop_length_lt (by decide) rfl hp
  split at h
  · rename_i hp; cases h; exact drop_length_lt (by decide) rfl hp
  · exact scanNum_length h

/-! ### The cases of the scanner -/

/-- A list or an object after its opening bracket. -/
def scanArr (n : Nat) (r : Str) : Option (Json × Str) :=
  if (skipWs r).head? = some ']' then some (.arr [], (skipWs r).tail) else (scanItems n (skipWs r)).map fun x => (.arr x.1, x.2)

def scanObj (n : Nat) (r : Str) : Option (Json × Str) :=
  if (skipWs r).head? = some '}' then some (.obj [], (skipWs r).tail)
  else (scanPairs n (skipWs r)).map fun x => (.obj (toDictOrdered x.1), x.2)

theorem scanVal_str (n : Nat) (r : Str) : scanVal (n + 1) ('"' :: r) = (scanStr r).map fun x => (.str x.1, x.2) := by
  simp [scanVal]

theorem scanVal_arr (n : Nat) (r : Str) : scanVal (n + 1) ('[' :: r) = scanArr n r := by
  simp only [scanVal, scanArr]
  rw [if_neg (by decide), if_pos trivial]
  split
  · rename_i h; rw [h]; rfl
  · rename_i hne
    rw [if_neg]
    intro hh
    cases hs : skipWs r with
    | nil => rw [hs] at hh; cases hh
    | cons a b => rw [hs] at hh; cases hh; exact hne _ hs

theorem scanVal_obj (n : Nat) (r : Str) : scanVal (n + 1) ('{' :: r) = scanObj n r := by
  simp only [scanVal, scanObj]
  rw [if_neg (by decide), if_neg (by decide), if_pos trivial]
  split
  · rename_i h; rw [h]; rfl
  · rename_i hne
    rw [if_neg]
    intro hh
    cases hs : skipWs r with
    | nil => rw [hs] at hh; cases hh
    | cons a b => rw [hs] at hh; cases hh; exact hne _ hs

theorem scanVal_atom (n : Nat) {c : Char} (h1 : c ≠ '"') (h2 : c ≠ '[') (h3 : c ≠ '{') (r : Str) :
    scanVal (n + 1) (c :: r) = scanAtom (c :: r) := by
  simp only [scanVal]
  rw [if_neg h1, if_neg h2, if_neg h3]

/-- After an item of a list. -/
def itemsNext (n : Nat) (v : Json) (r : Str) : Option (List Json × Str) :=
  if (skipWs r).head? = some ']' then some ([v], (skipWs r).tail)
  else if (skipWs r).head? = some ',' then (scanItems n (skipWs (skipWs r).tail)).map fun x => (v :: x.1, x.2)
  else none

theorem scanItems_succ (n : Nat) (s : Str) : scanItems (n + 1) s = (scanVal n s).bind fun v => itemsNext n v.1 v.2 := by
  simp only [scanItems]
  cases scanVal n s with
  | none => rfl
  | some v =>
    simp only [Option.bind_some, itemsNext]
    cases skipWs v.2 with
    | nil => rfl
    | cons a b =>
      simp only [List.head?_cons, List.tail_cons, Option.some.injEq]
      by_cases h1 : a = ']'
      · subst h1; rfl
      · rw [if_neg h1]
        by_cases h2 : a = ','
        · subst h2; rfl
        · rw [if_neg h2]
          split
          · rename_i h; cases h; exact absurd rfl h1
          · rename_i h; cases h; exact absurd rfl h2
          · rfl

/-- After an entry of an object. -/
def pairsNext (n : Nat) (k : Str) (v : Json) (r : Str) : Option (List (Str × Json) × Str) :=
  if (skipWs r).head? = some '}' then some ([(k, v)], (skipWs r).tail)
  else if (skipWs r).head? = some ',' then (scanPairs n (skipWs (skipWs r).tail)).map fun x => ((k, v) :: x.1, x.2)
  else none

/-- After the key of an entry. -/
def pairsVal (n : Nat) (k : Str) (r : Str) : Option (List (Str × Json) × Str) :=
  if (skipWs r).head? = some ':' then (scanVal n (skipWs (skipWs r).tail)).bind fun v => pairsNext n k v.1 v.2 else none

theorem scanPairs_succ (n : Nat) (s : Str) :
    scanPairs (n + 1) s = if s.head? = some '"' then (scanStr s.tail).bind fun k => pairsVal n k.1 k.2 else none := by
  simp only [scanPairs]
  cases s with
  | nil => rfl
  | cons a s' =>
    simp only [List.head?_cons, List.tail_cons, Option.some.injEq]
    by_cases ha : a = '"'
    swap
    · rw [if_neg ha]
      split
      · rename_i h; cases h; exact absurd rfl ha
      · rfl
    subst ha
    simp only [if_true]
    cases scanStr s' with
    | none => rfl
    | some k =>
      simp only [Option.bind_some, pairsVal]
      cases skipWs k.2 with
      | nil => rfl
      | cons b s'' =>
        simp only [List.head?_cons, List.tail_cons, Option.some.injEq]
        by_cases hb : b = ':'
        swap
        · rw [if_neg hb]
          split
          · rename_i h; cases h; exact absurd rfl hb
          · rfl
        subst hb
        simp only [if_true]
        cases scanVal n (skipWs s'') with
        | none => rfl
        | some v =>
          simp only [Option.bind_some, pairsNext]
          cases skipWs v.2 with
          | nil => rfl
          | cons c r =>
            simp only [List.head?_cons, List.tail_cons, Option.some.injEq]
            by_cases h1 : c = '}'
            · subst h1; rfl
            · rw [if_neg h1]
              by_cases h2 : c = ','
              · subst h2; rfl
              · rw [if_neg h2]
                split
                · rename_i h; cases h; exact absurd rfl h1
                · rename_i h; cases h; exact absurd rfl h2
                · rfl

/-! ### The bound on the calls -/

theorem scan_length : ∀ n : Nat, (∀ s x, scanVal n s = some x → x.2.length < s.length) ∧ (∀ s x, scanItems n s = some x → x.2.length < s.length) ∧
    (∀ s x, scanPairs n s = some x → x.2.length < s.length) := by
  intro n
  induction n with
  | zero => exact ⟨fun _ _ h => (by simp [scanVal] at h), fun _ _ h => (by simp [scanItems] at h), fun _ _ h => (by simp [scanPairs] at h)⟩
  | succ n ih =>
    obtain ⟨ihv, ihi, ihp⟩ := ih
    refine ⟨?_, ?_, ?_⟩
    · intro s x h
      cases s with
      | nil => simp [scanVal] at h
      | cons c r =>
        by_cases h1 : c = '"'
        · subst h1
          rw [scanVal_str, Option.map_eq_some_iff] at h
          obtain ⟨y, hy, rfl⟩ := h
          have := scanStr_length _ _ _ (le_refl _) hy
          simp only [List.length_cons]; omega
        by_cases h2 : c = '['
        · subst h2
          rw [scanVal_arr, scanArr] at h
          have hs := skipWs_length r
          split at h
          · cases h
            simp only [List.length_tail, List.length_cons]; omega
          · rw [Option.map_eq_some_iff] at h
            obtain ⟨y, hy, rfl⟩ := h
            have := ihi _ _ hy
            simp only [List.length_cons]; omega
        by_cases h3 : c = '{'
        · subst h3
          rw [scanVal_obj, scanObj] at h
          have hs := skipWs_length r
          split at h
          · cases h
            simp only [List.length_tail, List.length_cons]; omega
          · rw [Option.map_eq_some_iff] at h
            obtain ⟨y, hy, rfl⟩ := h
            have := ihp _ _ hy
            simp only [List.length_cons]; omega
        · rw [scanVal_atom n h1 h2 h3] at h
          exact scanAtom_length h
    · intro s x h
      rw [scanItems_succ, Option.bind_eq_some_iff] at h
      obtain ⟨v, hv, h⟩ := h
      have h1 := ihv _ _ hv
      have h2 := skipWs_length v.2
      rw [itemsNext] at h
      split at h
      · cases h
        simp only [List.length_tail]; omega
      · split at h
        · rw [Option.map_eq_some_iff] at h
          obtain ⟨y, hy, rfl⟩ := h
          have h3 := ihi _ _ hy
          have h4 := skipWs_length (skipWs v.2).tail
          simp only [List.length_tail] at h4
          show y.2.length < _
          omega
        · cases h
    · intro s x h
      rw [scanPairs_succ] at h
      split at h
      · rw [Option.bind_eq_some_iff] at h
        obtain ⟨k, hk, h⟩ := h
        have h0 := scanStr_length _ _ _ (le_refl _) hk
        simp only [List.length_tail] at h0
        rw [pairsVal] at h
        split at h
        · rw [Option.bind_eq_some_iff] at h
          obtain ⟨v, hv, h⟩ := h
          have h1 := ihv _ _ hv
          have h2 := skipWs_length v.2
          have h5 := skipWs_length (skipWs k.2).tail
          have h6 := skipWs_length k.2
          simp only [List.length_tail] at h5
          rw [pairsNext] at h
          split at h
          · cases h
            simp only [List.length_tail]; omega
          · split at h
            · rw [Option.map_eq_some_iff] at h
              obtain ⟨y, hy, rfl⟩ := h
              have h3 := ihp _ _ hy
              have h4 := skipWs_length (skipWs v.2).tail
              simp only [List.length_tail] at h4
              show y.2.length < _
              omega
            · cases h
        · cases h
      · cases h

theorem scan_fuel : ∀ (L : Nat) (s : Str), s.length = L →
    (∀ n m, 2 * L + 1 ≤ n → 2 * L + 1 ≤ m → scanVal n s = scanVal m s) ∧
    (∀ n m, 2 * L + 2 ≤ n → 2 * L + 2 ≤ m → scanItems n s = scanItems m s) ∧
    (∀ n m, 2 * L + 2 ≤ n → 2 * L + 2 ≤ m → scanPairs n s = scanPairs m s) := by
  intro L
  induction L using Nat.strongRecOn with
  | _ L ih =>
    intro s hs
    have hval : ∀ n m, 2 * L + 1 ≤ n → 2 * L + 1 ≤ m → scanVal n s = scanVal m s := by
      intro n m hn hm
      obtain ⟨n, rfl⟩ : ∃ k, n = k + 1 := ⟨n - 1, by omega⟩
      obtain ⟨m, rfl⟩ : ∃ k, m = k + 1 := ⟨m - 1, by omega⟩
      cases s with
      | nil => simp [scanVal]
      | cons c r =>
        simp only [List.length_cons] at hs
        have hl := skipWs_length r
        by_cases h1 : c = '"'
        · subst h1; rw [scanVal_str, scanVal_str]
        by_cases h2 : c = '['
        · subst h2
          rw [scanVal_arr, scanVal_arr, scanArr, scanArr, (ih _ (by omega) (skipWs r) rfl).2.1 n m (by omega) (by omega)]
        by_cases h3 : c = '{'
        · subst h3
          rw [scanVal_obj, scanVal_obj, scanObj, scanObj, (ih _ (by omega) (skipWs r) rfl).2.2 n m (by omega) (by omega)]
        · rw [scanVal_atom n h1 h2 h3, scanVal_atom m h1 h2 h3]
    refine ⟨hval, ?_, ?_⟩
    · intro n m hn hm
      obtain ⟨n, rfl⟩ : ∃ k, n = k + 1 := ⟨n - 1, by omega⟩
      obtain ⟨m, rfl⟩ : ∃ k, m = k + 1 := ⟨m - 1, by omega⟩
      rw [scanItems_succ, scanItems_succ, hval n m (by omega) (by omega)]
      cases hv : scanVal m s with
      | none => rfl
      | some v =>
        have h1 := (scan_length m).1 _ _ hv
        have h2 := skipWs_length v.2
        have h4 := skipWs_length (skipWs v.2).tail
        simp only [List.length_tail] at h4
        simp only [Option.bind_some, itemsNext]
        rw [(ih _ (by omega) (skipWs (skipWs v.2).tail) rfl).2.1 n m (by omega) (by omega)]
    · intro n m hn hm
      obtain ⟨n, rfl⟩ : ∃ k, n = k + 1 := ⟨n - 1, by omega⟩
      obtain ⟨m, rfl⟩ : ∃ k, m = k + 1 := ⟨m - 1, by omega⟩
      rw [scanPairs_succ, scanPairs_succ]
      cases hk : scanStr s.tail with
      | none => rfl
      | some k =>
        have h0 := scanStr_length _ _ _ (le_refl _) hk
        have h6 := skipWs_length k.2
        have h5 := skipWs_length (skipWs k.2).tail
        simp only [List.length_tail] at h5 h0
        simp only [Option.bind_some, pairsVal]
        rw [(ih _ (by omega) (skipWs (skipWs k.2).tail) rfl).1 n m (by omega) (by omega)]
        cases hv : scanVal m (skipWs (skipWs k.2).tail) with
        | none => rfl
        | some v =>
          have h1 := (scan_length m).1 _ _ hv
          have h2 := skipWs_length v.2
          have h4 := skipWs_length (skipWs v.2).tail
          simp only [List.length_tail] at h4
          simp only [Option.bind_some, pairsNext]
          rw [(ih _ (by omega) (skipWs (skipWs v.2).tail) rfl).2.2 n m (by omega) (by omega)]

/-! ### Longer texts -/

/-- What follows a value inside a list or an object. -/
def OkHead : Str → Prop
  | [] => False
  | c :: _ => jsonWs c = true ∨ c = ',' ∨ c = ']' ∨ c = '}'

theorem skipWs_append {r : Str} (h : skipWs r ≠ []) (t : Str) : skipWs (r ++ t) = skipWs r ++ t := by
  unfold skipWs at *
  induction r with
  | nil => exact absurd rfl h
  | cons c r ih =>
    rw [List.cons_append, List.dropWhile_cons, List.dropWhile_cons]
    rw [List.dropWhile_cons] at h
    split
    · rename_i hc; rw [if_pos hc] at h; exact ih h
    · rfl

theorem okHead_of_skip {r : Str} {c : Char} (h : (skipWs r).head? = some c) (hc : c = ',' ∨ c = ']' ∨ c = '}') : OkHead r := by
  unfold skipWs at h
  cases r with
  | nil => cases h
  | cons a r =>
    rw [List.dropWhile_cons] at h
    split at h
    · rename_i ha; exact .inl ha
    · cases h; exact .inr hc

theorem while_append {p : Char → Bool} {l : Str} (h : l.dropWhile p ≠ []) (t : Str) :
    (l ++ t).takeWhile p = l.takeWhile p ∧ (l ++ t).dropWhile p = l.dropWhile p ++ t := by
  induction l with
  | nil => exact absurd rfl h
  | cons c l ih =>
    rw [List.dropWhile_cons] at h
    rw [List.cons_append, List.takeWhile_cons, List.dropWhile_cons, List.takeWhile_cons, List.dropWhile_cons]
    split
    · rename_i hc
      rw [if_pos hc] at h
      have := ih h
      exact ⟨by rw [this.1], this.2⟩
    · exact ⟨rfl, rfl⟩

theorem okHead_frac {s : Str} (h : OkHead s) : scanFrac s = ([], s) := by
  cases s with
  | nil => cases h
  | cons c r =>
    unfold scanFrac
    split
    · rename_i heq
      cases heq
      exfalso
      rcases h with h | h | h | h <;> revert h <;> decide
    · rfl

theorem okHead_exp {s : Str} (h : OkHead s) : scanExp s = ([], s) := by
  cases s with
  | nil => cases h
  | cons c r =>
    unfold scanExp
    dsimp only
    rw [if_neg]
    rintro (rfl | rfl) <;> rcases h with h | h | h | h <;> revert h <;> decide

theorem okHead_append {s : Str} (h : OkHead s) (t : Str) : OkHead (s ++ t) := by
  cases s with
  | nil => cases h
  | cons c r => exact h

theorem scanSign_append {r : Str} (h : r ≠ []) (t : Str) : scanSign (r ++ t) = ((scanSign r).1, (scanSign r).2 ++ t) := by
  cases r with
  | nil => exact absurd rfl h
  | cons c r =>
    simp only [List.cons_append, scanSign]
    split <;> rfl

theorem scanExp_append {u : Str} (h : OkHead (scanExp u).2) (t : Str) : scanExp (u ++ t) = ((scanExp u).1, (scanExp u).2 ++ t) := by
  cases u with
  | nil => cases h
  | cons c r =>
    by_cases hc : c = 'e' ∨ c = 'E'
    swap
    · simp only [List.cons_append, scanExp, if_neg hc]
    simp only [scanExp, if_pos hc] at h
    by_cases he : ((scanSign r).2.takeWhile Char.isDigit).isEmpty = true
    · rw [if_pos he] at h
      exfalso
      rcases hc with rfl | rfl <;> rcases h with h | h | h | h <;> revert h <;> decide
    · rw [if_neg he] at h
      have hr : r ≠ [] := by
        rintro rfl
        exact he rfl
      have hd : (scanSign r).2.dropWhile Char.isDigit ≠ [] := by
        intro h0
        have h' : OkHead ((scanSign r).2.dropWhile Char.isDigit) := h
        rw [h0] at h'
        exact h'
      have hw := while_append hd t
      simp only [List.cons_append, scanExp, if_pos hc, scanSign_append hr, hw.1, hw.2, if_neg he]

theorem scanRest_append {neg : Bool} {ip s : Str} (h : OkHead (scanRest neg ip s).2) (t : Str) :
    scanRest neg ip (s ++ t) = ((scanRest neg ip s).1, (scanRest neg ip s).2 ++ t) := by
  by_cases hc : (scanFrac s).1 = [] ∧ (scanExp (scanFrac s).2).1 = []
  · simp only [scanRest, if_pos hc] at h ⊢
    have h' := okHead_append h t
    simp only [okHead_frac h', okHead_exp h', and_self, if_true]
  · simp only [scanRest, if_neg hc] at h ⊢
    have hf : scanFrac (s ++ t) = ((scanFrac s).1, (scanFrac s).2 ++ t) := by
      unfold scanFrac at h hc ⊢
      split at h
      · rename_i d r
        simp only [List.cons_append]
        by_cases hd : d.isDigit = true
        · simp only [if_pos hd] at h ⊢
          have hne : r.dropWhile Char.isDigit ≠ [] := by
            intro h0
            rw [h0] at h
            exact h
          have hw := while_append hne t
          rw [hw.1, hw.2]
        · simp only [if_neg hd] at h ⊢
          rfl
      · rename_i hne
        cases s with
        | nil => cases h
        | cons c r =>
          by_cases hdot : c = '.'
          · subst hdot
            exfalso
            revert h
            simp only [scanExp, show ¬(('.' : Char) = 'e' ∨ ('.' : Char) = 'E') by decide, if_false]
            intro h
            rcases h with h | h | h | h <;> revert h <;> decide
          · simp only [List.cons_append]
            split
            · rename_i heq; injection heq with h1 h2; exact absurd h1 hdot
            · rfl
    have he := scanExp_append h t
    simp only [hf, he]
    rw [if_neg hc]

theorem scanNat_append {neg : Bool} {s : Str} {x : Json × Str} (hx : scanNat neg s = some x) (h : OkHead x.2) (t : Str) :
    scanNat neg (s ++ t) = some (x.1, x.2 ++ t) := by
  cases s with
  | nil => cases hx
  | cons c r =>
    simp only [List.cons_append, scanNat] at hx ⊢
    split at hx
    · rename_i hc
      rw [if_pos hc]
      cases hx
      rw [scanRest_append h]
    · rename_i hc
      rw [if_neg hc]
      split at hx
      · rename_i hd
        rw [if_pos hd]
        cases hx
        have hne : r.dropWhile Char.isDigit ≠ [] := by
          intro h0
          rw [h0] at h
          exact h
        have hw := while_append hne t
        rw [hw.1, hw.2, scanRest_append h]
      · cases hx

theorem scanNum_append {s : Str} {x : Json × Str} (hx : scanNum s = some x) (h : OkHead x.2) (t : Str) :
    scanNum (s ++ t) = some (x.1, x.2 ++ t) := by
  cases s with
  | nil => cases hx
  | cons c r =>
    simp only [List.cons_append, scanNum] at hx ⊢
    split at hx
    · rename_i hc; rw [if_pos hc]; exact scanNat_append hx h t
    · rename_i hc; rw [if_neg hc]; exact scanNat_append hx h t

/-- A number begins with a minus sign or a digit. -/
theorem scanNum_head {c : Char} {r : Str} {x : Json × Str} (hx : scanNum (c :: r) = some x) : c = '-' ∨ c.isDigit = true := by
  simp only [scanNum] at hx
  split at hx
  · rename_i hc; exact .inl hc
  · simp only [scanNat] at hx
    split at hx
    · rename_i hc; subst hc; exact .inr (by decide)
    · split at hx
      · rename_i hd; exact .inr hd
      · cases hx

theorem prefix_head {p : Char} {ps : Str} {c : Char} {r : Str} (h : (p :: ps).isPrefixOf (c :: r) = true) : p = c := by
  simp only [List.isPrefixOf, Bool.and_eq_true, beq_iff_eq] at h
  exact h.1

theorem isPrefixOf_append {p s t : Str} (h : p.isPrefixOf s = true) : p.isPrefixOf (s ++ t) = true := by
  rw [List.isPrefixOf_iff_prefix] at h ⊢
  exact h.trans (List.prefix_append s t)

theorem drop_append_of {p s t : Str} {k : Nat} (hp : p.length = k) (h : p.isPrefixOf s = true) : (s ++ t).drop k = s.drop k ++ t := by
  have := (List.isPrefixOf_iff_prefix.mp h).length_le
  rw [List.drop_append_of_le_length (by omega)]

theorem scanAtom_append {s : Str} {x : Json × Str} (hx : scanAtom s = some x) (h : OkHead x.2) (t : Str) :
    scanAtom (s ++ t) = some (x.1, x.2 ++ t) := by
  cases s with
  | nil => cases hx
  | cons c r =>
    unfold scanAtom at hx ⊢
    split at hx
    · rename_i hp
      cases hx
      rw [if_pos (isPrefixOf_append hp), drop_append_of (k := 4) rfl hp]
    · split at hx
      · rename_i _ hp
        cases hx
        have hc := prefix_head hp
        rw [if_neg (fun h' => by have := prefix_head h'; rw [← hc] at this; revert this; decide), if_pos (isPrefixOf_append hp), drop_append_of (k := 4) rfl hp]
      · split at hx
        · rename_i _ _ hp
          cases hx
          have hc := prefix_head hp
          rw [if_neg (fun h' => by have := prefix_head h'; rw [← hc] at this; revert this; decide),
            if_neg (fun h' => by have := prefix_head h'; rw [← hc] at this; revert this; decide), if_pos (isPrefixOf_append hp), drop_append_of (k := 5) rfl hp]
        · have hc := scanNum_head hx
          have key : ∀ (p : Char) (ps : Str), (p ≠ '-' ∧ p.isDigit = false) → ¬ (p :: ps).isPrefixOf (c :: r ++ t) = true := by
            intro p ps hp h'
            have := prefix_head h'
            subst this
            rcases hc with hc | hc
            · exact hp.1 hc
            · rw [hp.2] at hc; cases hc
          rw [if_neg (key _ _ (by decide)), if_neg (key _ _ (by decide)), if_neg (key _ _ (by decide))]
          exact scanNum_append hx h t

theorem scanEsc_append {s : Str} {x : Char × Str} (h : scanEsc s = some x) (t : Str) : scanEsc (s ++ t) = some (x.1, x.2 ++ t) := by
  cases s with
  | nil => cases h
  | cons e r1 =>
    simp only [scanEsc, List.cons_append] at h ⊢
    split at h
    · rename_i he
      rw [if_pos he]
      split at h
      · rename_i a b c d r2
        simp only [List.cons_append]
        split at h
        · cases h
        · rename_i n hn
          split at h
          · rename_i hs
            rw [if_pos hs]
            split at h
            · simp only [Option.map_eq_some_iff] at h
              obtain ⟨y, hy, rfl⟩ := h
              simp [hy]
            · cases h
          · rename_i hs
            rw [if_neg hs]
            cases h
            rfl
      · cases h
    · rename_i he
      rw [if_neg he]
      simp only [Option.map_eq_some_iff] at h
      obtain ⟨y, hy, rfl⟩ := h
      rw [hy]
      rfl

theorem scanStr_append : ∀ (n : Nat) (s : Str) (x : Str × Str) (t : Str), s.length ≤ n → scanStr s = some x →
    scanStr (s ++ t) = some (x.1, x.2 ++ t) := by
  intro n
  induction n with
  | zero =>
    intro s x t hs h
    have : s = [] := List.length_eq_zero_iff.mp (by omega)
    subst this
    cases h
  | succ n ih =>
    intro s x t hs h
    cases s with
    | nil => cases h
    | cons c r =>
      rw [List.cons_append]
      simp only [List.length_cons] at hs
      by_cases h1 : c = '"'
      · subst h1
        rw [scanStr_quote] at h ⊢
        cases h
        rfl
      by_cases h2 : c = '\\'
      · subst h2
        rw [scanStr_backslash, Option.bind_eq_some_iff] at h
        obtain ⟨y, hy, h⟩ := h
        simp only [consScanned, Option.map_eq_some_iff] at h
        obtain ⟨z, hz, rfl⟩ := h
        have := scanEsc_length hy
        rw [scanStr_backslash, scanEsc_append hy]
        simp only [Option.bind_some, consScanned, ih _ _ t (by omega) hz]
        rfl
      · rw [scanStr_plain h1 h2] at h ⊢
        split at h
        · cases h
        · rename_i h3
          rw [if_neg h3]
          simp only [consScanned, Option.map_eq_some_iff] at h
          obtain ⟨z, hz, rfl⟩ := h
          simp only [consScanned, ih _ _ t (by omega) hz]
          rfl

theorem head_append {s : Str} {c : Char} (h : s.head? = some c) (t : Str) : (s ++ t).head? = some c ∧ (s ++ t).tail = s.tail ++ t ∧ s ≠ [] := by
  cases s with
  | nil => cases h
  | cons a s => exact ⟨h, rfl, by simp⟩

theorem scan_append (t : Str) : ∀ n : Nat,
    (∀ s x, scanVal n s = some x → (OkHead x.2 ∨ s.head? = some '[' ∨ s.head? = some '{') → scanVal n (s ++ t) = some (x.1, x.2 ++ t)) ∧
    (∀ s x, scanItems n s = some x → scanItems n (s ++ t) = some (x.1, x.2 ++ t)) ∧
    (∀ s x, scanPairs n s = some x → scanPairs n (s ++ t) = some (x.1, x.2 ++ t)) := by
  intro n
  induction n with
  | zero => exact ⟨fun _ _ h => (by simp [scanVal] at h), fun _ _ h => (by simp [scanItems] at h), fun _ _ h => (by simp [scanPairs] at h)⟩
  | succ n ih =>
    obtain ⟨ihv, ihi, ihp⟩ := ih
    have items_nil : scanItems n [] = none := by
      cases n with
      | zero => simp [scanItems]
      | succ n => rw [scanItems_succ]; cases n <;> simp [scanVal]
    have pairs_nil : scanPairs n [] = none := by
      cases n with
      | zero => simp [scanPairs]
      | succ n => rw [scanPairs_succ]; simp
    have val_nil : scanVal n [] = none := by cases n <;> simp [scanVal]
    refine ⟨?_, ?_, ?_⟩
    · intro s x h hh
      cases s with
      | nil => simp [scanVal] at h
      | cons c r =>
        rw [List.cons_append]
        by_cases h1 : c = '"'
        · subst h1
          rw [scanVal_str, Option.map_eq_some_iff] at h
          obtain ⟨y, hy, rfl⟩ := h
          rw [scanVal_str, scanStr_append _ _ _ t (le_refl _) hy]
          rfl
        by_cases h2 : c = '['
        · subst h2
          rw [scanVal_arr, scanArr] at h ⊢
          split at h
          · rename_i h0
            have ha := head_append h0 t
            cases h
            rw [skipWs_append ha.2.2, if_pos ha.1, ha.2.1]
          · rename_i h0
            rw [Option.map_eq_some_iff] at h
            obtain ⟨y, hy, rfl⟩ := h
            have hne : skipWs r ≠ [] := by
              intro e; rw [e, items_nil] at hy; cases hy
            rw [skipWs_append hne, if_neg, ihi _ _ hy]
            · rfl
            · intro h'
              apply h0
              cases hs : skipWs r with
              | nil => exact absurd hs hne
              | cons a b => rw [hs] at h'; exact h'
        by_cases h3 : c = '{'
        · subst h3
          rw [scanVal_obj, scanObj] at h ⊢
          split at h
          · rename_i h0
            have ha := head_append h0 t
            cases h
            rw [skipWs_append ha.2.2, if_pos ha.1, ha.2.1]
          · rename_i h0
            rw [Option.map_eq_some_iff] at h
            obtain ⟨y, hy, rfl⟩ := h
            have hne : skipWs r ≠ [] := by
              intro e; rw [e, pairs_nil] at hy; cases hy
            rw [skipWs_append hne, if_neg, ihp _ _ hy]
            · rfl
            · intro h'
              apply h0
              cases hs : skipWs r with
              | nil => exact absurd hs hne
              | cons a b => rw [hs] at h'; exact h'
        · rw [scanVal_atom n h1 h2 h3] at h ⊢
          refine scanAtom_append h ?_ t
          rcases hh with hh | hh | hh
          · exact hh
          · exact absurd (Option.some.inj hh) h2
          · exact absurd (Option.some.inj hh) h3
    · intro s x h
      rw [scanItems_succ, Option.bind_eq_some_iff] at h
      obtain ⟨v, hv, h⟩ := h
      rw [itemsNext] at h
      split at h
      · rename_i h0
        have ha := head_append h0 t
        cases h
        rw [scanItems_succ, ihv _ _ hv (.inl (okHead_of_skip h0 (.inr (.inl rfl)))), Option.bind_some, itemsNext, skipWs_append ha.2.2, if_pos ha.1, ha.2.1]
      · rename_i h0
        split at h
        · rename_i h1
          have ha := head_append h1 t
          rw [Option.map_eq_some_iff] at h
          obtain ⟨y, hy, rfl⟩ := h
          have hne : skipWs (skipWs v.2).tail ≠ [] := by
            intro e; rw [e, items_nil] at hy; cases hy
          rw [scanItems_succ, ihv _ _ hv (.inl (okHead_of_skip h1 (.inl rfl))), Option.bind_some, itemsNext, skipWs_append ha.2.2,
            if_neg (by rw [ha.1]; decide), if_pos ha.1, ha.2.1, skipWs_append hne, ihi _ _ hy]
          rfl
        · cases h
    · intro s x h
      rw [scanPairs_succ] at h
      split at h
      swap
      · cases h
      rename_i hq
      have hqa := head_append hq t
      rw [Option.bind_eq_some_iff] at h
      obtain ⟨k, hk, h⟩ := h
      rw [pairsVal] at h
      split at h
      swap
      · cases h
      rename_i hc
      have hca := head_append hc t
      rw [Option.bind_eq_some_iff] at h
      obtain ⟨v, hv, h⟩ := h
      have hne0 : skipWs (skipWs k.2).tail ≠ [] := by
        intro e; rw [e, val_nil] at hv; cases hv
      rw [scanPairs_succ, if_pos hqa.1, hqa.2.1, scanStr_append _ _ _ t (le_refl _) hk, Option.bind_some, pairsVal, skipWs_append hca.2.2, if_pos hca.1,
        hca.2.1, skipWs_append hne0]
      rw [pairsNext] at h
      split at h
      · rename_i h0
        have ha := head_append h0 t
        cases h
        rw [ihv _ _ hv (.inl (okHead_of_skip h0 (.inr (.inr rfl)))), Option.bind_some, pairsNext, skipWs_append ha.2.2, if_pos ha.1, ha.2.1]
      · rename_i h0
        split at h
        · rename_i h1
          have ha := head_append h1 t
          rw [Option.map_eq_some_iff] at h
          obtain ⟨y, hy, rfl⟩ := h
          have hne : skipWs (skipWs v.2).tail ≠ [] := by
            intro e; rw [e, pairs_nil] at hy; cases hy
          rw [ihv _ _ hv (.inl (okHead_of_skip h1 (.inl rfl))), Option.bind_some, pairsNext, skipWs_append ha.2.2,
            if_neg (by rw [ha.1]; decide), if_pos ha.1, ha.2.1, skipWs_append hne, ihp _ _ hy]
          rfl
        · cases h

/-! ### Reading what was written -/

theorem skipWs_cons {c : Char} (h : jsonWs c = false) (r : Str) : skipWs (c :: r) = c :: r := by
  unfold skipWs; rw [List.dropWhile_cons, if_neg (by rw [h]; decide)]

theorem skipWs_nl (k : Nat) (s : Str) : skipWs (jsonNl k ++ s) = skipWs s := by
  unfold skipWs jsonNl
  apply dropWhile_all_append
  intro c hc
  rcases List.mem_cons.mp hc with rfl | hc
  · decide
  · rw [(List.mem_replicate.mp hc).2]; decide

theorem digit_not_ws {c : Char} (h : c.isDigit = true) : jsonWs c = false ∧ c ≠ ']' := by
  constructor
  · by_contra hw
    rw [Bool.not_eq_false] at hw
    simp only [jsonWs, Bool.or_eq_true, decide_eq_true_eq] at hw
    rcases hw with ((rfl | rfl) | rfl) | rfl <;> revert h <;> decide
  · rintro rfl; revert h; decide

theorem text_head (k : Nat) (j : Json) : ∃ c r, j.text k = c :: r ∧ jsonWs c = false ∧ c ≠ ']' := by
  cases j with
  | null => rw [Json.text]; exact ⟨_, _, rfl, by decide, by decide⟩
  | bool b => cases b <;> rw [Json.text] <;> exact ⟨_, _, rfl, by decide, by decide⟩
  | num n =>
    rw [Json.text]
    obtain ⟨c, r, h, hc⟩ := jsonInt_head n
    refine ⟨c, r, h, ?_⟩
    rcases hc with rfl | hc
    · decide
    · exact digit_not_ws hc
  | str s => rw [Json.text]; exact ⟨_, _, rfl, by decide, by decide⟩
  | arr l => rw [Json.text]; exact ⟨_, _, rfl, by decide, by decide⟩
  | obj l => rw [Json.text]; exact ⟨_, _, rfl, by decide, by decide⟩

theorem skipWs_text (k : Nat) (j : Json) (s : Str) : skipWs (j.text k ++ s) = j.text k ++ s := by
  obtain ⟨c, r, h, hc, _⟩ := text_head k j
  rw [h, List.cons_append, skipWs_cons hc]

theorem text_head_ne (k : Nat) (j : Json) (s : Str) : (j.text k ++ s).head? ≠ some ']' := by
  obtain ⟨c, r, h, _, hc⟩ := text_head k j
  rw [h]
  intro e
  exact hc (Option.some.inj e)

/-- What is written is read back, with enough steps, whatever follows. -/
def ReadsBack (j : Json) : Prop := ∀ (k : Nat) (rest : Str), Stops rest → ∃ N : Nat, ∀ n, N ≤ n → scanVal n (j.text k ++ rest) = some (j, rest)

theorem stops_nl (k : Nat) (s : Str) : Stops (jsonNl k ++ s) := .inr rfl

theorem stops_arrTail (k : Nat) (l : List Json) (s : Str) : Stops (arrTail k l ++ s) := by
  cases l with
  | nil => rw [arrTail]; exact .inr rfl
  | cons x xs => rw [arrTail]; exact .inl rfl

theorem stops_objTail (k : Nat) (l : List (Str × Json)) (s : Str) : Stops (objTail k l ++ s) := by
  cases l with
  | nil => rw [objTail]; exact .inr rfl
  | cons x xs => rw [objTail]; exact .inl rfl

theorem items_back (k : Nat) (rest : Str) : ∀ l : List Json, (∀ j ∈ l, ReadsBack j) → ∀ v : Json,
    ∃ N : Nat, ∀ n, N ≤ n → itemsNext n v (arrTail k l ++ rest) = some (v :: l, rest) := by
  intro l
  induction l with
  | nil =>
    intro _ v
    refine ⟨0, fun n _ => ?_⟩
    rw [arrTail, itemsNext, List.append_assoc, skipWs_nl, List.singleton_append, skipWs_cons (by decide)]
    rfl
  | cons x xs ih =>
    intro h v
    obtain ⟨N, hN⟩ := ih (fun j hj => h j (List.mem_cons_of_mem _ hj)) x
    obtain ⟨M, hM⟩ := h x (List.mem_cons_self ..) (k + 2) (arrTail k xs ++ rest) (stops_arrTail _ _ _)
    refine ⟨N + M + 1, fun n hn => ?_⟩
    obtain ⟨n, rfl⟩ : ∃ m, n = m + 1 := ⟨n - 1, by omega⟩
    rw [arrTail, itemsNext, List.cons_append, skipWs_cons (by decide), if_neg (by simp), if_pos (by rfl), List.tail_cons, List.append_assoc, skipWs_nl,
      List.append_assoc, skipWs_text, scanItems_succ, hM n (by omega), Option.bind_some, hN n (by omega)]
    rfl

theorem jsonStr_append (s t : Str) : jsonStr s ++ t = '"' :: (s.flatMap jsonEsc ++ '"' :: t) := by
  simp [jsonStr]

theorem pairs_step {k : Nat} {rest : Str} {key : Str} {v : Json} {r : List (Str × Json)} (hv : ReadsBack v) (hs : Stops rest) {out : List (Str × Json) × Str}
    (hn : ∃ N : Nat, ∀ n, N ≤ n → pairsNext n key v rest = some out) :
    ∃ N : Nat, ∀ n, N ≤ n → scanPairs n (pairText k (key, v) ++ rest) = some out := by
  obtain ⟨N, hN⟩ := hn
  obtain ⟨M, hM⟩ := hv k rest hs
  refine ⟨N + M + 1, fun n hn => ?_⟩
  obtain ⟨n, rfl⟩ : ∃ m, n = m + 1 := ⟨n - 1, by omega⟩
  rw [pairText, List.append_assoc, jsonStr_append, scanPairs_succ, if_pos (by rfl), List.tail_cons, scanStr_written, Option.bind_some, pairsVal,
    List.cons_append, skipWs_cons (by decide), if_pos (by rfl), List.tail_cons]
  have : skipWs (' ' :: v.text k ++ rest) = v.text k ++ rest := by
    rw [← skipWs_text k v rest]
    rfl
  rw [this, hM n (by omega), Option.bind_some, hN n (by omega)]

theorem pairText_head (k : Nat) (e : Str × Json) (s : Str) : skipWs (pairText k e ++ s) = pairText k e ++ s ∧ (pairText k e ++ s).head? = some '"' := by
  obtain ⟨key, v⟩ := e
  rw [pairText, List.append_assoc, jsonStr_append]
  exact ⟨skipWs_cons (by decide) _, rfl⟩

theorem pairs_back (k : Nat) (rest : Str) : ∀ l : List (Str × Json), (∀ e ∈ l, ReadsBack e.2) → ∀ (key : Str) (v : Json),
    ∃ N : Nat, ∀ n, N ≤ n → pairsNext n key v (objTail k l ++ rest) = some ((key, v) :: l, rest) := by
  intro l
  induction l with
  | nil =>
    intro _ key v
    refine ⟨0, fun n _ => ?_⟩
    rw [objTail, pairsNext, List.append_assoc, skipWs_nl, List.singleton_append, skipWs_cons (by decide)]
    rfl
  | cons e es ih =>
    intro h key v
    obtain ⟨key', v'⟩ := e
    obtain ⟨N, hN⟩ := pairs_step (k := k + 2) (r := []) (h (key', v') (List.mem_cons_self ..)) (stops_objTail k es rest)
      (ih (fun j hj => h j (List.mem_cons_of_mem _ hj)) key' v')
    refine ⟨N, fun n hn => ?_⟩
    rw [objTail, pairsNext, List.cons_append, skipWs_cons (by decide), if_neg (by simp), if_pos (by rfl), List.tail_cons, List.append_assoc, skipWs_nl,
      List.append_assoc, (pairText_head _ _ _).1, hN n hn]
    rfl

theorem jsonInt_atom (n : Int) (rest : Str) (h : Stops rest) : scanAtom (jsonInt n ++ rest) = some (.num n, rest) := by
  rw [← scanNum_int n h]
  obtain ⟨c, r, hc, hd⟩ := jsonInt_head n
  unfold scanAtom
  have key : ∀ (p : Char) (ps : Str), (p ≠ '-' ∧ p.isDigit = false) → ¬ (p :: ps).isPrefixOf (jsonInt n ++ rest) = true := by
    intro p ps hp h'
    rw [hc] at h'
    have := prefix_head h'
    subst this
    rcases hd with hd | hd
    · exact hp.1 hd
    · rw [hp.2] at hd; cases hd
  rw [if_neg (key _ _ (by decide)), if_neg (key _ _ (by decide)), if_neg (key _ _ (by decide))]

theorem reads_back {j : Json} (h : j.Plain) : ReadsBack j := by
  induction h with
  | null =>
    intro k rest _
    refine ⟨1, fun n hn => ?_⟩
    obtain ⟨n, rfl⟩ : ∃ m, n = m + 1 := ⟨n - 1, by omega⟩
    rw [Json.text]
    exact scanVal_atom n (by decide) (by decide) (by decide) _
  | bool b =>
    intro k rest _
    refine ⟨1, fun n hn => ?_⟩
    obtain ⟨n, rfl⟩ : ∃ m, n = m + 1 := ⟨n - 1, by omega⟩
    cases b <;> rw [Json.text] <;> exact scanVal_atom n (by decide) (by decide) (by decide) _
  | num i =>
    intro k rest hs
    refine ⟨1, fun n hn => ?_⟩
    obtain ⟨n, rfl⟩ : ∃ m, n = m + 1 := ⟨n - 1, by omega⟩
    rw [Json.text, ← jsonInt_atom i rest hs]
    obtain ⟨c, r, hc, hd⟩ := jsonInt_head i
    rw [hc, List.cons_append]
    apply scanVal_atom <;> rintro rfl <;> rcases hd with hd | hd <;> revert hd <;> decide
  | str s =>
    intro k rest _
    refine ⟨1, fun n hn => ?_⟩
    obtain ⟨n, rfl⟩ : ∃ m, n = m + 1 := ⟨n - 1, by omega⟩
    rw [Json.text, jsonStr_append, scanVal_str, scanStr_written]
    rfl
  | arr l _ ih =>
    intro k rest _
    cases l with
    | nil =>
      refine ⟨1, fun n hn => ?_⟩
      obtain ⟨n, rfl⟩ : ∃ m, n = m + 1 := ⟨n - 1, by omega⟩
      rw [Json.text, arrText, List.cons_append, scanVal_arr, scanArr, List.singleton_append, skipWs_cons (by decide)]
      rfl
    | cons x xs =>
      obtain ⟨N, hN⟩ := items_back k rest xs (fun j hj => ih j (List.mem_cons_of_mem _ hj)) x
      obtain ⟨M, hM⟩ := ih x (List.mem_cons_self ..) (k + 2) (arrTail k xs ++ rest) (stops_arrTail _ _ _)
      refine ⟨N + M + 2, fun n hn => ?_⟩
      obtain ⟨n, rfl⟩ : ∃ m, n = m + 2 := ⟨n - 2, by omega⟩
      rw [Json.text, arrText, List.cons_append, scanVal_arr, scanArr, List.append_assoc, skipWs_nl, List.append_assoc, skipWs_text,
        if_neg (text_head_ne _ _ _), scanItems_succ, hM n (by omega), Option.bind_some, hN n (by omega)]
      rfl
  | obj l hk _ ih =>
    intro k rest _
    cases l with
    | nil =>
      refine ⟨1, fun n hn => ?_⟩
      obtain ⟨n, rfl⟩ : ∃ m, n = m + 1 := ⟨n - 1, by omega⟩
      rw [Json.text, objText, List.cons_append, scanVal_obj, scanObj, List.singleton_append, skipWs_cons (by decide)]
      rfl
    | cons e es =>
      obtain ⟨key, v⟩ := e
      obtain ⟨N, hN⟩ := pairs_step (k := k + 2) (r := []) (ih (key, v) (List.mem_cons_self ..)) (stops_objTail k es rest)
        (pairs_back k rest es (fun j hj => ih j (List.mem_cons_of_mem _ hj)) key v)
      refine ⟨N + 1, fun n hn => ?_⟩
      obtain ⟨n, rfl⟩ : ∃ m, n = m + 1 := ⟨n - 1, by omega⟩
      rw [Json.text, objText, List.cons_append, scanVal_obj, scanObj, List.append_assoc, skipWs_nl, List.append_assoc, (pairText_head _ _ _).1,
        if_neg (by rw [(pairText_head _ _ _).2]; decide), hN n (by omega), Option.map_some, toDictOrdered_of_nodup _ hk]

theorem loads_text {j : Json} (h : j.Plain) : jsonLoads (j.text 0) = .ok j := by
  obtain ⟨N, hN⟩ := reads_back h 0 [] trivial
  rw [List.append_nil] at hN
  have hs := skipWs_text 0 j []
  rw [List.append_nil] at hs
  unfold jsonLoads
  rw [hs, (scan_fuel _ (j.text 0) rfl).1 _ (2 * (j.text 0).length + 2 + N) (by omega) (by omega), hN _ (by omega)]
  rfl

/-- A text of a list or an object that was cut is no document. -/
theorem loads_cut {j : Json} (h : j.Plain) (hj : (∃ l, j = .arr l) ∨ ∃ l, j = .obj l) {p t : Str} (hp : j.text 0 = p ++ t) (ht : t ≠ []) :
    jsonLoads p = .error .valueError := by
  unfold jsonLoads
  cases p with
  | nil => rfl
  | cons c p =>
    have hc : c = '[' ∨ c = '{' := by
      rcases hj with ⟨l, rfl⟩ | ⟨l, rfl⟩ <;> rw [Json.text] at hp <;> injection hp with h1 _
      · exact .inl h1.symm
      · exact .inr h1.symm
    rw [skipWs_cons (by rcases hc with rfl | rfl <;> decide)]
    cases hv : scanVal (2 * (c :: p).length + 2) (c :: p) with
    | none => rfl
    | some v =>
      exfalso
      obtain ⟨N, hN⟩ := reads_back h 0 [] trivial
      rw [List.append_nil] at hN
      have h1 : scanVal (2 * (c :: p).length + 2 + N + 2 * (j.text 0).length + 2) (c :: p) = some v := by
        rw [← hv]
        exact (scan_fuel _ (c :: p) rfl).1 _ _ (by omega) (by omega)
      have h2 := (scan_append t _).1 _ _ h1 (.inr (by rcases hc with rfl | rfl <;> simp))
      rw [← hp, hN _ (by omega)] at h2
      have h3 := congrArg Prod.snd (Option.some.inj h2)
      have h4 : v.2 ++ t = [] := h3.symm
      exact ht (List.append_eq_nil_iff.mp h4).2

/-! ### UTF-8 -/

theorem char_range (c : Char) : c.toNat < 0xD800 ∨ (0xDFFF < c.toNat ∧ c.toNat < 0x110000) := by
  have h := c.valid
  simp only [UInt32.isValidChar, Nat.isValidChar] at h
  exact h

theorem decode1 {a : Nat} (h : a < 0x80) (r : List Nat) : utf8Decode (a :: r) = consDecoded a (utf8Decode r) := by
  rw [utf8Decode.eq_def]; simp only [if_pos h]

theorem decode2 {a b : Nat} (h1 : 0xC2 ≤ a) (h2 : a < 0xE0) (hb : isCont b = true) (r : List Nat) :
    utf8Decode (a :: b :: r) = consDecoded ((a - 0xC0) * 64 + (b - 0x80)) (utf8Decode r) ∧ utf8Decode [a] = some [] := by
  constructor <;> rw [utf8Decode.eq_def] <;>
    simp only [if_neg (show ¬ a < 0x80 by omega), if_neg (show ¬ a < 0xC2 by omega), if_pos h2, hb, if_true]

theorem decode3 {a b c : Nat} (h1 : 0xE0 ≤ a) (h2 : a < 0xF0) (hb : secondOk a b = true) (hc : isCont c = true) (r : List Nat) :
    utf8Decode (a :: b :: c :: r) = consDecoded ((a - 0xE0) * 4096 + (b - 0x80) * 64 + (c - 0x80)) (utf8Decode r) ∧ utf8Decode [a] = some [] ∧
      utf8Decode [a, b] = some [] := by
  refine ⟨?_, ?_, ?_⟩ <;> rw [utf8Decode.eq_def] <;>
    simp only [if_neg (show ¬ a < 0x80 by omega), if_neg (show ¬ a < 0xC2 by omega), if_neg (show ¬ a < 0xE0 by omega), if_pos h2, hb, hc,
      Bool.and_self, if_true]

theorem decode4 {a b c d : Nat} (h1 : 0xF0 ≤ a) (h2 : a < 0xF5) (hb : secondOk a b = true) (hc : isCont c = true) (hd : isCont d = true) (r : List Nat) :
    utf8Decode (a :: b :: c :: d :: r) = consDecoded ((a - 0xF0) * 262144 + (b - 0x80) * 4096 + (c - 0x80) * 64 + (d - 0x80)) (utf8Decode r) ∧
      utf8Decode [a] = some [] ∧ utf8Decode [a, b] = some [] ∧ utf8Decode [a, b, c] = some [] := by
  refine ⟨?_, ?_, ?_, ?_⟩ <;> rw [utf8Decode.eq_def] <;>
    simp only [if_neg (show ¬ a < 0x80 by omega), if_neg (show ¬ a < 0xC2 by omega), if_neg (show ¬ a < 0xE0 by omega),
      if_neg (show ¬ a < 0xF0 by omega), if_pos h2, hb, hc, hd, Bool.and_self, if_true]

theorem isCont_iff (b : Nat) : isCont b = true ↔ 0x80 ≤ b ∧ b < 0xC0 := by simp [isCont]

theorem secondOk_iff (a b : Nat) : secondOk a b = true ↔ (0x80 ≤ b ∧ b < 0xC0) ∧ ¬(a = 0xE0 ∧ b < 0xA0) ∧ ¬(a = 0xED ∧ 0xA0 ≤ b) ∧
    ¬(a = 0xF0 ∧ b < 0x90) ∧ ¬(a = 0xF4 ∧ 0x90 ≤ b) := by
  simp only [secondOk, isCont, Bool.and_eq_true, Bool.not_eq_true', decide_eq_true_eq, Bool.and_eq_false_iff, decide_eq_false_iff_not]
  omega

/-- The bytes of a character are read as this character; when some are missing, as nothing. -/
theorem decode_char (c : Char) : (∀ r, utf8Decode (utf8Char c ++ r) = (utf8Decode r).map (c :: ·)) ∧
    ∀ b, b <+: utf8Char c → b ≠ utf8Char c → utf8Decode b = some [] := by
  have hr := char_range c
  have hd : ∀ (n : Nat) (x : Option Str), n = c.toNat → consDecoded n x = x.map (c :: ·) := by
    rintro _ x rfl
    simp only [consDecoded, char_ofNat_toNat]
  unfold utf8Char
  generalize c.toNat = n at *
  dsimp only
  split
  · rename_i h
    refine ⟨fun r => ?_, fun b hb hne => ?_⟩
    · rw [List.singleton_append, decode1 h, hd _ _ rfl]
    · rcases List.prefix_cons_iff.mp hb with rfl | ⟨t, rfl, ht⟩
      · simp [utf8Decode]
      · rw [List.prefix_nil] at ht; subst ht; exact absurd rfl hne
  split
  · rename_i h1 h
    have h2 := fun r => decode2 (a := 0xC0 + n / 64) (b := 0x80 + n % 64) (by omega) (by omega) ((isCont_iff _).mpr (by omega)) r
    refine ⟨fun r => ?_, fun b hb hne => ?_⟩
    · rw [List.cons_append, List.singleton_append, (h2 r).1, hd _ _ (by omega)]
    · rcases List.prefix_cons_iff.mp hb with rfl | ⟨t, rfl, ht⟩
      · simp [utf8Decode]
      rcases List.prefix_cons_iff.mp ht with rfl | ⟨t, rfl, ht2⟩
      · exact (h2 []).2
      · rw [List.prefix_nil] at ht2; subst ht2; exact absurd rfl hne
  split
  · rename_i h0 h1 h
    have h2 := fun r => decode3 (a := 0xE0 + n / 4096) (b := 0x80 + n / 64 % 64) (c := 0x80 + n % 64) (by omega) (by omega)
      ((secondOk_iff _ _).mpr (by omega)) ((isCont_iff _).mpr (by omega)) r
    refine ⟨fun r => ?_, fun b hb hne => ?_⟩
    · rw [List.cons_append, List.cons_append, List.singleton_append, (h2 r).1, hd _ _ (by omega)]
    · rcases List.prefix_cons_iff.mp hb with rfl | ⟨t, rfl, ht⟩
      · simp [utf8Decode]
      rcases List.prefix_cons_iff.mp ht with rfl | ⟨t, rfl, ht2⟩
      · exact (h2 []).2.1
      rcases List.prefix_cons_iff.mp ht2 with rfl | ⟨t, rfl, ht3⟩
      · exact (h2 []).2.2
      · rw [List.prefix_nil] at ht3; subst ht3; exact absurd rfl hne
  · rename_i h0 h1 h
    have h2 := fun r => decode4 (a := 0xF0 + n / 262144) (b := 0x80 + n / 4096 % 64) (c := 0x80 + n / 64 % 64) (d := 0x80 + n % 64) (by omega) (by omega)
      ((secondOk_iff _ _).mpr (by omega)) ((isCont_iff _).mpr (by omega)) ((isCont_iff _).mpr (by omega)) r
    refine ⟨fun r => ?_, fun b hb hne => ?_⟩
    · rw [List.cons_append, List.cons_append, List.cons_append, List.singleton_append, (h2 r).1, hd _ _ (by omega)]
    · rcases List.prefix_cons_iff.mp hb with rfl | ⟨t, rfl, ht⟩
      · simp [utf8Decode]
      rcases List.prefix_cons_iff.mp ht with rfl | ⟨t, rfl, ht2⟩
      · exact (h2 []).2.1
      rcases List.prefix_cons_iff.mp ht2 with rfl | ⟨t, rfl, ht3⟩
      · exact (h2 []).2.2.1
      rcases List.prefix_cons_iff.mp ht3 with rfl | ⟨t, rfl, ht4⟩
      · exact (h2 []).2.2.2
      · rw [List.prefix_nil] at ht4; subst ht4; exact absurd rfl hne

theorem decode_utf8 (s : Str) : utf8Decode (utf8 s) = some s := by
  induction s with
  | nil => simp [utf8, utf8Decode]
  | cons c s ih =>
    rw [utf8, List.flatMap_cons, (decode_char c).1, ← utf8, ih]
    rfl

/-- The bytes of a text that was cut are read as a text that was cut. -/
theorem decode_cut (s : Str) : ∀ b, b <+: utf8 s → b ≠ utf8 s → ∃ p t, utf8Decode b = some p ∧ s = p ++ t ∧ t ≠ [] := by
  induction s with
  | nil =>
    intro b hb hne
    rw [utf8, List.flatMap_nil, List.prefix_nil] at hb
    subst hb
    exact absurd rfl hne
  | cons c s ih =>
    intro b hb hne
    have hu : utf8 (c :: s) = utf8Char c ++ utf8 s := by rw [utf8, List.flatMap_cons, ← utf8]
    rw [hu] at hb hne
    by_cases hp : utf8Char c <+: b
    · obtain ⟨r, rfl⟩ := hp
      have hr : r <+: utf8 s := (List.prefix_append_right_inj _).mp hb
      obtain ⟨p, t, hp, hs, ht⟩ := ih r hr (fun e => hne (by rw [e]))
      refine ⟨c :: p, t, ?_, by rw [hs]; rfl, ht⟩
      rw [(decode_char c).1, hp]
      rfl
    · have hb' : b <+: utf8Char c := by
        rcases List.prefix_or_prefix_of_prefix hb (List.prefix_append (utf8Char c) (utf8 s)) with h | h
        · exact h
        · exact absurd h hp
      exact ⟨[], c :: s, (decode_char c).2 b hb' (fun e => hp (by rw [e])), rfl, by simp⟩

end Verif
