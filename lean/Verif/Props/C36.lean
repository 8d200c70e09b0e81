/-
C36: paradigms.array.
-/
import Verif.Model.Storage
import Verif.Lemmas.Bind

namespace Verif

/-- Specification: the number of bytes of one paradigm, and of all of them. -/
def paraSize (p : List Nat) : Nat := 2 + 2 * p.length
def parasSize (ps : List (List Nat)) : Nat := (ps.map paraSize).sum

/-- Specification: what fits the format: at most 65535 paradigms of at most 65535 items. -/
def FitsFormat (ps : List (List Nat)) : Prop := ps.length ≤ 65535 ∧ ∀ p ∈ ps, p.length ≤ 65535

/-- Specification: the two bytes of an item exchanged. -/
def swapBytes (n : Nat) : Nat := n % 256 * 256 + n / 256

theorem itemBytes_length (little : Bool) (n : Nat) : (itemBytes little n).length = 2 := by
  unfold itemBytes; split <;> rfl

theorem items_length (little : Bool) (p : List Nat) : (p.flatMap (itemBytes little)).length = 2 * p.length := by
  induction p with
  | nil => rfl
  | cons a p ih => rw [List.flatMap_cons, List.length_append, ih, itemBytes_length, List.length_cons]; omega

theorem itemsOf_items (little : Bool) (p : List Nat) : itemsOf little (p.flatMap (itemBytes little)) = p := by
  induction p with
  | nil => rfl
  | cons a p ih =>
    rw [List.flatMap_cons]
    cases little
    · simp only [itemBytes, Bool.false_eq_true, if_false, List.cons_append, List.nil_append, itemsOf]
      rw [show 256 * (a / 256) + a % 256 = a by omega]
      exact congrArg _ ih
    · simp only [itemBytes, if_true, List.cons_append, List.nil_append, itemsOf]
      rw [show a % 256 + 256 * (a / 256) = a by omega]
      exact congrArg _ ih

theorem itemsOf_items_swap (little : Bool) (p : List Nat) :
    itemsOf (!little) (p.flatMap (itemBytes little)) = p.map swapBytes := by
  induction p with
  | nil => rfl
  | cons a p ih =>
    rw [List.flatMap_cons, List.map_cons]
    cases little
    · simp only [itemBytes, Bool.false_eq_true, if_false, List.cons_append, List.nil_append, itemsOf, Bool.not_false, if_true] at *
      rw [ih, swapBytes, show a / 256 + 256 * (a % 256) = a % 256 * 256 + a / 256 by omega]
    · simp only [itemBytes, Bool.false_eq_true, if_false, List.cons_append, List.nil_append, itemsOf, Bool.not_true, if_true] at *
      rw [ih, swapBytes, show 256 * (a % 256) + a / 256 = a % 256 * 256 + a / 256 by omega]

theorem packH_ok_iff (n : Nat) (h : List Nat) : packH n = .ok h ↔ n ≤ 65535 ∧ h = [n % 256, n / 256] := by
  unfold packH maxH
  split <;> simp_all [eq_comm]

theorem encodePara_ok_iff (little : Bool) (p b : List Nat) :
    encodePara little p = .ok b ↔ p.length ≤ 65535 ∧ b = [p.length % 256, p.length / 256] ++ p.flatMap (itemBytes little) := by
  unfold encodePara
  rw [bind_ok_iff]
  constructor
  · rintro ⟨h, h1, h2⟩
    obtain ⟨h3, rfl⟩ := (packH_ok_iff _ _).1 h1
    exact ⟨h3, by cases h2; rfl⟩
  · rintro ⟨h1, rfl⟩
    exact ⟨_, (packH_ok_iff _ _).2 ⟨h1, rfl⟩, rfl⟩

/-- The bytes of one paradigm. -/
def paraBytes (little : Bool) (p : List Nat) : List Nat := [p.length % 256, p.length / 256] ++ p.flatMap (itemBytes little)

theorem paraBytes_length (little : Bool) (p : List Nat) : (paraBytes little p).length = paraSize p := by
  rw [paraBytes, List.length_append, items_length]; rfl

theorem parasBytes_length (little : Bool) (ps : List (List Nat)) : (ps.flatMap (paraBytes little)).length = parasSize ps := by
  induction ps with
  | nil => rfl
  | cons a p ih => rw [List.flatMap_cons, List.length_append, ih, paraBytes_length]; simp [parasSize]

theorem encodeParas_ok_iff (little : Bool) (ps : List (List Nat)) (b : List Nat) :
    encodeParas little ps = .ok b ↔ FitsFormat ps ∧ b = [ps.length % 256, ps.length / 256] ++ ps.flatMap (paraBytes little) := by
  have key : ∀ (ps : List (List Nat)) r, mapE (encodePara little) ps = .ok r ↔
      (∀ p ∈ ps, p.length ≤ 65535) ∧ r = ps.map (paraBytes little) := by
    intro ps
    induction ps with
    | nil => intro r; simp [mapE, eq_comm]
    | cons p ps ih =>
      intro r
      simp only [mapE, bind_ok_iff]
      constructor
      · rintro ⟨b, h1, bs, h2, h3⟩
        obtain ⟨h4, h5⟩ := (encodePara_ok_iff _ _ _).1 h1
        obtain ⟨h6, h7⟩ := (ih bs).1 h2
        cases h3
        exact ⟨by simp [h4]; exact h6, by rw [h5, h7]; rfl⟩
      · rintro ⟨h1, rfl⟩
        exact ⟨_, (encodePara_ok_iff _ _ _).2 ⟨h1 p (by simp), rfl⟩, _, (ih _).2 ⟨fun q hq => h1 q (by simp [hq]), rfl⟩, rfl⟩
  unfold encodeParas FitsFormat
  rw [bind_ok_iff]
  constructor
  · rintro ⟨h, h1, h2⟩
    obtain ⟨h3, rfl⟩ := (packH_ok_iff _ _).1 h1
    obtain ⟨bs, h4, h5⟩ := (bind_ok_iff _ _ _).1 h2
    obtain ⟨h6, rfl⟩ := (key _ _).1 h4
    cases h5
    exact ⟨⟨h3, h6⟩, by rw [List.flatMap_def]⟩
  · rintro ⟨⟨h1, h2⟩, rfl⟩
    refine ⟨_, (packH_ok_iff _ _).2 ⟨h1, rfl⟩, ?_⟩
    refine (bind_ok_iff _ _ _).2 ⟨_, (key _ _).2 ⟨h2, rfl⟩, ?_⟩
    rw [List.flatMap_def]; rfl

theorem encodePara_error (little : Bool) (p : List Nat) (e : PyErr) (h : encodePara little p = .error e) : e = .structError := by
  unfold encodePara packH at h
  split at h <;> cases h
  rfl

theorem mapE_encode_error (little : Bool) (ps : List (List Nat)) (e : PyErr) (h : mapE (encodePara little) ps = .error e) :
    e = .structError := by
  induction ps with
  | nil => cases h
  | cons p ps ih =>
    simp only [mapE] at h
    cases h1 : encodePara little p with
    | error e' => rw [h1] at h; cases h; exact encodePara_error _ _ _ h1
    | ok b =>
      rw [h1] at h
      cases h2 : mapE (encodePara little) ps with
      | error e' => rw [h2] at h; cases h; exact ih h2
      | ok bs => rw [h2] at h; cases h

theorem encodeParas_error (little : Bool) (ps : List (List Nat)) (e : PyErr) (h : encodeParas little ps = .error e) : e = .structError := by
  unfold encodeParas packH at h
  split at h
  · cases h1 : mapE (encodePara little) ps with
    | error e' => rw [h1] at h; cases h; exact mapE_encode_error _ _ _ h1
    | ok b => rw [h1] at h; cases h
  · cases h; rfl

/-- **C36.** Saving fails iff something exceeds 65535, and then with `struct.error`. -/
theorem c36_save_fails_iff (little : Bool) (ps : List (List Nat)) :
    encodeParas little ps = .error .structError ↔ ¬ FitsFormat ps := by
  constructor
  · intro h hf
    rw [(encodeParas_ok_iff little ps _).2 ⟨hf, rfl⟩] at h
    cases h
  · intro h
    cases he : encodeParas little ps with
    | error e => rw [encodeParas_error _ _ _ he]
    | ok b => exact absurd ((encodeParas_ok_iff _ _ _).1 he).1 h

/-- **C36.** The size of the file. -/
theorem c36_size (little : Bool) (ps : List (List Nat)) (b : List Nat) (h : encodeParas little ps = .ok b) : b.length = 2 + parasSize ps := by
  obtain ⟨_, rfl⟩ := (encodeParas_ok_iff _ _ _).1 h
  rw [List.length_append, parasBytes_length]; rfl

/-- **C36.** What is written are bytes, as the items of an `array("H")` are at most 65535. -/
theorem c36_bytes (little : Bool) (ps : List (List Nat)) (b : List Nat) (hp : ∀ p ∈ ps, ∀ x ∈ p, x ≤ 65535)
    (h : encodeParas little ps = .ok b) : ∀ x ∈ b, x < 256 := by
  obtain ⟨⟨h1, h2⟩, rfl⟩ := (encodeParas_ok_iff _ _ _).1 h
  intro x hx
  simp only [List.mem_append, List.mem_cons, List.not_mem_nil, or_false, List.mem_flatMap, paraBytes] at hx
  rcases hx with (rfl | rfl) | ⟨p, hpm, (rfl | rfl) | ⟨a, ha, hxa⟩⟩
  · omega
  · omega
  · omega
  · have := h2 p hpm; omega
  · have := hp p hpm a ha
    unfold itemBytes at hxa
    split at hxa <;> simp only [List.mem_cons, List.not_mem_nil, or_false] at hxa <;> omega

theorem decodeLoop_encoded (wl rl : Bool) (f : List Nat → List Nat) (hf : ∀ p, itemsOf rl (p.flatMap (itemBytes wl)) = f p)
    (ps : List (List Nat)) (t : List Nat) :
    decodeLoop rl ps.length (ps.flatMap (paraBytes wl) ++ t) = .ok (ps.map f) := by
  induction ps with
  | nil => rfl
  | cons p ps ih =>
    rw [List.flatMap_cons, List.length_cons]
    simp only [decodeLoop, paraBytes, List.cons_append, List.nil_append, readH, ok_bind, readItems, List.append_assoc]
    rw [show p.length % 256 + 256 * (p.length / 256) = p.length by omega, if_neg (by rw [List.length_append, items_length]; omega),
      ok_bind, List.take_append_of_le_length (by rw [items_length]), ← items_length wl, List.take_length, List.drop_left]
    show (do let rest ← decodeLoop rl ps.length (ps.flatMap (paraBytes wl) ++ t); pure (itemsOf rl (p.flatMap (itemBytes wl)) :: rest)) = _
    rw [ih, ok_bind, hf]; rfl

/-- **C36.** Round trip: what was saved is what is loaded (also if something follows in the file, which is not read). -/
theorem c36_round_trip (little : Bool) (ps : List (List Nat)) (b t : List Nat) (h : encodeParas little ps = .ok b) :
    decodeParas little (b ++ t) = .ok ps := by
  obtain ⟨_, rfl⟩ := (encodeParas_ok_iff _ _ _).1 h
  unfold decodeParas
  simp only [List.cons_append, List.nil_append, readH, ok_bind]
  rw [show ps.length % 256 + 256 * (ps.length / 256) = ps.length by omega,
    decodeLoop_encoded little little id (itemsOf_items little), List.map_id]

/-- **C36.** Two lists of paradigms never give the same file. -/
theorem c36_injective (little : Bool) (ps qs : List (List Nat)) (b : List Nat) (h1 : encodeParas little ps = .ok b)
    (h2 : encodeParas little qs = .ok b) : ps = qs := by
  have e1 := c36_round_trip little ps b [] h1
  rw [c36_round_trip little qs b [] h2] at e1
  cases e1; rfl

/-- **C36 (defect).** The counts are little-endian, the items are in the byte order of the machine: a file written on a machine of the other
byte order loads without an error, with the bytes of all items exchanged. -/
theorem c36_other_machine (little : Bool) (ps : List (List Nat)) (b : List Nat) (h : encodeParas little ps = .ok b) :
    decodeParas (!little) b = .ok (ps.map (·.map swapBytes)) := by
  obtain ⟨_, rfl⟩ := (encodeParas_ok_iff _ _ _).1 h
  unfold decodeParas
  simp only [List.cons_append, List.nil_append, readH, ok_bind]
  rw [show ps.length % 256 + 256 * (ps.length / 256) = ps.length by omega]
  have := decodeLoop_encoded little (!little) (·.map swapBytes) (itemsOf_items_swap little) ps []
  rw [List.append_nil] at this
  exact this

theorem itemsOf_length (little : Bool) (n : Nat) : ∀ b : List Nat, b.length = 2 * n → (itemsOf little b).length = n := by
  induction n with
  | zero => intro b hb; cases b with
    | nil => rfl
    | cons _ _ => simp at hb
  | succ n ih =>
    intro b hb
    match b, hb with
    | a :: c :: r, hb =>
      simp only [itemsOf, List.length_cons] at hb ⊢
      rw [ih r (by omega)]

theorem decodeLoop_mono (little : Bool) (n : Nat) : ∀ (b t : List Nat) ps, decodeLoop little n b = .ok ps →
    decodeLoop little n (b ++ t) = .ok ps ∧ parasSize ps ≤ b.length := by
  induction n with
  | zero => intro b t ps h; cases h; exact ⟨rfl, by simp [parasSize]⟩
  | succ n ih =>
    intro b t ps h
    simp only [decodeLoop, bind_ok_iff] at h
    obtain ⟨l, h1, it, h2, rest, h3, h4⟩ := h
    cases h4
    match b, h1 with
    | x :: y :: b', h1 =>
      simp only [readH, Except.ok.injEq] at h1
      subst h1
      simp only [readItems] at h2
      split at h2
      · cases h2
      rename_i hlen
      cases h2
      obtain ⟨h5, h6⟩ := ih _ t _ h3
      refine ⟨?_, ?_⟩
      · simp only [decodeLoop, List.cons_append, readH, ok_bind, readItems]
        rw [if_neg (by rw [List.length_append]; omega), ok_bind, List.take_append_of_le_length (by omega),
          List.drop_append_of_le_length (by omega), h5]
        rfl
      · have e := itemsOf_length little (x + 256 * y) (b'.take (2 * (x + 256 * y))) (by rw [List.length_take]; omega)
        rw [List.length_drop] at h6
        have : parasSize (itemsOf little (b'.take (2 * (x + 256 * y))) :: rest) = paraSize (itemsOf little (b'.take (2 * (x + 256 * y)))) + parasSize rest := rfl
        rw [this, paraSize, e]
        simp only [List.length_cons]
        omega

theorem decodeLoop_error (little : Bool) (n : Nat) : ∀ (b : List Nat) e, decodeLoop little n b = .error e →
    e = .structError ∨ e = .eofError := by
  induction n with
  | zero => intro b e h; cases h
  | succ n ih =>
    intro b e h
    simp only [decodeLoop] at h
    match b, h with
    | [], h => cases h; exact .inl rfl
    | [_], h => cases h; exact .inl rfl
    | x :: y :: b', h =>
      simp only [readH, ok_bind, readItems] at h
      split at h
      · cases h; exact .inr rfl
      · simp only [ok_bind] at h
        cases h1 : decodeLoop little n (List.drop (2 * (x + 256 * y)) b') with
        | error e' => rw [h1] at h; cases h; exact ih _ _ h1
        | ok r => rw [h1] at h; cases h

theorem decodeParas_error (little : Bool) (b : List Nat) (e : PyErr) (h : decodeParas little b = .error e) : e = .structError ∨ e = .eofError := by
  unfold decodeParas at h
  match b, h with
  | [], h => cases h; exact .inl rfl
  | [_], h => cases h; exact .inl rfl
  | x :: y :: b', h =>
    simp only [readH, ok_bind] at h
    exact decodeLoop_error _ _ _ _ h

/-- **C36.** A truncated file is never accepted: loading any proper prefix of a saved file raises `struct.error` or `EOFError`. -/
theorem c36_truncated (little : Bool) (ps : List (List Nat)) (b b' : List Nat) (h : encodeParas little ps = .ok b) (hp : b' <+: b)
    (hne : b' ≠ b) : decodeParas little b' = .error .structError ∨ decodeParas little b' = .error .eofError := by
  cases hd : decodeParas little b' with
  | error e => rcases decodeParas_error _ _ _ hd with rfl | rfl <;> simp
  | ok qs =>
    exfalso
    obtain ⟨t, rfl⟩ := hp
    have hr := c36_round_trip little ps _ [] h
    have hsz := c36_size little ps _ h
    rw [List.append_nil] at hr
    match b', hd, hr, hsz, hne with
    | x :: y :: b'', hd, hr, hsz, hne =>
      simp only [decodeParas, readH, ok_bind, List.cons_append] at hd hr
      obtain ⟨h1, h2⟩ := decodeLoop_mono little _ b'' t qs hd
      rw [h1] at hr
      cases hr
      simp only [List.cons_append, List.length_cons, List.length_append] at hsz
      have : t = [] := List.length_eq_zero_iff.1 (by omega)
      exact hne (by rw [this, List.append_nil])

/-- The hypotheses hold: two paradigms, one of them empty, with the file they give on both kinds of machines. -/
example : encodeParas true [[1, 258, 3], []] = .ok [2, 0, 3, 0, 1, 0, 2, 1, 3, 0, 0, 0] ∧
    encodeParas false [[1, 258, 3], []] = .ok [2, 0, 3, 0, 0, 1, 1, 2, 0, 3, 0, 0] ∧
    decodeParas false [2, 0, 3, 0, 1, 0, 2, 1, 3, 0, 0, 0] = .ok [[256, 513, 768], []] := by
  decide +kernel

/-- A list that does not fit: 65536 paradigms (which `compile_parsed_dict` accepts, as the numbers 0…65535 fit its records). -/
example : ¬ FitsFormat (List.replicate 65536 []) := by
  intro h
  have := h.1
  rw [List.length_replicate] at this
  omega

end Verif
