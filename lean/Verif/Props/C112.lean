/-
C112: `json_read` reads exactly the JSON documents, each as the one value it stands for, whoever wrote them and however they are laid out.
-/
import Verif.Lemmas.JsonGrammar
import Verif.Props.C92

namespace Verif

/-- `json.loads`: a text is read as a value if and only if the grammar of JSON says that it is a text of this value. -/
theorem c112_text (s : Str) (j : Json) : jsonLoads s = .ok j ↔ JDocument j s := loads_iff s j

/-- `json_read`: a file is read as a value if and only if it holds the bytes of such a text, perhaps followed by the first bytes of one more character. -/
theorem c112_bytes (b : List Nat) (j : Json) : jsonRead b = .ok j ↔ ∃ s tail, b = utf8 s ++ tail ∧ CutChar tail ∧ JDocument j s := by
  unfold jsonRead
  constructor
  · intro h
    split at h
    · cases h
    · rename_i s hs
      obtain ⟨tail, hb, ht⟩ := (decode_iff b s).mp hs
      exact ⟨s, tail, hb, ht, (loads_iff s j).mp h⟩
  · rintro ⟨s, tail, rfl, ht, hj⟩
    rw [decode_complete s ht]
    exact (loads_iff s j).mpr hj

/-- Every other file is refused with `ValueError`. -/
theorem c112_refused (b : List Nat) (h : ¬ ∃ j s tail, b = utf8 s ++ tail ∧ CutChar tail ∧ JDocument j s) : jsonRead b = .error .valueError := by
  rcases c92_value_error b with ⟨j, hj⟩ | he
  · obtain ⟨s, tail, hs⟩ := (c112_bytes b j).mp hj
    exact absurd ⟨j, s, tail, hs⟩ h
  · exact he

/-- The bytes of a text are read as the text is: bytes and text never disagree. -/
theorem c112_encoded (s : Str) : jsonRead (utf8 s) = jsonLoads s := by
  unfold jsonRead
  rw [decode_utf8]

/-- A text stands for one value at most. -/
theorem c112_one_value (s : Str) (j k : Json) (hj : JDocument j s) (hk : JDocument k s) : j = k := by
  have h := (c112_text s j).mpr hj
  rw [(c112_text s k).mpr hk] at h
  exact (Except.ok.inj h).symm

/-- What `json_write` writes is JSON: a text of the value by the grammar. -/
theorem c112_written (j : Json) (h : j.Plain) : ∃ s, jsonWrite j = utf8 s ∧ JDocument j s :=
  ⟨j.text 0, rfl, (c112_text _ j).mp (loads_text h)⟩

/-- The layout does not matter: any document of a value that was written is read as what the written file is read as. -/
theorem c112_layout (j : Json) (h : j.Plain) (s : Str) (hs : JDocument j s) : jsonRead (utf8 s) = jsonRead (jsonWrite j) := by
  rw [c112_encoded, (c112_text s j).mpr hs, c92_round_trip j h]

/-- `s.encode('utf8')`: the bytes of a character are those of Lean's own encoder (RFC 3629). -/
theorem c112_utf8 (c : Char) : utf8Char c = (String.utf8EncodeChar c).map UInt8.toNat := by
  have h := char_range c
  unfold utf8Char String.utf8EncodeChar
  have hv : c.val.toNat = c.toNat := rfl
  rw [hv]
  generalize c.toNat = n at *
  dsimp only
  by_cases h1 : n < 0x80
  · rw [if_pos h1, if_pos (by omega)]; simp; omega
  by_cases h2 : n < 0x800
  · rw [if_neg h1, if_pos h2, if_neg (by omega), if_pos (by omega)]; simp; omega
  by_cases h3 : n < 0x10000
  · rw [if_neg h1, if_neg h2, if_pos h3, if_neg (by omega), if_neg (by omega), if_pos (by omega)]; simp; omega
  · rw [if_neg h1, if_neg h2, if_neg h3, if_neg (by omega), if_neg (by omega), if_neg (by omega)]; simp; omega

/-! ### Values -/

/-- A string may be written with any of the ways to write its characters: it is read as that string. -/
theorem c112_string (s t : Str) (h : JString s t) : jsonLoads ('"' :: (t ++ ['"'])) = .ok (.str s) :=
  (c112_text _ _).mpr ⟨[], _, [], by simp, by simp [JSpace], .str h, by simp [JSpace]⟩

/-- A key that is there twice: the dict has it once, where it was first, with the value it had last. -/
theorem c112_last_wins (k x : Str) (a b c : Json) (hk : k ≠ x) : LastWins [(k, a), (x, b), (k, c)] [(k, c), (x, b)] := by
  refine ⟨?_, ?_⟩
  · simp [firsts, hk.symm]
  · intro e he
    simp only [List.mem_cons, List.not_mem_nil, or_false] at he
    rcases he with rfl | rfl
    · exact ⟨[(k, a), (x, b)], [], rfl, by simp⟩
    · exact ⟨[(k, a)], [(k, c)], rfl, by simpa using hk.symm⟩

/-! ### Cases -/

/-- A document nobody's `json_write` would write: no indentation, escapes in both cases, a surrogate pair, a key twice, an exponent, zero with a sign. -/
example : JDocument (.obj [(c!"a", .arr [.str ['ж', Char.ofNat 0x1D11E, '/'], .str (c!"-1.50E+2"), .num 0]), (c!"b", .bool true)])
    (c!" {\"a\":null,\"b\" : true,\"a\":[\"\\u0436\\ud834\\uDD1E\\/\",-1.50E+2, -0 ]}") := by
  have h : jsonLoads (c!" {\"a\":null,\"b\" : true,\"a\":[\"\\u0436\\ud834\\uDD1E\\/\",-1.50E+2, -0 ]}") =
      .ok (.obj [(c!"a", .arr [.str ['ж', Char.ofNat 0x1D11E, '/'], .str (c!"-1.50E+2"), .num 0]), (c!"b", .bool true)]) := by rfl
  exact (c112_text _ _).mp h

/-- Not JSON: superfluous zeros, a plus, a point without digits, a comma too many, a single quote, a line break in a string, a second value. -/
example : ∀ s ∈ [c!"01", c!"+1", c!"1.", c!".5", c!"[1,]", c!"{\"a\":1,}", c!"'a'", '"' :: Char.ofNat 10 :: c!"\"", c!"1 2", c!"[1", c!"nul", c!"", c!"\"\\x\"", c!"{1:2}"],
    (jsonLoads s).isOk = false := by decide +kernel

/-- Overlong forms, surrogates and what is beyond the last character are not UTF-8; a cut character before the end is not either. -/
example : ∀ b ∈ [[0xC0, 0xA2], [0xE0, 0x80, 0xA2], [0xED, 0xA0, 0x80], [0xF4, 0x90, 0x80, 0x80], [0x22, 0xD0, 0x22], [0xFF], [0x80]],
    utf8Decode b = none := by decide +kernel

example : CutChar [0xD0] ∧ CutChar [] ∧ CutChar [0xF0, 0x9D] :=
  ⟨⟨'ж', by decide +kernel, by decide +kernel⟩, ⟨'ж', by decide +kernel, by decide +kernel⟩, ⟨Char.ofNat 0x1D11E, by decide +kernel, by decide +kernel⟩⟩

example : LastWins [(c!"a", .null), (c!"b", .num 1), (c!"a", .num 2)] [(c!"a", .num 2), (c!"b", .num 1)] := c112_last_wins _ _ _ _ _ (by decide)

example : JString ['ж', '"'] (c!"\\u0436\\\"") :=
  .cons (.unit (c!"0436") ⟨'0', '4', '3', '6', 0, 4, 3, 6, rfl, .inl rfl, .inl rfl, .inl rfl, .inl rfl, rfl⟩) (.cons (t := []) (.short '"' (by decide)) .nil)

end Verif
