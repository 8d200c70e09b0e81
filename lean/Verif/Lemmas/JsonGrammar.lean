/-
The reader of `Model/JsonText` reads exactly the grammar of `Spec/JsonGrammar`.
-/
import Verif.Lemmas.JsonText
import Verif.Lemmas.Firsts
import Verif.Spec.JsonGrammar

namespace Verif

/-! ### Dicts -/

theorem jsonGet_append {α β : Type} [DecidableEq α] (k : α) (a b : List (α × β)) (h : k ∉ a.map Prod.fst) : dictGet k (a ++ b) = dictGet k b := by
  induction a with
  | nil => rfl
  | cons e a ih =>
    obtain ⟨k', v⟩ := e
    simp only [List.map_cons, List.mem_cons, not_or] at h
    rw [List.cons_append, dictGet, if_neg (fun e => h.1 e.symm), ih h.2]

theorem last_iff (ps : List (Str × Json)) (e : Str × Json) :
    (∃ before after, ps = before ++ e :: after ∧ e.1 ∉ after.map Prod.fst) ↔ dictGet e.1 ps.reverse = some e.2 := by
  obtain ⟨k, v⟩ := e
  constructor
  · rintro ⟨b, a, rfl, h⟩
    rw [List.reverse_append, List.reverse_cons, List.append_assoc, jsonGet_append _ _ _ (by simpa using h)]
    simp [dictGet]
  · induction ps using List.reverseRecOn with
    | nil => intro h; simp [dictGet] at h
    | append_singleton ps e ih =>
      obtain ⟨k', v'⟩ := e
      rw [List.reverse_append, List.reverse_singleton, List.singleton_append, dictGet]
      split
      · rename_i hk
        intro h
        subst hk
        cases h
        exact ⟨ps, [], by simp, by simp⟩
      · rename_i hk
        intro h
        obtain ⟨b, a, rfl, h2⟩ := ih h
        refine ⟨b, a ++ [(k', v')], by simp, ?_⟩
        simp only [List.map_append, List.map_cons, List.map_nil, List.mem_append, List.mem_singleton, not_or]
        exact ⟨h2, fun e => hk e.symm⟩

theorem toDictOrdered_snoc (ps : List (Str × Json)) (e : Str × Json) : toDictOrdered (ps ++ [e]) = dictSet e.1 e.2 (toDictOrdered ps) := by
  simp [toDictOrdered, List.foldl_append]

theorem toDictOrdered_get (ps : List (Str × Json)) (k : Str) : dictGet k (toDictOrdered ps) = dictGet k ps.reverse := by
  induction ps using List.reverseRecOn with
  | nil => rfl
  | append_singleton ps e ih =>
    obtain ⟨k', v⟩ := e
    rw [toDictOrdered_snoc, dictGet_dictSet, List.reverse_append, List.reverse_singleton, List.singleton_append, dictGet, ih]
    by_cases h : k = k'
    · simp [h]
    · rw [if_neg h, if_neg (fun e : k' = k => h e.symm)]

theorem toDictOrdered_keys (ps : List (Str × Json)) : (toDictOrdered ps).map Prod.fst = firsts (ps.map Prod.fst) := by
  induction ps using List.reverseRecOn with
  | nil => rfl
  | append_singleton ps e ih =>
    rw [toDictOrdered_snoc, List.map_append, firsts_append, ← ih]
    by_cases h : e.1 ∈ (toDictOrdered ps).map Prod.fst
    · rw [keys_dictSet_mem _ _ _ h]
      rw [ih, mem_firsts] at h
      simp [firsts, List.mem_map.mp h]
    · rw [keys_dictSet_not_mem _ _ _ h]
      rw [ih, mem_firsts] at h
      simp only [List.map_append, List.map_cons, List.map_nil, firsts, List.filter_nil, List.filter_cons]
      rw [if_pos (by simpa using h)]

theorem lastWins_toDict (ps : List (Str × Json)) : LastWins ps (toDictOrdered ps) := by
  refine ⟨toDictOrdered_keys ps, fun e he => ?_⟩
  rw [last_iff, ← toDictOrdered_get]
  exact dictGet_of_mem _ _ _ (by rw [toDictOrdered_keys]; exact firsts_nodup _) he

theorem lastWins_unique {ps l : List (Str × Json)} (h : LastWins ps l) : l = toDictOrdered ps := by
  obtain ⟨h1, h2⟩ := h
  obtain ⟨g1, g2⟩ := lastWins_toDict ps
  rw [← g1] at h1
  replace h2 : ∀ e ∈ l, dictGet e.1 ps.reverse = some e.2 := fun e he => (last_iff ps e).mp (h2 e he)
  replace g2 : ∀ e ∈ toDictOrdered ps, dictGet e.1 ps.reverse = some e.2 := fun e he => (last_iff ps e).mp (g2 e he)
  clear g1
  generalize toDictOrdered ps = l' at *
  induction l generalizing l' with
  | nil => simpa using h1.symm
  | cons e l ih =>
    cases l' with
    | nil => simp at h1
    | cons e' l' =>
      simp only [List.map_cons, List.cons.injEq] at h1
      have a := h2 e (List.mem_cons_self ..)
      have b := g2 e' (List.mem_cons_self ..)
      rw [h1.1, b] at a
      have : e = e' := Prod.ext h1.1 (Option.some.inj a).symm
      rw [this, ih (fun x hx => h2 x (List.mem_cons_of_mem _ hx)) l' h1.2 (fun x hx => g2 x (List.mem_cons_of_mem _ hx))]

/-! ### White space -/

theorem jsonWs_iff (c : Char) : jsonWs c = true ↔ c = ' ' ∨ c = Char.ofNat 9 ∨ c = Char.ofNat 10 ∨ c = Char.ofNat 13 := by
  simp [jsonWs, or_assoc]

theorem skipWs_split (s : Str) : ∃ w, JSpace w ∧ s = w ++ skipWs s := by
  refine ⟨s.takeWhile jsonWs, fun c hc => ?_, (List.takeWhile_append_dropWhile).symm⟩
  exact (jsonWs_iff c).mp (List.mem_takeWhile_imp hc)

theorem skipWs_space {w : Str} (hw : JSpace w) (s : Str) : skipWs (w ++ s) = skipWs s :=
  dropWhile_all_append fun c hc => (jsonWs_iff c).mpr (hw c hc)

theorem skipWs_space_nil {w : Str} (hw : JSpace w) : skipWs w = [] := by
  have := skipWs_space hw []
  rwa [List.append_nil] at this

theorem skipWs_eq_nil {s : Str} (h : skipWs s = []) : JSpace s := by
  obtain ⟨w, hw, e⟩ := skipWs_split s
  rw [h, List.append_nil] at e
  exact e ▸ hw

/-! ### Characters -/

theorem hexVal_iff (c : Char) (v : Nat) : hexVal c = some v ↔ JHex c v := by
  constructor
  · intro h
    have key : ∀ n < 128, ∀ v, hexVal (Char.ofNat n) = some v → v < 16 ∧ JHex (Char.ofNat n) v := by
      have all : ∀ n < 128, (match hexVal (Char.ofNat n) with
          | some v => decide (v < 16 ∧ ((c!"0123456789abcdef")[v]? = some (Char.ofNat n) ∨ (c!"0123456789ABCDEF")[v]? = some (Char.ofNat n)))
          | none => true) = true := by decide +kernel
      intro n hn v hv
      have := all n hn
      rw [hv] at this
      simp only [decide_eq_true_eq] at this
      exact this
    have hc : c.toNat < 128 := by
      unfold hexVal at h
      have le : ∀ a b : Char, a ≤ b → a.toNat ≤ b.toNat := fun a b h => h
      split at h
      · rename_i h'; have := le _ _ h'.2; exact lt_of_le_of_lt this (by decide)
      split at h
      · rename_i h'; have := le _ _ h'.2; exact lt_of_le_of_lt this (by decide)
      split at h
      · rename_i h'; have := le _ _ h'.2; exact lt_of_le_of_lt this (by decide)
      · cases h
    have := key c.toNat hc v (by rwa [char_ofNat_toNat])
    rw [char_ofNat_toNat] at this
    exact this.2
  · rintro (h | h)
    all_goals
      have hv : v < 16 := (List.getElem?_eq_some_iff.mp h).1
      interval_cases v <;> (simp at h; subst h; decide)

theorem hex4_iff (a b c d : Char) (n : Nat) : hex4 a b c d = some n ↔ JHex4 [a, b, c, d] n := by
  constructor
  · intro h
    simp only [hex4, Option.bind_eq_bind, Option.bind_eq_some_iff, Option.pure_def, Option.some.injEq] at h
    obtain ⟨x, hx, y, hy, z, hz, t, ht, e⟩ := h
    exact ⟨a, b, c, d, x, y, z, t, rfl, (hexVal_iff _ _).mp hx, (hexVal_iff _ _).mp hy, (hexVal_iff _ _).mp hz, (hexVal_iff _ _).mp ht, e.symm⟩
  · rintro ⟨a, b, c, d, x, y, z, t, e, hx, hy, hz, ht, rfl⟩
    simp only [List.cons.injEq, and_true] at e
    obtain ⟨rfl, rfl, rfl, rfl⟩ := e
    simp only [hex4, (hexVal_iff _ _).mpr hx, (hexVal_iff _ _).mpr hy, (hexVal_iff _ _).mpr hz, (hexVal_iff _ _).mpr ht]
    rfl

theorem hex4_lt {s : Str} {n : Nat} (h : JHex4 s n) : n < 0x10000 := by
  obtain ⟨a, b, c, d, x, y, z, t, _, hx, hy, hz, ht, rfl⟩ := h
  have lt : ∀ c v, JHex c v → v < 16 := by
    rintro c v (h | h) <;> exact (List.getElem?_eq_some_iff.mp h).1
  have := lt _ _ hx; have := lt _ _ hy; have := lt _ _ hz; have := lt _ _ ht
  omega

theorem jsonUnesc_iff (e c : Char) : jsonUnesc e = some c ↔ (e, c) ∈ jsonShorts := by
  simp only [jsonShorts, List.mem_cons, Prod.mk.injEq, List.not_mem_nil, or_false]
  unfold jsonUnesc
  constructor
  · intro h
    repeat' split at h
    all_goals first | (cases h; done) | (rename_i he; subst he; cases h; simp)
  · intro h
    rcases h with ⟨rfl, rfl⟩ | ⟨rfl, rfl⟩ | ⟨rfl, rfl⟩ | ⟨rfl, rfl⟩ | ⟨rfl, rfl⟩ | ⟨rfl, rfl⟩ | ⟨rfl, rfl⟩ | ⟨rfl, rfl⟩ <;> rfl

theorem isSurrogate_iff (n : Nat) : isSurrogate n = true ↔ 0xD800 ≤ n ∧ n < 0xE000 := by
  simp only [isSurrogate, Bool.and_eq_true, decide_eq_true_eq]
  omega

theorem char_toNat_ofNat {n : Nat} (h : n < 0xD800 ∨ (0xDFFF < n ∧ n < 0x110000)) : (Char.ofNat n).toNat = n := by
  have hv : n.isValidChar := h
  simp [Char.ofNat, hv, Char.toNat, Char.ofNatAux]

/-- An escape is read as the character it stands for, and only escapes are read. -/
theorem scanEsc_sound {s : Str} {x : Char × Str} (h : scanEsc s = some x) : ∃ t, '\\' :: s = t ++ x.2 ∧ JChar x.1 t := by
  cases s with
  | nil => simp [scanEsc] at h
  | cons e r1 =>
    simp only [scanEsc] at h
    split at h
    · rename_i he
      subst he
      split at h
      · rename_i a b c d r2
        cases hn : hex4 a b c d with
        | none => rw [hn] at h; cases h
        | some n =>
          rw [hn] at h
          have hx := (hex4_iff _ _ _ _ _).mp hn
          dsimp only at h
          split at h
          · rename_i hs
            have hs := (isSurrogate_iff n).mp hs
            split at h
            · rename_i a2 b2 c2 d2 r3
              simp only [Option.map_eq_some_iff, Option.bind_eq_some_iff] at h
              obtain ⟨ch, ⟨m, hm, hp⟩, rfl⟩ := h
              have hy := (hex4_iff _ _ _ _ _).mp hm
              unfold surrogatePair at hp
              split at hp
              · rename_i hr
                rw [Option.some.injEq] at hp
                have ht : ch.toNat = 0x10000 + (n - 0xD800) * 0x400 + (m - 0xDC00) := by
                  rw [← hp, char_toNat_ofNat (by omega)]
                  omega
                exact ⟨c!"\\u" ++ [a, b, c, d] ++ c!"\\u" ++ [a2, b2, c2, d2], by simp only [List.cons_append, List.nil_append],
                  .pair _ _ n m hx hy (by omega) (by omega) ht⟩
              · cases hp
            · cases h
          · rename_i hs
            cases h
            have hs : ¬ (0xD800 ≤ n ∧ n < 0xE000) := fun h => hs ((isSurrogate_iff n).mpr h)
            have := hex4_lt hx
            refine ⟨c!"\\u" ++ [a, b, c, d], by simp only [List.cons_append, List.nil_append], .unit _ ?_⟩
            rw [char_toNat_ofNat (by omega)]
            exact hx
      · cases h
    · simp only [Option.map_eq_some_iff] at h
      obtain ⟨c, hc, rfl⟩ := h
      exact ⟨['\\', e], rfl, .short e ((jsonUnesc_iff _ _).mp hc)⟩

theorem scanStr_char {c : Char} {t : Str} (h : JChar c t) (s : Str) : scanStr (t ++ s) = consScanned c (scanStr s) := by
  cases h with
  | plain h1 h2 h3 => rw [List.singleton_append, scanStr_plain h1 h2, if_neg (by omega)]
  | short e h =>
    have hu : e ≠ 'u' := by
      rintro rfl
      simp only [jsonShorts, List.mem_cons, Prod.mk.injEq, List.not_mem_nil, or_false] at h
      revert h
      rintro (h | h | h | h | h | h | h | h) <;> exact absurd h.1 (by decide)
    show scanStr ('\\' :: e :: s) = _
    rw [scanStr_backslash]
    simp [scanEsc, hu, (jsonUnesc_iff _ _).mpr h]
  | unit x h =>
    have h0 := h
    obtain ⟨a, b, d, e, _, _, _, _, rfl, _⟩ := h0
    have hs : isSurrogate c.toNat = false := by
      have := char_range c
      rw [Bool.eq_false_iff, ne_eq, isSurrogate_iff]
      omega
    show scanStr ('\\' :: 'u' :: a :: b :: d :: e :: s) = _
    rw [scanStr_backslash]
    simp [scanEsc, (hex4_iff _ _ _ _ _).mpr h, hs]
  | pair x y hi lo hx hy h1 h2 hc =>
    have hx0 := hx
    have hy0 := hy
    obtain ⟨a, b, d, e, _, _, _, _, rfl, _⟩ := hx0
    obtain ⟨a2, b2, d2, e2, _, _, _, _, rfl, _⟩ := hy0
    have hs : isSurrogate hi = true := (isSurrogate_iff hi).mpr (by omega)
    have hp : surrogatePair hi lo = some c := by
      unfold surrogatePair
      rw [if_pos (by omega), show 0x10000 + 1024 * (hi - 0xD800) + (lo - 0xDC00) = c.toNat by omega, char_ofNat_toNat]
    show scanStr ('\\' :: 'u' :: a :: b :: d :: e :: '\\' :: 'u' :: a2 :: b2 :: d2 :: e2 :: s) = _
    rw [scanStr_backslash]
    simp [scanEsc, (hex4_iff _ _ _ _ _).mpr hx, (hex4_iff _ _ _ _ _).mpr hy, hs, hp]

/-! ### Strings -/

theorem scanStr_complete {s t : Str} (h : JString s t) (rest : Str) : scanStr (t ++ '"' :: rest) = some (s, rest) := by
  induction h with
  | nil => exact scanStr_quote rest
  | cons hc _ ih => rw [List.append_assoc, scanStr_char hc, ih]; rfl

theorem scanStr_sound : ∀ (n : Nat) (s : Str) (x : Str × Str), s.length ≤ n → scanStr s = some x → ∃ t, s = t ++ '"' :: x.2 ∧ JString x.1 t := by
  intro n
  induction n with
  | zero =>
    intro s x hs h
    rw [List.length_eq_zero_iff.mp (Nat.le_zero.mp hs)] at h
    simp [scanStr] at h
  | succ n ih =>
    intro s x hs h
    cases s with
    | nil => simp [scanStr] at h
    | cons c r =>
      simp only [List.length_cons] at hs
      have cons : ∀ (ch : Char) (u r' : Str), r'.length ≤ n → consScanned ch (scanStr r') = some x → c :: r = u ++ r' → JChar ch u →
          ∃ t, c :: r = t ++ '"' :: x.2 ∧ JString x.1 t := by
        intro ch u r' hl hx e hu
        simp only [consScanned, Option.map_eq_some_iff] at hx
        obtain ⟨y, hy, rfl⟩ := hx
        obtain ⟨t, ht, hj⟩ := ih r' y hl hy
        exact ⟨u ++ t, by rw [e, ht, List.append_assoc], .cons hu hj⟩
      by_cases h1 : c = '"'
      · subst h1
        rw [scanStr_quote] at h
        cases h
        exact ⟨[], rfl, .nil⟩
      by_cases h2 : c = '\\'
      · subst h2
        rw [scanStr_backslash, Option.bind_eq_some_iff] at h
        obtain ⟨y, hy, hx⟩ := h
        obtain ⟨u, hu, hj⟩ := scanEsc_sound hy
        have := scanEsc_length hy
        exact cons y.1 u y.2 (by omega) hx hu hj
      · rw [scanStr_plain h1 h2] at h
        split at h
        · cases h
        · rename_i h3
          exact cons c [c] r (by omega) h rfl (.plain h1 h2 (by omega))

/-! ### Numbers -/

/-- What may follow a value. -/
def Ends (r : Str) : Prop := r = [] ∨ OkHead r

theorem ends_frac {r : Str} (h : Ends r) : scanFrac r = ([], r) := by
  rcases h with rfl | h
  · rfl
  · exact okHead_frac h

theorem ends_exp {r : Str} (h : Ends r) : scanExp r = ([], r) := by
  rcases h with rfl | h
  · rfl
  · exact okHead_exp h

theorem while_nil {p : Char → Bool} {r : Str} (h : ∀ c, r.head? = some c → p c = false) : r.takeWhile p = [] ∧ r.dropWhile p = r := by
  cases r with
  | nil => exact ⟨rfl, rfl⟩
  | cons c r =>
    have := h c rfl
    simp [List.takeWhile_cons, List.dropWhile_cons, this]

theorem ends_digit {r : Str} (h : Ends r) : ∀ c, r.head? = some c → c.isDigit = false := by
  rintro c hc
  rcases h with rfl | h
  · cases hc
  · cases r with
    | nil => cases hc
    | cons a r =>
      cases hc
      rcases h with h | rfl | rfl | rfl
      · rcases (jsonWs_iff _).mp h with rfl | rfl | rfl | rfl <;> rfl
      all_goals rfl

theorem scanFrac_sound (s : Str) : s = (scanFrac s).1 ++ (scanFrac s).2 ∧ JFrac (scanFrac s).1 := by
  unfold scanFrac
  split
  · rename_i d r
    split
    · rename_i hd
      refine ⟨by simp [List.takeWhile_append_dropWhile], .inr ⟨_, rfl, by simp, ?_⟩⟩
      intro c hc
      rcases List.mem_cons.mp hc with rfl | hc
      · exact hd
      · exact List.mem_takeWhile_imp hc
    · exact ⟨rfl, .inl rfl⟩
  · exact ⟨rfl, .inl rfl⟩

theorem scanFrac_complete {f r : Str} (hf : JFrac f) (h1 : ∀ c, r.head? = some c → c.isDigit = false) (h2 : scanFrac r = ([], r)) :
    scanFrac (f ++ r) = (f, r) := by
  rcases hf with rfl | ⟨ds, rfl, hne, hd⟩
  · exact h2
  · cases ds with
    | nil => exact absurd rfl hne
    | cons d ds =>
      have hds : ∀ c ∈ ds, c.isDigit = true := fun c hc => hd c (List.mem_cons_of_mem _ hc)
      rw [List.cons_append, List.cons_append, scanFrac, if_pos (hd d (List.mem_cons_self ..)), takeWhile_all_append hds, dropWhile_all_append hds,
        (while_nil h1).1, (while_nil h1).2, List.append_nil]

theorem scanSign_sound (s : Str) : s = (scanSign s).1 ++ (scanSign s).2 ∧ ((scanSign s).1 = [] ∨ (scanSign s).1 = ['+'] ∨ (scanSign s).1 = ['-']) := by
  cases s with
  | nil => exact ⟨rfl, .inl rfl⟩
  | cons c r =>
    rw [scanSign]
    split
    · rename_i h
      rcases h with rfl | rfl
      · exact ⟨rfl, .inr (.inl rfl)⟩
      · exact ⟨rfl, .inr (.inr rfl)⟩
    · exact ⟨rfl, .inl rfl⟩

theorem scanSign_complete {g ds : Str} (hg : g = [] ∨ g = ['+'] ∨ g = ['-']) (hd : JDigits ds) (r : Str) :
    scanSign (g ++ (ds ++ r)) = (g, ds ++ r) := by
  rcases hg with rfl | rfl | rfl
  · cases ds with
    | nil => exact absurd rfl hd.1
    | cons d ds =>
      have := hd.2 d (List.mem_cons_self ..)
      rw [List.nil_append, List.cons_append, scanSign, if_neg]
      rintro (rfl | rfl) <;> cases this
  · rfl
  · rfl

theorem scanExp_sound (s : Str) : s = (scanExp s).1 ++ (scanExp s).2 ∧ JExp (scanExp s).1 := by
  cases s with
  | nil => exact ⟨rfl, .inl rfl⟩
  | cons c r =>
    rw [scanExp]
    split
    · rename_i hc
      split
      · exact ⟨rfl, .inl rfl⟩
      · rename_i hne
        have hs := scanSign_sound r
        refine ⟨?_, .inr ⟨c, (scanSign r).1, _, rfl, hc, hs.2, ?_, fun x hx => List.mem_takeWhile_imp hx⟩⟩
        · dsimp only
          rw [List.cons_append, List.append_assoc, List.takeWhile_append_dropWhile, ← hs.1]
        · intro e; rw [e] at hne; exact hne rfl
    · exact ⟨rfl, .inl rfl⟩

theorem scanExp_complete {e r : Str} (he : JExp e) (h : Ends r) : scanExp (e ++ r) = (e, r) := by
  rcases he with rfl | ⟨c, g, ds, rfl, hc, hg, hd⟩
  · exact ends_exp h
  · have hdig := while_nil (ends_digit h)
    rw [List.cons_append, List.append_assoc, scanExp, if_pos hc, scanSign_complete hg hd]
    dsimp only
    rw [takeWhile_all_append hd.2, dropWhile_all_append hd.2, hdig.1, hdig.2, List.append_nil, if_neg]
    intro e
    exact hd.1 (List.isEmpty_iff.mp e)

/-- The sign of a number. -/
def signText (neg : Bool) : Str := if neg then ['-'] else []

theorem scanRest_sound (neg : Bool) (ip s : Str) (hip : JWhole ip) :
    ∃ t, s = t ++ (scanRest neg ip s).2 ∧ JText (scanRest neg ip s).1 (signText neg ++ ip ++ t) := by
  have hf := scanFrac_sound s
  have he := scanExp_sound (scanFrac s).2
  unfold scanRest
  dsimp only
  split
  · refine ⟨[], rfl, ?_⟩
    rw [List.append_nil]
    cases neg
    · exact .pos ip hip
    · exact .neg ip hip
  · rename_i hne
    refine ⟨(scanFrac s).1 ++ (scanExp (scanFrac s).2).1, ?_, ?_⟩
    · dsimp only
      rw [List.append_assoc, ← he.1, ← hf.1]
    · have := JText.real (signText neg) ip _ _ (by cases neg <;> simp [signText]) hip hf.2 he.2 (by
        by_contra hh; push Not at hh; exact hne hh)
      simpa [signText, List.append_assoc] using this

theorem scanNat_sound {neg : Bool} {s : Str} {x : Json × Str} (h : scanNat neg s = some x) :
    ∃ t, s = t ++ x.2 ∧ JText x.1 (signText neg ++ t) := by
  cases s with
  | nil => cases h
  | cons c r =>
    rw [scanNat] at h
    split at h
    · rename_i hc
      subst hc
      rw [Option.some.injEq] at h
      obtain ⟨t, ht, hj⟩ := scanRest_sound neg ['0'] r ⟨⟨by simp, by simp⟩, fun r e => by cases e; rfl⟩
      rw [h] at ht hj
      exact ⟨'0' :: t, by rw [ht]; rfl, by simpa using hj⟩
    split at h
    · rename_i h0 hc
      rw [Option.some.injEq] at h
      obtain ⟨t, ht, hj⟩ := scanRest_sound neg (c :: r.takeWhile Char.isDigit) (r.dropWhile Char.isDigit) ⟨⟨by simp, fun x hx => by
        rcases List.mem_cons.mp hx with rfl | hx
        · exact hc
        · exact List.mem_takeWhile_imp hx⟩, fun r e => by cases e; exact absurd rfl h0⟩
      rw [h] at ht hj
      refine ⟨c :: (r.takeWhile Char.isDigit ++ t), ?_, by simpa using hj⟩
      rw [List.cons_append, List.append_assoc, ← ht, List.takeWhile_append_dropWhile]
    · cases h

theorem scanNum_sound {s : Str} {x : Json × Str} (h : scanNum s = some x) : ∃ t, s = t ++ x.2 ∧ JText x.1 t := by
  cases s with
  | nil => cases h
  | cons c r =>
    rw [scanNum] at h
    split at h
    · rename_i hc
      subst hc
      obtain ⟨t, rfl, hj⟩ := scanNat_sound h
      exact ⟨'-' :: t, rfl, hj⟩
    · exact scanNat_sound h

theorem scanRest_int (neg : Bool) (ip : Str) {r : Str} (h : Ends r) :
    scanRest neg ip r = (.num (if neg then -(Nat.ofDigitChars 10 ip 0 : Int) else Nat.ofDigitChars 10 ip 0), r) := by
  simp [scanRest, ends_frac h, ends_exp h]

theorem jexp_head {e r : Str} (he : JExp e) (h : Ends r) : (∀ c, (e ++ r).head? = some c → c.isDigit = false) ∧ scanFrac (e ++ r) = ([], e ++ r) := by
  rcases he with rfl | ⟨c, g, ds, rfl, hc, _, _⟩
  · exact ⟨ends_digit h, ends_frac h⟩
  · constructor
    · intro x hx
      cases hx
      rcases hc with rfl | rfl <;> rfl
    · rcases hc with rfl | rfl <;> rfl

theorem scanRest_real (neg : Bool) (ip : Str) {f e r : Str} (hf : JFrac f) (he : JExp e) (hne : f ≠ [] ∨ e ≠ []) (h : Ends r) :
    scanRest neg ip (f ++ (e ++ r)) = (.str (signText neg ++ ip ++ f ++ e), r) := by
  have h1 := jexp_head he h
  rw [scanRest, scanFrac_complete hf h1.1 h1.2]
  dsimp only
  rw [scanExp_complete he h, if_neg]
  · rfl
  · rintro ⟨rfl, rfl⟩; simp at hne

theorem scanNat_whole (neg : Bool) {d r : Str} (hd : JWhole d) (hr : ∀ c, r.head? = some c → c.isDigit = false) :
    scanNat neg (d ++ r) = some (scanRest neg d r) := by
  obtain ⟨⟨hne, hall⟩, hz⟩ := hd
  cases d with
  | nil => exact absurd rfl hne
  | cons c d =>
    rw [List.cons_append, scanNat]
    split
    · rename_i hc
      subst hc
      rw [hz d rfl]
      rfl
    · have hds : ∀ c ∈ d, c.isDigit = true := fun c hc => hall c (List.mem_cons_of_mem _ hc)
      rw [if_pos (hall c (List.mem_cons_self ..)), takeWhile_all_append hds, dropWhile_all_append hds, (while_nil hr).1, (while_nil hr).2, List.append_nil]

theorem whole_head {d : Str} (h : JWhole d) : ∃ c r, d = c :: r ∧ c.isDigit = true := by
  cases d with
  | nil => exact absurd rfl h.1.1
  | cons c r => exact ⟨c, r, rfl, h.1.2 c (List.mem_cons_self ..)⟩

theorem scanNum_whole (neg : Bool) {d r : Str} (hd : JWhole d) (hr : ∀ c, r.head? = some c → c.isDigit = false) :
    scanNum (signText neg ++ (d ++ r)) = some (scanRest neg d r) := by
  cases neg with
  | true => exact scanNat_whole true hd hr
  | false =>
    rw [← scanNat_whole false hd hr]
    obtain ⟨c, d, rfl, hc⟩ := whole_head hd
    rw [signText, if_neg (by decide), List.nil_append, List.cons_append, scanNum, if_neg]
    rintro rfl
    cases hc

/-- The first character of a number, and so of no other value. -/
def NumHead (s : Str) : Prop := ∃ c r, s = c :: r ∧ (c = '-' ∨ c.isDigit = true)

theorem numHead_ne {s : Str} (h : NumHead s) (p : Char) (hp : p.isDigit = false) (hm : p ≠ '-') (ps : Str) : (p :: ps).isPrefixOf s = false := by
  obtain ⟨c, r, rfl, hc⟩ := h
  rw [Bool.eq_false_iff]
  intro h
  have := prefix_head h
  subst this
  rcases hc with hc | hc
  · exact hm hc
  · rw [hp] at hc; cases hc

theorem scanAtom_num {s : Str} (h : NumHead s) : scanAtom s = scanNum s := by
  rw [scanAtom, numHead_ne h 'n' (by decide) (by decide), numHead_ne h 't' (by decide) (by decide), numHead_ne h 'f' (by decide) (by decide)]
  rfl

theorem scanVal_num {s : Str} (h : NumHead s) (n : Nat) : scanVal (n + 1) s = scanNum s := by
  rw [← scanAtom_num h]
  obtain ⟨c, r, rfl, hc⟩ := h
  rw [scanVal_atom] <;> (rintro rfl; revert hc; decide)

theorem numHead_whole (neg : Bool) {d : Str} (hd : JWhole d) (r : Str) : NumHead (signText neg ++ (d ++ r)) := by
  obtain ⟨c, d, rfl, hc⟩ := whole_head hd
  cases neg
  · exact ⟨c, d ++ r, rfl, .inr hc⟩
  · exact ⟨'-', c :: (d ++ r), rfl, .inl rfl⟩

theorem isPrefixOf_split {p s : Str} (h : p.isPrefixOf s = true) : s = p ++ s.drop p.length := by
  rw [List.isPrefixOf_iff_prefix] at h
  obtain ⟨t, rfl⟩ := h
  simp

theorem scanAtom_sound {s : Str} {x : Json × Str} (h : scanAtom s = some x) : ∃ t, s = t ++ x.2 ∧ JText x.1 t := by
  unfold scanAtom at h
  split at h
  · rename_i hp; cases h; exact ⟨_, isPrefixOf_split hp, .null⟩
  split at h
  · rename_i hp; cases h; exact ⟨_, isPrefixOf_split hp, .true⟩
  split at h
  · rename_i hp; cases h; exact ⟨_, isPrefixOf_split hp, .false⟩
  · exact scanNum_sound h

/-! ### Only the grammar is read -/

theorem head_tail {s : Str} {c : Char} (h : s.head? = some c) : s = c :: s.tail := by
  cases s with
  | nil => cases h
  | cons a s => cases h; rfl

theorem scan_sound : ∀ n : Nat, (∀ s x, scanVal n s = some x → ∃ t, s = t ++ x.2 ∧ JText x.1 t) ∧
    (∀ s x, scanItems n s = some x → ∃ t, s = t ++ x.2 ∧ JItems x.1 t) ∧ (∀ s x, scanPairs n s = some x → ∃ t, s = t ++ x.2 ∧ JPairs x.1 t) := by
  intro n
  induction n with
  | zero => refine ⟨?_, ?_, ?_⟩ <;> intro s x h <;> simp [scanVal, scanItems, scanPairs] at h
  | succ n ih =>
    obtain ⟨ihv, ihi, ihp⟩ := ih
    refine ⟨fun s x h => ?_, fun s x h => ?_, fun s x h => ?_⟩
    · cases s with
      | nil => simp [scanVal] at h
      | cons c r =>
        by_cases h1 : c = '"'
        · subst h1
          rw [scanVal_str, Option.map_eq_some_iff] at h
          obtain ⟨y, hy, rfl⟩ := h
          obtain ⟨t, rfl, ht⟩ := scanStr_sound _ _ _ (le_refl _) hy
          exact ⟨'"' :: (t ++ ['"']), by simp, .str ht⟩
        by_cases h2 : c = '['
        · subst h2
          obtain ⟨w, hw, hr⟩ := skipWs_split r
          rw [scanVal_arr, scanArr] at h
          split at h
          · rename_i hh
            cases h
            have ht := head_tail hh
            refine ⟨'[' :: (w ++ [']']), ?_, .noItems w hw⟩
            conv_lhs => rw [hr, ht]
            simp
          · rw [Option.map_eq_some_iff] at h
            obtain ⟨y, hy, rfl⟩ := h
            obtain ⟨t, ht, hj⟩ := ihi _ _ hy
            refine ⟨'[' :: (w ++ t), ?_, .items w hw hj⟩
            conv_lhs => rw [hr, ht]
            simp
        by_cases h3 : c = '{'
        · subst h3
          obtain ⟨w, hw, hr⟩ := skipWs_split r
          rw [scanVal_obj, scanObj] at h
          split at h
          · rename_i hh
            cases h
            have ht := head_tail hh
            refine ⟨'{' :: (w ++ ['}']), ?_, .noPairs w hw⟩
            conv_lhs => rw [hr, ht]
            simp
          · rw [Option.map_eq_some_iff] at h
            obtain ⟨y, hy, rfl⟩ := h
            obtain ⟨t, ht, hj⟩ := ihp _ _ hy
            refine ⟨'{' :: (w ++ t), ?_, .pairs w hw hj (lastWins_toDict _)⟩
            conv_lhs => rw [hr, ht]
            simp
        · rw [scanVal_atom n h1 h2 h3] at h
          exact scanAtom_sound h
    · rw [scanItems_succ, Option.bind_eq_some_iff] at h
      obtain ⟨v, hv, h⟩ := h
      obtain ⟨t, hs, hj⟩ := ihv _ _ hv
      obtain ⟨w, hw, hr⟩ := skipWs_split v.2
      rw [itemsNext] at h
      split at h
      · rename_i hh
        cases h
        have ht := head_tail hh
        refine ⟨t ++ (w ++ [']']), ?_, .last w hj hw⟩
        rw [hs]
        conv_lhs => rw [hr, ht]
        simp
      split at h
      · rename_i hh
        have ht := head_tail hh
        rw [Option.map_eq_some_iff] at h
        obtain ⟨y, hy, rfl⟩ := h
        obtain ⟨w', hw', hr'⟩ := skipWs_split (skipWs v.2).tail
        obtain ⟨t', ht', hl⟩ := ihi _ _ hy
        refine ⟨t ++ (w ++ ',' :: (w' ++ t')), ?_, .more w w' hj hw hw' hl⟩
        rw [hs]
        conv_lhs => rw [hr, ht, hr', ht']
        simp
      · cases h
    · rw [scanPairs_succ] at h
      split at h
      swap
      · cases h
      rename_i hq
      have hq := head_tail hq
      rw [Option.bind_eq_some_iff] at h
      obtain ⟨k, hk, h⟩ := h
      obtain ⟨kt, hkt, hks⟩ := scanStr_sound _ _ _ (le_refl _) hk
      obtain ⟨w1, hw1, hr1⟩ := skipWs_split k.2
      rw [pairsVal] at h
      split at h
      swap
      · cases h
      rename_i hc
      have hc := head_tail hc
      obtain ⟨w2, hw2, hr2⟩ := skipWs_split (skipWs k.2).tail
      rw [Option.bind_eq_some_iff] at h
      obtain ⟨v, hv, h⟩ := h
      obtain ⟨t, hs, hj⟩ := ihv _ _ hv
      obtain ⟨w, hw, hr⟩ := skipWs_split v.2
      rw [pairsNext] at h
      split at h
      · rename_i hh
        cases h
        have ht := head_tail hh
        refine ⟨_, ?_, .last w1 w2 w hks hw1 hw2 hj hw⟩
        rw [hq, hkt]
        conv_lhs => rw [hr1, hc, hr2, hs, hr, ht]
        simp
      split at h
      · rename_i hh
        have ht := head_tail hh
        rw [Option.map_eq_some_iff] at h
        obtain ⟨y, hy, rfl⟩ := h
        obtain ⟨w', hw', hr'⟩ := skipWs_split (skipWs v.2).tail
        obtain ⟨t', ht', hl⟩ := ihp _ _ hy
        refine ⟨_, ?_, .more w1 w2 w w' hks hw1 hw2 hj hw hw' hl⟩
        rw [hq, hkt]
        conv_lhs => rw [hr1, hc, hr2, hs, hr, ht, hr', ht']
        simp
      · cases h

/-! ### All of the grammar is read -/

theorem numHead_first {s : Str} (h : NumHead s) : ∃ c r, s = c :: r ∧ jsonWs c = false ∧ c ≠ ']' := by
  obtain ⟨c, r, rfl, hc⟩ := h
  refine ⟨c, r, rfl, ?_⟩
  rcases hc with rfl | hc
  · decide
  · exact digit_not_ws hc

/-- The first character of a value is no white space, nor the end of a list. -/
theorem jtext_head {j : Json} {t : Str} (h : JText j t) : ∃ c r, t = c :: r ∧ jsonWs c = false ∧ c ≠ ']' := by
  cases h with
  | null => exact ⟨_, _, rfl, by decide, by decide⟩
  | true => exact ⟨_, _, rfl, by decide, by decide⟩
  | false => exact ⟨_, _, rfl, by decide, by decide⟩
  | pos _ h => simpa [signText] using numHead_first (numHead_whole false h [])
  | neg d h => simpa [signText] using numHead_first (numHead_whole true h [])
  | real g d f e hg hd _ _ _ =>
    rcases hg with rfl | rfl
    · simpa [signText] using numHead_first (numHead_whole false hd (f ++ e))
    · simpa [signText] using numHead_first (numHead_whole true hd (f ++ e))
  | str _ => exact ⟨_, _, rfl, by decide, by decide⟩
  | noItems _ _ => exact ⟨_, _, rfl, by decide, by decide⟩
  | items _ _ _ => exact ⟨_, _, rfl, by decide, by decide⟩
  | noPairs _ _ => exact ⟨_, _, rfl, by decide, by decide⟩
  | pairs _ _ _ _ => exact ⟨_, _, rfl, by decide, by decide⟩

theorem jitems_head {l : List Json} {t : Str} (h : JItems l t) : ∃ c r, t = c :: r ∧ jsonWs c = false ∧ c ≠ ']' := by
  cases h with
  | last _ h _ => obtain ⟨c, r, rfl, hc⟩ := jtext_head h; exact ⟨c, _, rfl, hc⟩
  | more _ _ h _ _ _ => obtain ⟨c, r, rfl, hc⟩ := jtext_head h; exact ⟨c, _, rfl, hc⟩

theorem jpairs_head {l : List (Str × Json)} {t : Str} (h : JPairs l t) : ∃ r, t = '"' :: r := by
  cases h with
  | last => exact ⟨_, rfl⟩
  | more => exact ⟨_, rfl⟩

theorem skip_to {w t : Str} {c : Char} {r : Str} (hw : JSpace w) (ht : t = c :: r) (hc : jsonWs c = false) (rest : Str) : skipWs (w ++ (t ++ rest)) = t ++ rest := by
  rw [skipWs_space hw, ht, List.cons_append, skipWs_cons hc]

theorem ends_space {w : Str} (hw : JSpace w) {c : Char} (hc : c = ',' ∨ c = ']' ∨ c = '}') (r : Str) : Ends (w ++ c :: r) := by
  cases w with
  | nil => exact .inr (.inr hc)
  | cons a w => exact .inr (.inl ((jsonWs_iff a).mpr (hw a (List.mem_cons_self ..))))

mutual
theorem jtext_read : ∀ {j : Json} {t : Str}, JText j t → ∃ N, ∀ n, N ≤ n → ∀ rest, Ends rest → scanVal n (t ++ rest) = some (j, rest)
  | _, _, .null => ⟨1, fun n hn rest _ => by obtain ⟨n, rfl⟩ := Nat.exists_eq_add_of_le' hn; rfl⟩
  | _, _, .true => ⟨1, fun n hn rest _ => by obtain ⟨n, rfl⟩ := Nat.exists_eq_add_of_le' hn; rfl⟩
  | _, _, .false => ⟨1, fun n hn rest _ => by obtain ⟨n, rfl⟩ := Nat.exists_eq_add_of_le' hn; rfl⟩
  | _, _, .pos d h => ⟨1, fun n hn rest hr => by
      obtain ⟨n, rfl⟩ := Nat.exists_eq_add_of_le' hn
      have h1 := scanVal_num (numHead_whole false h rest) n
      rw [scanNum_whole false h (ends_digit hr), scanRest_int _ _ hr] at h1
      exact h1⟩
  | _, _, .neg d h => ⟨1, fun n hn rest hr => by
      obtain ⟨n, rfl⟩ := Nat.exists_eq_add_of_le' hn
      have h1 := scanVal_num (numHead_whole true h rest) n
      rw [scanNum_whole true h (ends_digit hr), scanRest_int _ _ hr] at h1
      exact h1⟩
  | _, _, .real g d f e hg hd hf he hne => ⟨1, fun n hn rest hr => by
      obtain ⟨n, rfl⟩ := Nat.exists_eq_add_of_le' hn
      obtain ⟨neg, rfl⟩ : ∃ neg, g = signText neg := by
        rcases hg with rfl | rfl
        · exact ⟨Bool.false, rfl⟩
        · exact ⟨Bool.true, rfl⟩
      have hdig : ∀ c, (f ++ (e ++ rest)).head? = some c → c.isDigit = Bool.false := by
        rcases hf with rfl | ⟨ds, rfl, _⟩
        · exact (jexp_head he hr).1
        · intro c hc; cases hc; rfl
      have h1 := scanVal_num (numHead_whole neg hd (f ++ (e ++ rest))) n
      rw [scanNum_whole neg hd hdig, scanRest_real _ _ hf he hne hr] at h1
      simpa only [List.append_assoc] using h1⟩
  | _, _, .str h => ⟨1, fun n hn rest _ => by
      obtain ⟨n, rfl⟩ := Nat.exists_eq_add_of_le' hn
      rw [List.cons_append, List.append_assoc, List.singleton_append, scanVal_str, scanStr_complete h]
      rfl⟩
  | _, _, .noItems w hw => ⟨1, fun n hn rest _ => by
      obtain ⟨n, rfl⟩ := Nat.exists_eq_add_of_le' hn
      rw [List.cons_append, List.append_assoc, List.singleton_append, scanVal_arr, scanArr, skipWs_space hw, skipWs_cons (by decide)]
      rfl⟩
  | _, _, .items w hw h => by
      obtain ⟨N, hN⟩ := jitems_read h
      refine ⟨N + 1, fun n hn rest _ => ?_⟩
      obtain ⟨n, rfl⟩ : ∃ m, n = m + 1 := ⟨n - 1, by omega⟩
      obtain ⟨c, r, ht, hc, hb⟩ := jitems_head h
      rw [List.cons_append, List.append_assoc, scanVal_arr, scanArr, skip_to hw ht hc, hN n (by omega), if_neg]
      · rfl
      · rw [ht]; intro e; cases e; exact hb rfl
  | _, _, .noPairs w hw => ⟨1, fun n hn rest _ => by
      obtain ⟨n, rfl⟩ := Nat.exists_eq_add_of_le' hn
      rw [List.cons_append, List.append_assoc, List.singleton_append, scanVal_obj, scanObj, skipWs_space hw, skipWs_cons (by decide)]
      rfl⟩
  | _, _, .pairs w hw h hl => by
      obtain ⟨N, hN⟩ := jpairs_read h
      refine ⟨N + 1, fun n hn rest _ => ?_⟩
      obtain ⟨n, rfl⟩ : ∃ m, n = m + 1 := ⟨n - 1, by omega⟩
      obtain ⟨r, ht⟩ := jpairs_head h
      rw [List.cons_append, List.append_assoc, scanVal_obj, scanObj, skip_to hw ht (by decide), hN n (by omega), if_neg]
      · rw [lastWins_unique hl]; rfl
      · rw [ht]; intro e; cases e
theorem jitems_read : ∀ {l : List Json} {t : Str}, JItems l t → ∃ N, ∀ n, N ≤ n → ∀ rest, scanItems n (t ++ rest) = some (l, rest)
  | _, _, .last (t := t) w h hw => by
      obtain ⟨N, hN⟩ := jtext_read h
      refine ⟨N + 1, fun n hn rest => ?_⟩
      obtain ⟨n, rfl⟩ : ∃ m, n = m + 1 := ⟨n - 1, by omega⟩
      rw [scanItems_succ, List.append_assoc, List.append_assoc, List.singleton_append, hN n (by omega) _ (ends_space hw (by simp) _), Option.bind_some, itemsNext,
        skipWs_space hw, skipWs_cons (by decide)]
      rfl
  | _, _, .more (t := t) w w' h hw hw' hl => by
      obtain ⟨N, hN⟩ := jtext_read h
      obtain ⟨M, hM⟩ := jitems_read hl
      refine ⟨N + M + 1, fun n hn rest => ?_⟩
      obtain ⟨n, rfl⟩ : ∃ m, n = m + 1 := ⟨n - 1, by omega⟩
      obtain ⟨c, r, ht, hc, hb⟩ := jitems_head hl
      rw [scanItems_succ, List.append_assoc, List.append_assoc, List.cons_append, hN n (by omega) _ (ends_space hw (by simp) _), Option.bind_some, itemsNext,
        skipWs_space hw, skipWs_cons (by decide), List.head?_cons, if_neg (by simp), if_pos rfl, List.tail_cons, List.append_assoc, skip_to hw' ht hc, hM n (by omega)]
      rfl
theorem jpairs_read : ∀ {l : List (Str × Json)} {t : Str}, JPairs l t → ∃ N, ∀ n, N ≤ n → ∀ rest, scanPairs n (t ++ rest) = some (l, rest)
  | _, _, .last (k := k) (kt := kt) (j := j) (t := t) w1 w2 w hk h1 h2 h hw => by
      obtain ⟨N, hN⟩ := jtext_read h
      refine ⟨N + 1, fun n hn rest => ?_⟩
      obtain ⟨n, rfl⟩ : ∃ m, n = m + 1 := ⟨n - 1, by omega⟩
      obtain ⟨c, r, ht, hc, _⟩ := jtext_head h
      simp only [List.cons_append, List.append_assoc, List.nil_append]
      rw [scanPairs_succ, List.head?_cons, if_pos rfl, List.tail_cons, scanStr_complete hk, Option.bind_some, pairsVal, skipWs_space h1, skipWs_cons (by decide), List.head?_cons, if_pos rfl,
        List.tail_cons, skip_to h2 ht hc, hN n (by omega) _ (ends_space hw (by simp) _), Option.bind_some, pairsNext, skipWs_space hw, skipWs_cons (by decide)]
      rfl
  | _, _, .more (k := k) (kt := kt) (j := j) (t := t) w1 w2 w w' hk h1 h2 h hw hw' hl => by
      obtain ⟨N, hN⟩ := jtext_read h
      obtain ⟨M, hM⟩ := jpairs_read hl
      refine ⟨N + M + 1, fun n hn rest => ?_⟩
      obtain ⟨n, rfl⟩ : ∃ m, n = m + 1 := ⟨n - 1, by omega⟩
      obtain ⟨c, r, ht, hc, _⟩ := jtext_head h
      obtain ⟨r', ht'⟩ := jpairs_head hl
      simp only [List.cons_append, List.append_assoc]
      rw [scanPairs_succ, List.head?_cons, if_pos rfl, List.tail_cons, scanStr_complete hk, Option.bind_some, pairsVal, skipWs_space h1, skipWs_cons (by decide), List.head?_cons, if_pos rfl,
        List.tail_cons, skip_to h2 ht hc, hN n (by omega) _ (ends_space hw (by simp) _), Option.bind_some, pairsNext, skipWs_space hw, skipWs_cons (by decide),
        List.head?_cons, if_neg (by simp), if_pos rfl, List.tail_cons, skip_to hw' ht' (by decide), hM n (by omega)]
      rfl
end

/-- `json.loads` reads exactly the documents. -/
theorem loads_iff (s : Str) (j : Json) : jsonLoads s = .ok j ↔ JDocument j s := by
  unfold jsonLoads
  constructor
  · intro h
    split at h
    · cases h
    · rename_i v hv
      split at h
      · rename_i he
        cases h
        obtain ⟨w, hw, hs⟩ := skipWs_split s
        obtain ⟨t, ht, hj⟩ := (scan_sound _).1 _ _ hv
        exact ⟨w, t, v.2, by rw [List.append_assoc, ← ht, ← hs], hw, hj, skipWs_eq_nil he⟩
      · cases h
  · rintro ⟨w, t, w', rfl, hw, hj, hw'⟩
    obtain ⟨N, hN⟩ := jtext_read hj
    obtain ⟨c, r, ht, hc, _⟩ := jtext_head hj
    have he : Ends w' := by
      cases w' with
      | nil => exact .inl rfl
      | cons a w' => exact .inr (.inl ((jsonWs_iff a).mpr (hw' a (List.mem_cons_self ..))))
    have hl : (t ++ w').length ≤ (w ++ t ++ w').length := by simp only [List.length_append]; omega
    have h1 := (scan_fuel _ (t ++ w') rfl).1 (2 * (w ++ t ++ w').length + 2) (N + (2 * (w ++ t ++ w').length + 2)) (by omega) (by omega)
    rw [hN (N + (2 * (w ++ t ++ w').length + 2)) (by omega) _ he] at h1
    have h2 : scanVal (2 * (w ++ t ++ w').length + 2) (skipWs (w ++ t ++ w')) = some (j, w') := by
      rw [List.append_assoc w t w', skip_to hw ht hc, ← List.append_assoc w t w', h1]
    rw [h2]
    simp only [skipWs_space_nil hw', if_true]

/-! ### Bytes -/

theorem decode_sound : ∀ (n : Nat) (b : List Nat) (s : Str), b.length ≤ n → utf8Decode b = some s → ∃ tail, b = utf8 s ++ tail ∧ CutChar tail := by
  have nil : CutChar [] := ⟨'a', ⟨_, rfl⟩, by decide⟩
  intro n
  induction n with
  | zero =>
    intro b s hb h
    rw [List.length_eq_zero_iff.mp (Nat.le_zero.mp hb), utf8Decode] at h
    cases h
    exact ⟨[], List.length_eq_zero_iff.mp (Nat.le_zero.mp hb), nil⟩
  | succ n ih =>
    intro b s hb h
    cases b with
    | nil => rw [utf8Decode] at h; cases h; exact ⟨[], rfl, nil⟩
    | cons a r =>
      simp only [List.length_cons] at hb
      have step : ∀ (m : Nat) (p r' : List Nat), r'.length ≤ n → consDecoded m (utf8Decode r') = some s → a :: r = p ++ r' → utf8Char (Char.ofNat m) = p →
          ∃ tail, a :: r = utf8 s ++ tail ∧ CutChar tail := by
        intro m p r' hl hx e hp
        simp only [consDecoded, Option.map_eq_some_iff] at hx
        obtain ⟨y, hy, rfl⟩ := hx
        obtain ⟨tail, ht, hc⟩ := ih r' y hl hy
        refine ⟨tail, ?_, hc⟩
        rw [e, ht, ← hp, utf8, utf8, List.flatMap_cons, List.append_assoc]
      have char : ∀ m, (m < 0xD800 ∨ (0xDFFF < m ∧ m < 0x110000)) → utf8Char (Char.ofNat m) =
          if m < 0x80 then [m]
          else if m < 0x800 then [0xC0 + m / 64, 0x80 + m % 64]
          else if m < 0x10000 then [0xE0 + m / 4096, 0x80 + m / 64 % 64, 0x80 + m % 64]
          else [0xF0 + m / 262144, 0x80 + m / 4096 % 64, 0x80 + m / 64 % 64, 0x80 + m % 64] := by
        intro m hm
        simp only [utf8Char, char_toNat_ofNat hm]
      have cut : ∀ (m : Nat) (p q : List Nat), q ≠ [] → a :: r = p → utf8Char (Char.ofNat m) = p ++ q → s = [] → ∃ tail, a :: r = utf8 s ++ tail ∧ CutChar tail := by
        rintro m p q hq rfl hm rfl
        refine ⟨a :: r, rfl, Char.ofNat m, ⟨q, hm.symm⟩, fun e => ?_⟩
        rw [← e] at hm
        have := congrArg List.length hm
        simp only [List.length_append] at this
        exact hq (List.length_eq_zero_iff.mp (by omega))
      have two : 0xC2 ≤ a → a < 0xE0 → ∀ b, 0x80 ≤ b ∧ b < 0xC0 → utf8Char (Char.ofNat ((a - 0xC0) * 64 + (b - 0x80))) = [a, b] := by
        intro h1 h2 b hb
        rw [char _ (by omega), if_neg (by omega), if_pos (by omega)]
        simp only [List.cons.injEq, and_true]
        omega
      have three : 0xE0 ≤ a → a < 0xF0 → ∀ b c, secondOk a b = true → 0x80 ≤ c ∧ c < 0xC0 →
          utf8Char (Char.ofNat ((a - 0xE0) * 4096 + (b - 0x80) * 64 + (c - 0x80))) = [a, b, c] := by
        intro h1 h2 b c hb hc
        have hb := (secondOk_iff _ _).mp hb
        rw [char _ (by omega), if_neg (by omega), if_neg (by omega), if_pos (by omega)]
        simp only [List.cons.injEq, and_true]
        omega
      have four : 0xF0 ≤ a → a < 0xF5 → ∀ b c d, secondOk a b = true → 0x80 ≤ c ∧ c < 0xC0 → 0x80 ≤ d ∧ d < 0xC0 →
          utf8Char (Char.ofNat ((a - 0xF0) * 262144 + (b - 0x80) * 4096 + (c - 0x80) * 64 + (d - 0x80))) = [a, b, c, d] := by
        intro h1 h2 b c d hb hc hd
        have hb := (secondOk_iff _ _).mp hb
        rw [char _ (by omega), if_neg (by omega), if_neg (by omega), if_neg (by omega)]
        simp only [List.cons.injEq, and_true]
        omega
      rw [utf8Decode.eq_def] at h
      dsimp only at h
      split at h
      · rename_i ha
        refine step a [a] r (by omega) h rfl ?_
        rw [char a (by omega), if_pos ha]
      split at h
      · cases h
      split at h
      · split at h
        · cases h
          exact cut _ _ [0x80] (by simp) rfl (two (by omega) (by omega) 0x80 (by omega)) rfl
        · rename_i b r'
          split at h
          · rename_i hb'
            simp only [List.length_cons] at hb
            exact step _ [a, b] r' (by omega) h rfl (two (by omega) (by omega) b ((isCont_iff _).mp hb'))
          · cases h
      split at h
      · split at h
        · cases h
          by_cases he : a = 0xE0
          · exact cut _ _ [0xA0, 0x80] (by simp) rfl (three (by omega) (by omega) 0xA0 0x80 ((secondOk_iff _ _).mpr (by omega)) (by omega)) rfl
          · exact cut _ _ [0x80, 0x80] (by simp) rfl (three (by omega) (by omega) 0x80 0x80 ((secondOk_iff _ _).mpr (by omega)) (by omega)) rfl
        · rename_i b
          split at h
          · rename_i hb'
            cases h
            exact cut _ _ [0x80] (by simp) rfl (three (by omega) (by omega) b 0x80 hb' (by omega)) rfl
          · cases h
        · rename_i b c r'
          split at h
          · rename_i hb'
            rw [Bool.and_eq_true] at hb'
            simp only [List.length_cons] at hb
            exact step _ [a, b, c] r' (by omega) h rfl (three (by omega) (by omega) b c hb'.1 ((isCont_iff _).mp hb'.2))
          · cases h
      split at h
      · split at h
        · cases h
          by_cases he : a = 0xF0
          · exact cut _ _ [0x90, 0x80, 0x80] (by simp) rfl
              (four (by omega) (by omega) 0x90 0x80 0x80 ((secondOk_iff _ _).mpr (by omega)) (by omega) (by omega)) rfl
          · exact cut _ _ [0x80, 0x80, 0x80] (by simp) rfl
              (four (by omega) (by omega) 0x80 0x80 0x80 ((secondOk_iff _ _).mpr (by omega)) (by omega) (by omega)) rfl
        · rename_i b
          split at h
          · rename_i hb'
            cases h
            exact cut _ _ [0x80, 0x80] (by simp) rfl (four (by omega) (by omega) b 0x80 0x80 hb' (by omega) (by omega)) rfl
          · cases h
        · rename_i b c
          split at h
          · rename_i hb'
            rw [Bool.and_eq_true] at hb'
            cases h
            exact cut _ _ [0x80] (by simp) rfl (four (by omega) (by omega) b c 0x80 hb'.1 ((isCont_iff _).mp hb'.2) (by omega)) rfl
          · cases h
        · rename_i b c d r'
          split at h
          · rename_i hb'
            rw [Bool.and_eq_true, Bool.and_eq_true] at hb'
            simp only [List.length_cons] at hb
            exact step _ [a, b, c, d] r' (by omega) h rfl (four (by omega) (by omega) b c d hb'.1.1 ((isCont_iff _).mp hb'.1.2) ((isCont_iff _).mp hb'.2))
          · cases h
      · cases h

theorem decode_complete (s : Str) {tail : List Nat} (h : CutChar tail) : utf8Decode (utf8 s ++ tail) = some s := by
  induction s with
  | nil =>
    obtain ⟨c, h1, h2⟩ := h
    exact (decode_char c).2 _ h1 h2
  | cons c s ih =>
    rw [utf8, List.flatMap_cons, List.append_assoc, (decode_char c).1, ← utf8, ih]
    rfl

theorem decode_iff (b : List Nat) (s : Str) : utf8Decode b = some s ↔ ∃ tail, b = utf8 s ++ tail ∧ CutChar tail :=
  ⟨decode_sound _ b s (le_refl _), by rintro ⟨tail, rfl, h⟩; exact decode_complete s h⟩

end Verif
