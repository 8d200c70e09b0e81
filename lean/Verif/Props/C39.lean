/-
C39 — P(t|w) storage is faithful to 1e-6 and unambiguous.
-/
import Verif.Model.Prob
import Verif.Lemmas.Run
import Verif.Lemmas.PyDict
import Mathlib.Algebra.Order.Floor.Ring
import Mathlib.Data.Rat.Cast.Order
import Mathlib.Tactic.Linarith
import Mathlib.Tactic.NormNum

namespace Verif

/-- Two keys that end in a colon-free piece after the same separator are equal only if their pieces are. -/
theorem append_last_sep_inj {c : Char} {a b x y : Str} (hx : c ∉ x) (hy : c ∉ y) (h : a ++ c :: x = b ++ c :: y) : a = b ∧ x = y := by
  induction a generalizing b with
  | nil =>
    cases b with
    | nil => simpa using h
    | cons d b =>
      simp only [List.nil_append, List.cons_append, List.cons.injEq] at h
      exact absurd (by rw [h.2]; simp) hx
  | cons d a ih =>
    cases b with
    | nil =>
      simp only [List.nil_append, List.cons_append, List.cons.injEq] at h
      exact absurd (by rw [← h.2]; simp) hy
    | cons e b =>
      simp only [List.cons_append, List.cons.injEq] at h
      obtain ⟨h1, h2⟩ := ih h.2
      exact ⟨by rw [h.1, h1], h2⟩

/-- C39: different (word, tag) pairs are stored under different keys when tags contain no `:` (words may). -/
theorem c39_keys_distinct (w w' : Str) (t t' : Tag) (ht : ':' ∉ t.str) (ht' : ':' ∉ t'.str) (h : probKey w t = probKey w' t') :
    w = w' ∧ t = t' := by
  obtain ⟨h1, h2⟩ := append_last_sep_inj ht ht' h
  exact ⟨h1, by cases t; cases t'; simpa using h2⟩

theorem cpdDawg_get (data : List ((Str × Tag) × Rat)) (hcol : ∀ e ∈ data, ':' ∉ e.1.2.str) (w : Str) (t : Tag) (ht : ':' ∉ t.str) :
    dictGet (probKey w t) (cpdDawg data) = (dictGet (w, t) data).map fun q => ⌊q * 1000000⌋.toNat := by
  induction data with
  | nil => rfl
  | cons e data ih =>
    obtain ⟨⟨w', t'⟩, q⟩ := e
    simp only [cpdDawg, List.map_cons, dictGet]
    by_cases h : (w', t') = (w, t)
    · obtain ⟨rfl, rfl⟩ := Prod.mk.inj h
      simp
    · rw [if_neg h, if_neg]
      · exact ih fun e he => hcol e (by simp [he])
      · intro hk
        obtain ⟨rfl, rfl⟩ := c39_keys_distinct w' w t' t (hcol ((w', t'), q) (by simp)) ht hk
        exact h rfl

/-- C39, a stored pair: what is read is at most the stored probability and less than a millionth below it. -/
theorem c39_stored (data : List ((Str × Tag) × Rat)) (hcol : ∀ e ∈ data, ':' ∉ e.1.2.str) (hd : (data.map Prod.fst).Nodup)
    (hpos : ∀ e ∈ data, 0 ≤ e.2) (w : Str) (t : Tag) (q : Rat) (h : ((w, t), q) ∈ data) :
    (prob (cpdDawg data) w t : Rat) ≤ q ∧ q - 1 / 1000000 < prob (cpdDawg data) w t := by
  have hg := cpdDawg_get data hcol w t (hcol _ h)
  rw [dictGet_of_mem _ _ _ hd h] at hg
  have e : (prob (cpdDawg data) w t : Rat) = ((⌊q * 1000000⌋.toNat : Nat) : Rat) / ((1000000 : Nat) : Rat) := by
    show (((dictGet (probKey w t) (cpdDawg data)).getD 0 : Nat) : Rat) / ((1000000 : Nat) : Rat) = _
    rw [hg]; rfl
  have h0 : 0 ≤ q := hpos _ h
  have hf : (0 : ℤ) ≤ ⌊q * 1000000⌋ := Int.floor_nonneg.2 (by linarith)
  have hc : ((⌊q * 1000000⌋.toNat : Nat) : Rat) = (⌊q * 1000000⌋ : Rat) := by
    have : ((⌊q * 1000000⌋.toNat : Nat) : ℤ) = ⌊q * 1000000⌋ := Int.toNat_of_nonneg hf
    exact_mod_cast congrArg (fun z : ℤ => (z : Rat)) this
  have h1 := Int.floor_le (q * 1000000)
  have h2 := Int.lt_floor_add_one (q * 1000000)
  rw [e, hc]
  constructor
  · rw [div_le_iff₀ (by norm_num)]; push_cast; linarith
  · rw [lt_div_iff₀ (by norm_num)]; push_cast; linarith

/-- C39, a pair that is not stored reads 0. -/
theorem c39_not_stored (data : List ((Str × Tag) × Rat)) (hcol : ∀ e ∈ data, ':' ∉ e.1.2.str) (w : Str) (t : Tag) (ht : ':' ∉ t.str)
    (h : ∀ q, ((w, t), q) ∉ data) : (prob (cpdDawg data) w t : Rat) = 0 := by
  have hg := cpdDawg_get data hcol w t ht
  have : dictGet (w, t) data = none := by
    cases h' : dictGet (w, t) data with
    | none => rfl
    | some q => exact absurd (dictGet_mem' _ _ _ h') (h q)
  rw [this] at hg
  show (((dictGet (probKey w t) (cpdDawg data)).getD 0 : Nat) : Rat) / ((1000000 : Nat) : Rat) = 0
  rw [hg]; simp

/-- C39: a probability of zero is never distinguishable from an absent pair; any probability of at least a millionth is. -/
theorem c39_nonzero (data : List ((Str × Tag) × Rat)) (hcol : ∀ e ∈ data, ':' ∉ e.1.2.str) (hd : (data.map Prod.fst).Nodup)
    (hpos : ∀ e ∈ data, 0 ≤ e.2) (w : Str) (t : Tag) (q : Rat) (h : ((w, t), q) ∈ data) (hq : 1 / 1000000 ≤ q) :
    0 < (prob (cpdDawg data) w t : Rat) := by
  have := (c39_stored data hcol hd hpos w t q h).2
  linarith

/-- C39: with `:` in a tag two different pairs share their entry, whatever the probabilities. -/
theorem c39_collision : ∃ (w w' : Str) (t t' : Tag), (w, t) ≠ (w', t') ∧ ∀ dawg, (prob dawg w t : Rat) = prob dawg w' t' := by
  refine ⟨c!"а", c!"а:б", ⟨c!"б:в"⟩, ⟨c!"в"⟩, by decide, fun dawg => ?_⟩
  have : probKey (c!"а") ⟨c!"б:в"⟩ = probKey (c!"а:б") ⟨c!"в"⟩ := by decide +kernel
  unfold prob; rw [this]

/-! Non-vacuity: a table with two tags of a word, with a colon in another word. -/
def Demo.probTable : List ((Str × Tag) × Rat) :=
  [((c!"кошка", ⟨c!"NOUN,anim,femn sing,nomn"⟩), 2 / 3), ((c!"кошка", ⟨c!"CONJ"⟩), 1 / 3), ((c!"а:б", ⟨c!"CONJ"⟩), 1 / 2)]
example : (∀ e ∈ Demo.probTable, ':' ∉ e.1.2.str) ∧ (Demo.probTable.map Prod.fst).Nodup ∧ (∀ e ∈ Demo.probTable, 0 ≤ e.2) := by decide +kernel
example : (prob (cpdDawg Demo.probTable) (c!"кошка") ⟨c!"CONJ"⟩ : Rat) = 333333 / 1000000 := by decide +kernel

end Verif
