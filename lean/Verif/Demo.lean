/-
A small concrete dictionary and analyzer, used only to exhibit that the hypotheses of theorems are satisfiable
and to witness negative results.
-/
import Verif.Model.Config
import Verif.Model.Inflect

namespace Verif.Demo
open Verif

def gramtab : List Tag := [
  ⟨c!"NOUN,anim,femn sing,nomn"⟩, ⟨c!"NOUN,anim,femn plur,gent"⟩,
  ⟨c!"ADJF,Qual masc,sing,nomn"⟩, ⟨c!"ADJF,Qual masc,sing,datv"⟩,
  ⟨c!"CONJ"⟩,
  ⟨c!"NOUN,anim,masc sing,nomn"⟩, ⟨c!"NOUN,anim,masc plur,nomn"⟩]

/-- A dictionary with the lexemes кошка/кошек, белый/белому, что, ёж/ежи. -/
def dict : Dict where
  paradigms := [[0, 1, 0, 1, 0, 0], [2, 3, 2, 3, 0, 0], [4, 4, 0], [5, 6, 5, 6, 0, 0]]
  gramtab := gramtab
  prefixes := [c!"", c!"по", c!"наи"]
  suffixes := [c!"ка", c!"ек", c!"ый", c!"ому", c!"", c!"ёж", c!"ежи"]
  words := [(c!"белому", (1, 1)), (c!"белый", (1, 0)), (c!"ежи", (3, 1)), (c!"кошек", (0, 1)),
    (c!"кошка", (0, 0)), (c!"что", (2, 0)), (c!"ёж", (3, 0))]
  pred := [[(c!"ка", (2, 0, 0)), (c!"шка", (2, 0, 0)), (c!"ек", (2, 0, 1)), (c!"ый", (1, 1, 0))], [], []]
  maxSuffixLength := 3

def cls : TagCls where
  known := [c!"NOUN", c!"ADJF", c!"CONJ", c!"ADVB", c!"anim", c!"femn", c!"masc", c!"sing", c!"plur", c!"nomn", c!"gent",
    c!"datv", c!"accs", c!"ablt", c!"loct", c!"Qual", c!"Sgtm", c!"Name", c!"Fixd", c!"Abbr", c!"Init", c!"Patr",
    c!"GNdr", c!"NMbr", c!"CAse", c!"POST"].toFinset
  lat2cyr := []
  cyr2lat := []
  extraPlur := [c!"GNdr", c!"masc", c!"femn"].toFinset
  incompat := fun g =>
    if g = c!"plur" then [c!"sing", c!"GNdr", c!"masc", c!"femn"].toFinset
    else if g = c!"sing" then {c!"plur"}
    else if g = c!"nomn" then [c!"gent", c!"datv", c!"accs", c!"ablt", c!"loct"].toFinset
    else if g = c!"gent" then [c!"nomn", c!"datv", c!"accs", c!"ablt", c!"loct"].toFinset
    else if g = c!"datv" then [c!"nomn", c!"gent", c!"accs", c!"ablt", c!"loct"].toFinset
    else ∅
  indices := fun _ => 0

/-- Bound Russian default units. -/
def bound : TagCls × List (BUnit Rat × Bool) :=
  match initUnits (ruUnits (S := Rat)) cls with
  | .ok r => r
  | .error _ => (cls, [])

/-- The demo analyzer, without P(t|w) data. -/
def morph : Morph Rat := ⟨demoEnv, dict, bound.1, ruSubst, bound.2, none⟩

/-- The demo analyzer with P(t|w) data for one word. -/
def morphP : Morph Rat := { morph with est := some [(c!"кошка:NOUN,anim,femn sing,nomn", 700000)] }

end Verif.Demo

namespace Verif

theorem toNat_ofNat_valid {n : Nat} (h : n.isValidChar) : (Char.ofNat n).toNat = n := by
  unfold Char.ofNat; rw [dif_pos h]; rfl

theorem lowerChar_idem (c : Char) : lowerChar (lowerChar c) = lowerChar c := by
  unfold lowerChar
  dsimp only
  split
  · next h =>
    rw [toNat_ofNat_valid (n := c.toNat + 32) (by left; omega)]
    rw [if_neg (by omega), if_neg (by omega), if_neg (by omega), if_neg (by omega)]
  · split
    · rw [toNat_ofNat_valid (n := c.toNat + 32) (by left; omega)]
      rw [if_neg (by omega), if_neg (by omega), if_neg (by omega), if_neg (by omega)]
    · split
      · rw [toNat_ofNat_valid (n := c.toNat + 80) (by left; omega)]
        rw [if_neg (by omega), if_neg (by omega), if_neg (by omega), if_neg (by omega)]
      · split
        · decide
        · rfl

theorem demoEnv_lowerStable : demoEnv.LowerStable := by
  intro w x hx
  have hall : ∀ c ∈ demoEnv.lower w, lowerChar c = c := by
    intro c hc
    obtain ⟨d, _, rfl⟩ := List.mem_map.1 hc
    exact lowerChar_idem d
  show x.map lowerChar = x
  conv => rhs; rw [← List.map_id x]
  exact List.map_congr_left fun c hc => hall c (hx.subset hc)

end Verif
