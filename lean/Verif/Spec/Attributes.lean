/-
Specification vocabulary for C75: the grammatical categories and their values.
-/
import Verif.Model.Attrs

namespace Verif

/-- A value of a category: its name, or nothing. -/
def Attr.value : Attr → List Str
  | .pos => [c!"NOUN", c!"ADJF", c!"ADJS", c!"COMP", c!"VERB", c!"INFN", c!"PRTF", c!"PRTS", c!"GRND", c!"NUMR", c!"ADVB", c!"NPRO",
      c!"PRED", c!"PREP", c!"CONJ", c!"PRCL", c!"INTJ"]
  | .animacy => [c!"anim", c!"inan"]
  | .aspect => [c!"impf", c!"perf"]
  -- six cases, three of them with a second form, two with a first form, and the vocative
  | .case => [c!"nomn", c!"gent", c!"datv", c!"accs", c!"ablt", c!"loct"] ++ [c!"gen2", c!"acc2", c!"loc2"] ++ [c!"gen1", c!"loc1"] ++ [c!"voct"]
  | .gender => [c!"femn", c!"masc", c!"neut"]
  | .involvement => [c!"excl", c!"incl"]
  | .mood => [c!"impr", c!"indc"]
  | .number => [c!"plur", c!"sing"]
  | .person => [c!"1per", c!"2per", c!"3per"]
  | .tense => [c!"futr", c!"past", c!"pres"]
  | .transitivity => [c!"intr", c!"tran"]
  | .voice => [c!"actv", c!"pssv"]

end Verif
