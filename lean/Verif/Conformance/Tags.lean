/-
Cases of /repo/tests/test_tokenizers.py and test_tagset.py, run on the model by the kernel with the grammemes of toy_dict.xml.  They are tests of the
model, not proofs of properties.
-/
import Verif.Conformance.Convert
import Verif.Model.Attrs

set_option synthInstance.maxSize 2000
set_option synthInstance.maxHeartbeats 200000

namespace Verif.ToyDict
open Cpython

/-! ### test_tokenizers.py -/

example : tokenize (c!"Мама мыла раму") = [c!"Мама", c!"мыла", c!"раму"] := by decide +kernel
example : tokenize (c!"Постой, паровоз!") = [c!"Постой", c!",", c!"паровоз", c!"!"] := by decide +kernel
example : tokenize (c!"Ростов-на-Дону") = [c!"Ростов-на-Дону"] := by decide +kernel
example : tokenize (c!"Ура - победа") = [c!"Ура", c!"-", c!"победа"] := by decide +kernel
example : tokenize (c!"a+b=c_1") = [c!"a", c!"+", c!"b", c!"=", c!"c_1"] := by decide +kernel
example : tokenize (c!"Это  отразилось: на количественном,и на качествен_ном\n                - росте карельско-финляндского сотрудничества - офигеть! кони+лошади=масло.\n                -сказал кто-то --нет--") =
    [c!"Это", c!"отразилось", c!":", c!"на", c!"количественном", c!",", c!"и", c!"на", c!"качествен_ном", c!"-", c!"росте", c!"карельско-финляндского",
      c!"сотрудничества", c!"-", c!"офигеть", c!"!", c!"кони", c!"+", c!"лошади", c!"=", c!"масло", c!".", c!"-сказал", c!"кто-то", c!"--нет--"] := by
  decide +kernel

/-! ### test_tagset.py -/

/-- The tag class once the grammemes of toy_dict.xml have been loaded. -/
def tagClass : TagCls := match parsed with
  | .ok r => match mapE gramRow r.1.grammemes with
    | .ok rows => TagCls.initial.init rows
    | .error _ => TagCls.initial
  | .error _ => TagCls.initial

/-- The same with a few of the grammemes: the kernel needs too much memory for some cases with all of them. -/
def fewGrammemes : TagCls := match parsed with
  | .ok r => match mapE gramRow (r.1.grammemes.filter fun x => decide (x.1.getD [] ∈ ([c!"POST", c!"NOUN", c!"VERB", c!"NMbr", c!"sing", c!"plur", c!"PErs", c!"1per",
      c!"3per", c!"ASpc", c!"impf", c!"perf", c!"TRns", c!"tran", c!"TEns", c!"pres", c!"MOod", c!"indc", c!"impr", c!"INvl", c!"excl"] : List Str))) with
    | .ok rows => TagCls.initial.init rows
    | .error _ => TagCls.initial
  | .error _ => TagCls.initial

/-- The member of a set that has at most one, of the grammemes the cases use. -/
def pick1 (s : Grams) : Option Str := ([c!"VERB", c!"NOUN", c!"masc", c!"inan", c!"sing", c!"plur", c!"accs", c!"pres", c!"impf", c!"perf", c!"indc", c!"impr",
  c!"3per", c!"tran", c!"pssv", c!"excl"] : List Str).find? fun y => decide (y ∈ s)

/-- test_hashing, test_cls, test_repr, test_len -/
example : (Tag.mk (c!"NOUN")).eqv ⟨c!"NOUN"⟩ = true ∧ (Tag.mk (c!"NOUN")).eqv ⟨c!"VERB"⟩ = false := by decide +kernel
example : ([c!"NOUN", c!"NOUN,sing", c!"NOUN sing"] : List Str).map (fun t => (Tag.mk t).attr pick1 .pos) =
    [some (c!"NOUN"), some (c!"NOUN"), some (c!"NOUN")] := by decide +kernel
example : (Tag.mk (c!"NOUN anim,plur")).repr = c!"OpencorporaTag('NOUN anim,plur')" := by decide +kernel
example : ([c!"NOUN", c!"NOUN plur", c!"NOUN plur,masc", c!"NOUN,plur,masc"] : List Str).map (fun t => (Tag.mk t).len) = [1, 2, 3, 3] := by decide +kernel

/-- TestUpdated -/
example : updatedGrammemes tagClass ⟨c!"NOUN,sing,masc"⟩ [c!"plur"] = .ok {c!"NOUN", c!"plur"} := by decide +kernel
example : (updatedGrammemes fewGrammemes ⟨c!"VERB,impf,tran sing,3per,pres,indc"⟩ [c!"1per"]).map (fun s =>
    (([c!"VERB", c!"sing", c!"impf", c!"tran", c!"1per", c!"pres", c!"indc", c!"3per"] : List Str).map fun y => decide (y ∈ s), s.card)) =
    .ok ([true, true, true, true, true, true, true, false], 7) := by decide +kernel

/-- TestContains -/
example : (splitTag (c!"VERB,perf,tran plur,impr,excl")).map (tagClass.contains ⟨c!"VERB,perf,tran plur,impr,excl"⟩) = List.replicate 6 (.ok true) := by
  decide +kernel
example : ([c!"VERB", c!"NOUN", c!"sing", c!"Dist"] : List Str).map (tagClass.contains ⟨c!"VERB,perf,tran plur,impr,excl"⟩) =
    [.ok true, .ok false, .ok false, .ok false] := by decide +kernel
example : ([c!"foo", c!"VERP"] : List Str).map (tagClass.contains ⟨c!"VERB,perf,tran plur,impr,excl"⟩) = [.error .valueError, .error .valueError] := by
  decide +kernel
example : ([{c!"VERB", c!"perf"}, {c!"VERB", c!"sing"}, ∅, {c!"VERB", c!"pref"}] : List Grams).map
    (tagClass.containsSet ⟨c!"VERB,perf,tran plur,impr,excl"⟩) = [.ok true, .ok false, .ok true, .error .valueError] := by decide +kernel

/-- TestCyrillic (the rule for Roman numerals adds its grammeme, units/by_shape.py) -/
example : ([c!"VERB,perf,tran plur,impr,excl", c!"ROMN", c!"ROMN,unknown_grammeme", c!"plur"] : List Str).map ((tagClass.addKnown (c!"ROMN") (c!"РИМ")).toCyr cpython.isSpace) =
    [c!"ГЛ,сов,перех мн,повел,выкл", c!"РИМ", c!"РИМ,unknown_grammeme", c!"мн"] := by decide +kernel
example : ([c!"ГЛ,сов,перех мн,повел,выкл", c!"РИМ", c!"РИМ,unknown_grammeme", c!"мн"] : List Str).map ((tagClass.addKnown (c!"ROMN") (c!"РИМ")).toLat cpython.isSpace) =
    [c!"VERB,perf,tran plur,impr,excl", c!"ROMN", c!"ROMN,unknown_grammeme", c!"plur"] := by decide +kernel
example : tagClass.grammemesCyr ⟨c!"VERB,perf,tran plur,impr,excl"⟩ = .ok {c!"ГЛ", c!"сов", c!"перех", c!"мн", c!"повел", c!"выкл"} := by decide +kernel

end Verif.ToyDict
