/-
The repository's own tests of the dictionary compiler (/repo/tests/test_opencorpora_dict.py), run on the model by the kernel.  They are tests of the
model, not proofs of properties.
-/
import Verif.Conformance.ToyDict
import Verif.Props.C85

set_option synthInstance.maxSize 2000
set_option synthInstance.maxHeartbeats 200000

namespace Verif.ToyDict
open Cpython

/-! ### test_parse_xml -/

def parsed : Except PyErr (XmlParsed × Option Str × Option Str) := parseXml cpython false doc

example : parsed.map (fun r => r.2) = .ok (some (c!"0.92"), some (c!"389440")) := by decide +kernel

example : parsed.map (fun r => (r.1.links.head?, r.1.links.length)) =
    .ok (some (some (c!"5"), some (c!"6"), some (c!"1")), 13) := by decide +kernel

example : parsed.map (fun r => (r.1.grammemes[1]?, r.1.grammemes.length)) =
    .ok (some (some (c!"NOUN"), some (c!"POST"), some (c!"СУЩ"), some (c!"имя существительное")), 114) := by decide +kernel

example : parsed.map (fun r => (dictGet (some (c!"14")) r.1.lexemes, dictGet (some (c!"111111")) r.1.lexemes,
    dictGet (some (c!"222222")) r.1.lexemes)) = .ok (some [(c!"ёжиться", c!"INFN,impf,intr")], some [], some []) := by decide +kernel

/-! ### test_convert_to_pymorphy2

The lemmas the test looks at; the evaluation of the whole file by the kernel needs too much memory. -/

/-- The document with some of its lemmas only. -/
def only (ids : List Str) : Elem := match doc with
  | .mk t a x cs => .mk t a x (cs.map fun c => .mk c.tag c.attrs c.text (c.children.filter fun e =>
      if e.tag = c!"lemma" then decide ((e.get (c!"id")).getD [] ∈ ids)
      else if e.tag = c!"link" then decide ((e.get (c!"from")).getD [] ∈ ids ∧ (e.get (c!"to")).getD [] ∈ ids) else true))

def small : Elem := only [c!"1", c!"14", c!"1929", c!"1930", c!"1932", c!"2000", c!"38632", c!"390020"]

def args : ConvArgs where
  little := true
  lx := false
  env := cpython
  int := Demo.int
  bw := dedupBuild
  bp := dedupBuild
  opts := { minEndingFreq := 0, minParadigmPopularity := 0, paradigmPrefixes := [c!"", c!"по", c!"наи"] }
  lang := c!"ru"
  info := fun _ => Demo.info

def converted : Converted := args.convert small true Registry.initial none

def analyzer : Except PyErr (Analyzer Rat) :=
  construct { Demo.sys with disk := fun _ => converted.folder.getD Disk.fresh, env := cpython } TagCls.initial { path := some (c!"/d") }

example : (do
    let x ← analyzer
    let ruffle ← x.morph.tag (c!"ёжиться")
    let hedgehog ← x.morph.tag (c!"ёж")
    let roly ← x.morph.tag (c!"ванька-встанька")
    let big ← x.morph.tag (c!"Ц")
    let little ← x.morph.tag (c!"ц")
    let absurd ← x.morph.normalForms (c!"абсурднее")
    let a ← x.morph.normalForms (c!"а")
    pure (ruffle.map Tag.str, hedgehog.head?.map Tag.str == roly.head?.map Tag.str,
      big.head?.map fun t : Tag => isSub (c!"Init") t.str, little.head?.map fun t : Tag => isSub (c!"Init") t.str, absurd, a)) =
    .ok ([c!"INFN,impf,intr"], true, some true, some false, [c!"абсурдный"], [c!"а"]) := by
  decide +kernel

/-! ### TestToParadigm -/

def ru : List Str := [c!"", c!"по", c!"наи"]

example : toParadigm [(c!"ярче", c!"COMP,Qual"), (c!"ярчей", c!"COMP,Qual V-ej")] ru =
    .ok (c!"ярче", [(c!"", c!"COMP,Qual", c!""), (c!"й", c!"COMP,Qual V-ej", c!"")]) := by decide +kernel

example : toParadigm [(c!"ярче", c!"COMP,Qual"), (c!"поярче", c!"COMP,Qual Cmp2")] ru =
    .ok (c!"ярче", [(c!"", c!"COMP,Qual", c!""), (c!"", c!"COMP,Qual Cmp2", c!"по")]) := by decide +kernel

example : (toParadigm [(c!"ярче", c!"COMP,Qual"), (c!"ярчей", c!"COMP,Qual V-ej"), (c!"поярче", c!"COMP,Qual Cmp2"),
    (c!"поярчей", c!"COMP,Qual Cmp2,V-ej"), (c!"наиярчайший", c!"ADJF,Supr,Qual masc,sing,nomn")] ru).map Prod.fst = .ok (c!"ярч") := by
  decide +kernel

example : toParadigm [(c!"подробнейший", c!"1"), (c!"наиподробнейший", c!"2"), (c!"поподробнее", c!"3")] ru =
    .ok (c!"подробне", [(c!"йший", c!"1", c!""), (c!"йший", c!"2", c!"наи"), (c!"е", c!"3", c!"по")]) := by decide +kernel

example : toParadigm [(c!"платиновее", c!"1"), (c!"платиновей", c!"2"), (c!"поплатиновее", c!"3"), (c!"поплатиновей", c!"4")] ru =
    .ok (c!"платинове", [(c!"е", c!"1", c!""), (c!"й", c!"2", c!""), (c!"е", c!"3", c!"по"), (c!"й", c!"4", c!"по")]) := by
  decide +kernel

example : toParadigm [(c!"английский", c!"1"), (c!"английского", c!"2")] ru =
    .ok (c!"английск", [(c!"ий", c!"1", c!""), (c!"ого", c!"2", c!"")]) := by decide +kernel

example : toParadigm [(c!"английски", c!"1")] ru = .ok (c!"английски", [(c!"", c!"1", c!"")]) := by decide +kernel

end Verif.ToyDict
