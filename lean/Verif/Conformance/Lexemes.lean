/-
Cases of /repo/tests/test_lexemes.py, test_inflection.py and test_numeral_agreement.py, run on the model by the kernel with dictionaries compiled from
the lexemes the cases need (the repository's tests use the published dictionary).  They are tests of the model, not proofs of properties.
-/
import Verif.Conformance.Convert
import Verif.Model.Dbl

namespace Verif.ToyDict
open Cpython

/-- A lemma with grammemes and forms. -/
def lemmaOf (id : Str) (gs : List Str) (forms : List (Str × List Str)) : Elem :=
  .mk (c!"lemma") [(c!"id", id)] none (l ((forms.head?.map Prod.fst).getD []) (gs.map g) :: forms.map fun x => f x.1 (x.2.map g))

/-- The analyzer made from these lemmas and the grammemes of toy_dict.xml. -/
def analyzerOf (lemmas : List Elem) : Except PyErr (Analyzer Rat) :=
  construct { Demo.sys with
    disk := fun _ => (args.convert (.mk (c!"dictionary") [] none
      ((only []).children ++ [.mk (c!"lemmata") [] none lemmas])) true Registry.initial none).folder.getD Disk.fresh
    env := cpython } TagCls.initial { path := some (c!"/d") }

/-- test_has_proper_lexemes: the lexeme of an analysis of the first word consists of the given words. -/
def hasLexeme (x : Analyzer Rat) (ws : List Str) : Bool := match x.morph.parse (ws.headD []) with
  | .error _ => false
  | .ok ps => ps.any fun p => match x.morph.lexeme p with
    | .error _ => false
    | .ok fs => decide (fs.map Parse.word = ws)

/-- test_first_inflected_value: the first analysis that can be inflected gives this word. -/
def inflects (x : Analyzer Rat) (t : Str × List Str × Str) : Bool := match x.morph.parse t.1 with
  | .error _ => false
  | .ok ps => match ps.filterMap fun p => (x.morph.inflect Sim.double p t.2.1).toOption.join with
    | [] => false
    | r :: _ => decide (r.word = t.2.2)

/-- The member of a set that has at most one. -/
def pickOne (s : Grams) : Option Str := ([c!"NOUN", c!"ADJF", c!"PRTF", c!"nomn", c!"gent", c!"datv", c!"accs", c!"ablt", c!"loct", c!"masc", c!"femn",
  c!"neut", c!"sing", c!"plur"] : List Str).find? fun y => decide (y ∈ s)

/-- test_plural_inflected: the first analysis with this case agrees with the number in this form. -/
def agrees (x : Analyzer Rat) (t : Str × Str × Int × Str) : Bool := match x.morph.parse t.1 with
  | .error _ => false
  | .ok ps => match ps.filter fun p => decide (t.2.1 ∈ p.tag.tuple) with
    | [] => false
    | p :: _ => match x.morph.makeAgree Sim.double pickOne p t.2.2.1 with
      | .ok (some r) => decide (r.word = t.2.2.2)
      | _ => false

/-! ### test_lexemes.py -/

example : (analyzerOf [lemmaOf (c!"1") [c!"NOUN", c!"anim", c!"masc"] [
    (c!"кот", [c!"sing", c!"nomn"]), (c!"кота", [c!"sing", c!"gent"]), (c!"коту", [c!"sing", c!"datv"]), (c!"кота", [c!"sing", c!"accs"]),
    (c!"котом", [c!"sing", c!"ablt"]), (c!"коте", [c!"sing", c!"loct"]), (c!"коты", [c!"plur", c!"nomn"]), (c!"котов", [c!"plur", c!"gent"]),
    (c!"котам", [c!"plur", c!"datv"]), (c!"котов", [c!"plur", c!"accs"]), (c!"котами", [c!"plur", c!"ablt"]), (c!"котах", [c!"plur", c!"loct"])],
  lemmaOf (c!"2") [c!"NOUN", c!"anim", c!"masc"] [
    (c!"пёс", [c!"sing", c!"nomn"]), (c!"пса", [c!"sing", c!"gent"]), (c!"псу", [c!"sing", c!"datv"]), (c!"пса", [c!"sing", c!"accs"]),
    (c!"псом", [c!"sing", c!"ablt"]), (c!"псе", [c!"sing", c!"loct"]), (c!"псы", [c!"plur", c!"nomn"]), (c!"псов", [c!"plur", c!"gent"]),
    (c!"псам", [c!"plur", c!"datv"]), (c!"псов", [c!"plur", c!"accs"]), (c!"псами", [c!"plur", c!"ablt"]), (c!"псах", [c!"plur", c!"loct"])]]).map (fun x => ([
    [c!"кот", c!"кота", c!"коту", c!"кота", c!"котом", c!"коте", c!"коты", c!"котов", c!"котам", c!"котов", c!"котами", c!"котах"],
    [c!"лжекот", c!"лжекота", c!"лжекоту", c!"лжекота", c!"лжекотом", c!"лжекоте", c!"лжекоты", c!"лжекотов", c!"лжекотам", c!"лжекотов", c!"лжекотами", c!"лжекотах"],
    [c!"экс-лжекот", c!"экс-лжекота", c!"экс-лжекоту", c!"экс-лжекота", c!"экс-лжекотом", c!"экс-лжекоте", c!"экс-лжекоты", c!"экс-лжекотов", c!"экс-лжекотам", c!"экс-лжекотов", c!"экс-лжекотами", c!"экс-лжекотах"],
    [c!"экслжекот", c!"экслжекота", c!"экслжекоту", c!"экслжекота", c!"экслжекотом", c!"экслжекоте", c!"экслжекоты", c!"экслжекотов", c!"экслжекотам", c!"экслжекотов", c!"экслжекотами", c!"экслжекотах"],
    [c!"буропёс", c!"буропса", c!"буропсу", c!"буропса", c!"буропсом", c!"буропсе", c!"буропсы", c!"буропсов", c!"буропсам", c!"буропсов", c!"буропсами", c!"буропсах"]] : List (List Str)).map (hasLexeme x)) = .ok (List.replicate 5 true) := by
  decide +kernel

example : (analyzerOf [lemmaOf (c!"1") [c!"NOUN", c!"anim", c!"masc"] [
    (c!"кот", [c!"sing", c!"nomn"]), (c!"кота", [c!"sing", c!"gent"]), (c!"коту", [c!"sing", c!"datv"]), (c!"кота", [c!"sing", c!"accs"]),
    (c!"котом", [c!"sing", c!"ablt"]), (c!"коте", [c!"sing", c!"loct"]), (c!"коты", [c!"plur", c!"nomn"]), (c!"котов", [c!"plur", c!"gent"]),
    (c!"котам", [c!"plur", c!"datv"]), (c!"котов", [c!"plur", c!"accs"]), (c!"котами", [c!"plur", c!"ablt"]), (c!"котах", [c!"plur", c!"loct"])],
  lemmaOf (c!"3") [c!"NOUN", c!"anim", c!"masc"] [
    (c!"маг", [c!"sing", c!"nomn"]), (c!"мага", [c!"sing", c!"gent"]), (c!"магу", [c!"sing", c!"datv"]), (c!"мага", [c!"sing", c!"accs"]),
    (c!"магом", [c!"sing", c!"ablt"]), (c!"маге", [c!"sing", c!"loct"]), (c!"маги", [c!"plur", c!"nomn"]), (c!"магов", [c!"plur", c!"gent"]),
    (c!"магам", [c!"plur", c!"datv"]), (c!"магов", [c!"plur", c!"accs"]), (c!"магами", [c!"plur", c!"ablt"]), (c!"магах", [c!"plur", c!"loct"])],
  lemmaOf (c!"10") [c!"ADVB"] [
    (c!"красиво", [])],
  lemmaOf (c!"11") [c!"ADVB"] [
    (c!"туманно", [])]]).map (fun x => ([
    [c!"кот-маг", c!"кота-мага", c!"коту-магу", c!"кота-мага", c!"котом-магом", c!"коте-маге", c!"коты-маги", c!"котов-магов", c!"котам-магам", c!"котов-магов", c!"котами-магами", c!"котах-магах"],
    [c!"красиво-туманно"]] : List (List Str)).map (hasLexeme x)) = .ok (List.replicate 2 true) := by
  decide +kernel

example : (analyzerOf [lemmaOf (c!"2") [c!"NOUN", c!"anim", c!"masc"] [
    (c!"пёс", [c!"sing", c!"nomn"]), (c!"пса", [c!"sing", c!"gent"]), (c!"псу", [c!"sing", c!"datv"]), (c!"пса", [c!"sing", c!"accs"]),
    (c!"псом", [c!"sing", c!"ablt"]), (c!"псе", [c!"sing", c!"loct"]), (c!"псы", [c!"plur", c!"nomn"]), (c!"псов", [c!"plur", c!"gent"]),
    (c!"псам", [c!"plur", c!"datv"]), (c!"псов", [c!"plur", c!"accs"]), (c!"псами", [c!"plur", c!"ablt"]), (c!"псах", [c!"plur", c!"loct"])],
  lemmaOf (c!"13") [c!"NPRO", c!"masc", c!"3per", c!"Anph"] [
    (c!"он", [c!"sing", c!"nomn"]), (c!"его", [c!"sing", c!"gent"]), (c!"него", [c!"sing", c!"gent", c!"Af-p"]), (c!"ему", [c!"sing", c!"datv"]),
    (c!"нему", [c!"sing", c!"datv", c!"Af-p"]), (c!"его", [c!"sing", c!"accs"]), (c!"него", [c!"sing", c!"accs", c!"Af-p"]), (c!"им", [c!"sing", c!"ablt"]),
    (c!"ним", [c!"sing", c!"ablt", c!"Af-p"]), (c!"нём", [c!"sing", c!"loct", c!"Af-p"])]]).map (fun x => ([
    [c!"он-то", c!"его-то", c!"него-то", c!"ему-то", c!"нему-то", c!"его-то", c!"него-то", c!"им-то", c!"ним-то", c!"нём-то"],
    [c!"кото-пёс", c!"кото-пса", c!"кото-псу", c!"кото-пса", c!"кото-псом", c!"кото-псе", c!"кото-псы", c!"кото-псов", c!"кото-псам", c!"кото-псов", c!"кото-псами", c!"кото-псах"],
    [c!"кото-псевдопёс", c!"кото-псевдопса", c!"кото-псевдопсу", c!"кото-псевдопса", c!"кото-псевдопсом", c!"кото-псевдопсе", c!"кото-псевдопсы", c!"кото-псевдопсов", c!"кото-псевдопсам", c!"кото-псевдопсов", c!"кото-псевдопсами", c!"кото-псевдопсах"]] : List (List Str)).map (hasLexeme x)) = .ok (List.replicate 3 true) := by
  decide +kernel

example : (analyzerOf [lemmaOf (c!"4") [c!"NOUN", c!"inan", c!"femn"] [
    (c!"команда", [c!"sing", c!"nomn"]), (c!"команды", [c!"sing", c!"gent"]), (c!"команде", [c!"sing", c!"datv"]), (c!"команду", [c!"sing", c!"accs"]),
    (c!"командой", [c!"sing", c!"ablt"]), (c!"командою", [c!"sing", c!"ablt", c!"V-oy"]), (c!"команде", [c!"sing", c!"loct"]), (c!"команды", [c!"plur", c!"nomn"]),
    (c!"команд", [c!"plur", c!"gent"]), (c!"командам", [c!"plur", c!"datv"]), (c!"команды", [c!"plur", c!"accs"]), (c!"командами", [c!"plur", c!"ablt"]),
    (c!"командах", [c!"plur", c!"loct"])],
  lemmaOf (c!"5") [c!"NOUN", c!"anim", c!"femn"] [
    (c!"участница", [c!"sing", c!"nomn"]), (c!"участницы", [c!"sing", c!"gent"]), (c!"участнице", [c!"sing", c!"datv"]), (c!"участницу", [c!"sing", c!"accs"]),
    (c!"участницей", [c!"sing", c!"ablt"]), (c!"участницею", [c!"sing", c!"ablt", c!"V-ey"]), (c!"участнице", [c!"sing", c!"loct"]), (c!"участницы", [c!"plur", c!"nomn"]),
    (c!"участниц", [c!"plur", c!"gent"]), (c!"участницам", [c!"plur", c!"datv"]), (c!"участниц", [c!"plur", c!"accs"]), (c!"участницами", [c!"plur", c!"ablt"]),
    (c!"участницах", [c!"plur", c!"loct"])]]).map (fun x => ([
    [c!"команда-участница", c!"команды-участницы", c!"команде-участнице", c!"команду-участницу", c!"командой-участницей", c!"командою-участницею", c!"команде-участнице", c!"команды-участницы", c!"команд-участниц", c!"командам-участницам", c!"команды-участниц", c!"командами-участницами", c!"командах-участницах"]] : List (List Str)).map (hasLexeme x)) = .ok (List.replicate 1 true) := by
  decide +kernel

example : (analyzerOf [lemmaOf (c!"6") [c!"NOUN", c!"inan", c!"femn"] [
    (c!"гора", [c!"sing", c!"nomn"]), (c!"горы", [c!"sing", c!"gent"]), (c!"горе", [c!"sing", c!"datv"]), (c!"гору", [c!"sing", c!"accs"]),
    (c!"горой", [c!"sing", c!"ablt"]), (c!"горою", [c!"sing", c!"ablt", c!"V-oy"]), (c!"горе", [c!"sing", c!"loct"]), (c!"горы", [c!"plur", c!"nomn"]),
    (c!"гор", [c!"plur", c!"gent"]), (c!"горам", [c!"plur", c!"datv"]), (c!"горы", [c!"plur", c!"accs"]), (c!"горами", [c!"plur", c!"ablt"]),
    (c!"горах", [c!"plur", c!"loct"])],
  lemmaOf (c!"7") [c!"NOUN", c!"anim", c!"masc"] [
    (c!"человек", [c!"sing", c!"nomn"]), (c!"человека", [c!"sing", c!"gent"]), (c!"человеку", [c!"sing", c!"datv"]), (c!"человека", [c!"sing", c!"accs"]),
    (c!"человеком", [c!"sing", c!"ablt"]), (c!"человеке", [c!"sing", c!"loct"]), (c!"люди", [c!"plur", c!"nomn"]), (c!"людей", [c!"plur", c!"gent"]),
    (c!"человек", [c!"plur", c!"gent"]), (c!"людям", [c!"plur", c!"datv"]), (c!"человекам", [c!"plur", c!"datv"]), (c!"людей", [c!"plur", c!"accs"]),
    (c!"людьми", [c!"plur", c!"ablt"]), (c!"человеками", [c!"plur", c!"ablt"]), (c!"людях", [c!"plur", c!"loct"]), (c!"человеках", [c!"plur", c!"loct"])]]).map (fun x => ([
    [c!"человек-гора", c!"человека-горы", c!"человеку-горе", c!"человека-гору", c!"человеком-горой", c!"человеком-горою", c!"человеке-горе", c!"люди-горы", c!"людей-гор", c!"людям-горам", c!"людей-горы", c!"людьми-горами", c!"людях-горах"],
    [c!"гора-человек", c!"горы-человека", c!"горе-человеку", c!"гору-человека", c!"горой-человеком", c!"горе-человеке", c!"горы-люди", c!"гор-людей", c!"гор-человек", c!"горам-людям", c!"горам-человекам", c!"горы-людей", c!"горами-людьми", c!"горами-человеками", c!"горах-людях", c!"горах-человеках"]] : List (List Str)).map (hasLexeme x)) = .ok (List.replicate 2 true) := by
  decide +kernel

example : (analyzerOf [lemmaOf (c!"8") [c!"NOUN", c!"inan", c!"masc"] [
    (c!"лес", [c!"sing", c!"nomn"]), (c!"леса", [c!"sing", c!"gent"]), (c!"лесу", [c!"sing", c!"gen2"]), (c!"лесу", [c!"sing", c!"datv"]),
    (c!"лес", [c!"sing", c!"accs"]), (c!"лесом", [c!"sing", c!"ablt"]), (c!"лесе", [c!"sing", c!"loct"]), (c!"лесу", [c!"sing", c!"loc2"]),
    (c!"леса", [c!"plur", c!"nomn"]), (c!"лесов", [c!"plur", c!"gent"]), (c!"лесам", [c!"plur", c!"datv"]), (c!"леса", [c!"plur", c!"accs"]),
    (c!"лесами", [c!"plur", c!"ablt"]), (c!"лесах", [c!"plur", c!"loct"])],
  lemmaOf (c!"9") [c!"NOUN", c!"anim", c!"masc"] [
    (c!"колдун", [c!"sing", c!"nomn"]), (c!"колдуна", [c!"sing", c!"gent"]), (c!"колдуну", [c!"sing", c!"datv"]), (c!"колдуна", [c!"sing", c!"accs"]),
    (c!"колдуном", [c!"sing", c!"ablt"]), (c!"колдуне", [c!"sing", c!"loct"]), (c!"колдуны", [c!"plur", c!"nomn"]), (c!"колдунов", [c!"plur", c!"gent"]),
    (c!"колдунам", [c!"plur", c!"datv"]), (c!"колдунов", [c!"plur", c!"accs"]), (c!"колдунами", [c!"plur", c!"ablt"]), (c!"колдунах", [c!"plur", c!"loct"])]]).map (fun x => ([
    [c!"лес-колдун", c!"леса-колдуна", c!"лесу-колдуну", c!"лес-колдуна", c!"лесом-колдуном", c!"лесе-колдуне", c!"леса-колдуны", c!"лесов-колдунов", c!"лесам-колдунам", c!"леса-колдунов", c!"лесами-колдунами", c!"лесах-колдунах"]] : List (List Str)).map (hasLexeme x)) = .ok (List.replicate 1 true) := by
  decide +kernel

/-! ### test_inflection.py, test_numeral_agreement.py -/

example : (analyzerOf [lemmaOf (c!"30") [c!"NOUN", c!"anim", c!"masc"] [
    (c!"суслик", [c!"sing", c!"nomn"]), (c!"суслика", [c!"sing", c!"gent"]), (c!"суслику", [c!"sing", c!"datv"]), (c!"суслика", [c!"sing", c!"accs"]),
    (c!"сусликом", [c!"sing", c!"ablt"]), (c!"суслике", [c!"sing", c!"loct"]), (c!"суслики", [c!"plur", c!"nomn"]), (c!"сусликов", [c!"plur", c!"gent"]),
    (c!"сусликам", [c!"plur", c!"datv"]), (c!"сусликов", [c!"plur", c!"accs"]), (c!"сусликами", [c!"plur", c!"ablt"]), (c!"сусликах", [c!"plur", c!"loct"])]]).map (fun x => ([
    (c!"суслик", [c!"datv"], c!"суслику"),
    (c!"суслики", [c!"datv"], c!"сусликам"),
    (c!"сусликов", [c!"datv"], c!"сусликам"),
    (c!"суслика", [c!"datv"], c!"суслику"),
    (c!"суслик", [c!"datv", c!"plur"], c!"сусликам")] : List (Str × List Str × Str)).map (inflects x)) = .ok (List.replicate 5 true) := by
  decide +kernel

example : (analyzerOf [lemmaOf (c!"33") [c!"NOUN", c!"inan", c!"masc"] [
    (c!"снег", [c!"sing", c!"nomn"]), (c!"снега", [c!"sing", c!"gent"]), (c!"снегу", [c!"sing", c!"gen2"]), (c!"снегу", [c!"sing", c!"datv"]),
    (c!"снег", [c!"sing", c!"accs"]), (c!"снегом", [c!"sing", c!"ablt"]), (c!"снеге", [c!"sing", c!"loct"]), (c!"снегу", [c!"sing", c!"loc2"]),
    (c!"снега", [c!"plur", c!"nomn"]), (c!"снегов", [c!"plur", c!"gent"]), (c!"снегам", [c!"plur", c!"datv"]), (c!"снега", [c!"plur", c!"accs"]),
    (c!"снегами", [c!"plur", c!"ablt"]), (c!"снегах", [c!"plur", c!"loct"])],
  lemmaOf (c!"34") [c!"NOUN", c!"inan", c!"masc"] [
    (c!"валенок", [c!"sing", c!"nomn"]), (c!"валенка", [c!"sing", c!"gent"]), (c!"валенку", [c!"sing", c!"datv"]), (c!"валенок", [c!"sing", c!"accs"]),
    (c!"валенком", [c!"sing", c!"ablt"]), (c!"валенке", [c!"sing", c!"loct"]), (c!"валенки", [c!"plur", c!"nomn"]), (c!"валенок", [c!"plur", c!"gent"]),
    (c!"валенкам", [c!"plur", c!"datv"]), (c!"валенки", [c!"plur", c!"accs"]), (c!"валенками", [c!"plur", c!"ablt"]), (c!"валенках", [c!"plur", c!"loct"])]]).map (fun x => ([
    (c!"снег", [c!"gent"], c!"снега"),
    (c!"снег", [c!"gen2"], c!"снегу"),
    (c!"валенок", [c!"gent", c!"sing"], c!"валенка"),
    (c!"валенок", [c!"gen2", c!"sing"], c!"валенка")] : List (Str × List Str × Str)).map (inflects x)) = .ok (List.replicate 4 true) := by
  decide +kernel

example : (analyzerOf [lemmaOf (c!"37") [c!"NOUN", c!"inan", c!"femn"] [
    (c!"книга", [c!"sing", c!"nomn"]), (c!"книги", [c!"sing", c!"gent"]), (c!"книге", [c!"sing", c!"datv"]), (c!"книгу", [c!"sing", c!"accs"]),
    (c!"книгой", [c!"sing", c!"ablt"]), (c!"книгою", [c!"sing", c!"ablt", c!"V-oy"]), (c!"книге", [c!"sing", c!"loct"]), (c!"книги", [c!"plur", c!"nomn"]),
    (c!"книг", [c!"plur", c!"gent"]), (c!"книгам", [c!"plur", c!"datv"]), (c!"книги", [c!"plur", c!"accs"]), (c!"книгами", [c!"plur", c!"ablt"]),
    (c!"книгах", [c!"plur", c!"loct"])],
  lemmaOf (c!"16") [c!"NOUN", c!"inan", c!"masc"] [
    (c!"час", [c!"sing", c!"nomn"]), (c!"часа", [c!"sing", c!"gent"]), (c!"часу", [c!"sing", c!"datv"]), (c!"час", [c!"sing", c!"accs"]),
    (c!"часом", [c!"sing", c!"ablt"]), (c!"часе", [c!"sing", c!"loct"]), (c!"часы", [c!"plur", c!"nomn"]), (c!"часов", [c!"plur", c!"gent"]),
    (c!"часам", [c!"plur", c!"datv"]), (c!"часы", [c!"plur", c!"accs"]), (c!"часами", [c!"plur", c!"ablt"]), (c!"часах", [c!"plur", c!"loct"])]]).map (fun x => ([
    (c!"книга", c!"nomn", 1, c!"книга"),
    (c!"книга", c!"nomn", 2, c!"книги"),
    (c!"книга", c!"nomn", 5, c!"книг"),
    (c!"книги", c!"gent", 1, c!"книги"),
    (c!"книги", c!"gent", 2, c!"книг"),
    (c!"книги", c!"gent", 5, c!"книг"),
    (c!"книге", c!"datv", 1, c!"книге"),
    (c!"книге", c!"datv", 2, c!"книгам"),
    (c!"книге", c!"datv", 5, c!"книгам"),
    (c!"книгу", c!"accs", 1, c!"книгу"),
    (c!"книгу", c!"accs", 2, c!"книги"),
    (c!"книгу", c!"accs", 5, c!"книг"),
    (c!"книгой", c!"ablt", 1, c!"книгой"),
    (c!"книгой", c!"ablt", 2, c!"книгами"),
    (c!"книгой", c!"ablt", 5, c!"книгами"),
    (c!"книге", c!"loct", 1, c!"книге"),
    (c!"книге", c!"loct", 2, c!"книгах"),
    (c!"книге", c!"loct", 5, c!"книгах"),
    (c!"час", c!"accs", 1, c!"час"),
    (c!"час", c!"accs", 2, c!"часа"),
    (c!"час", c!"accs", 5, c!"часов")] : List (Str × Str × Int × Str)).map (agrees x)) = .ok (List.replicate 21 true) := by
  decide +kernel

example : (analyzerOf [lemmaOf (c!"15") [c!"NOUN", c!"inan", c!"femn"] [
    (c!"лопата", [c!"sing", c!"nomn"]), (c!"лопаты", [c!"sing", c!"gent"]), (c!"лопате", [c!"sing", c!"datv"]), (c!"лопату", [c!"sing", c!"accs"]),
    (c!"лопатой", [c!"sing", c!"ablt"]), (c!"лопатою", [c!"sing", c!"ablt", c!"V-oy"]), (c!"лопате", [c!"sing", c!"loct"]), (c!"лопаты", [c!"plur", c!"nomn"]),
    (c!"лопат", [c!"plur", c!"gent"]), (c!"лопатам", [c!"plur", c!"datv"]), (c!"лопаты", [c!"plur", c!"accs"]), (c!"лопатами", [c!"plur", c!"ablt"]),
    (c!"лопатах", [c!"plur", c!"loct"])]]).map (fun x => ([
    (c!"лопата", c!"nomn", 0, c!"лопат"),
    (c!"лопата", c!"nomn", 1, c!"лопата"),
    (c!"лопата", c!"nomn", 2, c!"лопаты"),
    (c!"лопата", c!"nomn", 4, c!"лопаты"),
    (c!"лопата", c!"nomn", 5, c!"лопат"),
    (c!"лопата", c!"nomn", 6, c!"лопат"),
    (c!"лопата", c!"nomn", 11, c!"лопат"),
    (c!"лопата", c!"nomn", 12, c!"лопат"),
    (c!"лопата", c!"nomn", 15, c!"лопат"),
    (c!"лопата", c!"nomn", 21, c!"лопата"),
    (c!"лопата", c!"nomn", 24, c!"лопаты"),
    (c!"лопата", c!"nomn", 25, c!"лопат"),
    (c!"лопата", c!"nomn", 101, c!"лопата"),
    (c!"лопата", c!"nomn", 103, c!"лопаты"),
    (c!"лопата", c!"nomn", 105, c!"лопат"),
    (c!"лопата", c!"nomn", 111, c!"лопат"),
    (c!"лопата", c!"nomn", 112, c!"лопат"),
    (c!"лопата", c!"nomn", 151, c!"лопата"),
    (c!"лопата", c!"nomn", 122, c!"лопаты"),
    (c!"лопата", c!"nomn", 5624, c!"лопаты"),
    (c!"лопата", c!"nomn", 5431, c!"лопата"),
    (c!"лопата", c!"nomn", 7613, c!"лопат"),
    (c!"лопата", c!"nomn", 2111, c!"лопат")] : List (Str × Str × Int × Str)).map (agrees x)) = .ok (List.replicate 23 true) := by
  decide +kernel

end Verif.ToyDict
