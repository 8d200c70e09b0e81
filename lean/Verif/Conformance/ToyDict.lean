/-
/repo/dev_data/toy_dict.xml as an element of the model (generated by tools/toydict.py; the texts between child elements are left out).
-/
import Verif.Model.Xml

namespace Verif.ToyDict

/-- A grammeme of a lemma or of a form. -/
def g (v : Str) : Elem := .mk (c!"g") [(c!"v", v)] none []
/-- A form. -/
def f (t : Str) (gs : List Elem) : Elem := .mk (c!"f") [(c!"t", t)] none gs
/-- The head of a lemma. -/
def l (t : Str) (gs : List Elem) : Elem := .mk (c!"l") [(c!"t", t)] none gs

def grammemes0 : List Elem := [
  .mk (c!"grammeme") [((c!"parent"), (c!""))] none [
    .mk (c!"name") [] (some (c!"POST")) [],
    .mk (c!"alias") [] (some (c!"ЧР")) [],
    .mk (c!"description") [] (some (c!"часть речи")) []],
  .mk (c!"grammeme") [((c!"parent"), (c!"POST"))] none [
    .mk (c!"name") [] (some (c!"NOUN")) [],
    .mk (c!"alias") [] (some (c!"СУЩ")) [],
    .mk (c!"description") [] (some (c!"имя существительное")) []],
  .mk (c!"grammeme") [((c!"parent"), (c!"POST"))] none [
    .mk (c!"name") [] (some (c!"ADJF")) [],
    .mk (c!"alias") [] (some (c!"ПРИЛ")) [],
    .mk (c!"description") [] (some (c!"имя прилагательное (полное)")) []],
  .mk (c!"grammeme") [((c!"parent"), (c!"POST"))] none [
    .mk (c!"name") [] (some (c!"ADJS")) [],
    .mk (c!"alias") [] (some (c!"КР_ПРИЛ")) [],
    .mk (c!"description") [] (some (c!"имя прилагательное (краткое)")) []],
  .mk (c!"grammeme") [((c!"parent"), (c!"POST"))] none [
    .mk (c!"name") [] (some (c!"COMP")) [],
    .mk (c!"alias") [] (some (c!"КОМП")) [],
    .mk (c!"description") [] (some (c!"компаратив")) []],
  .mk (c!"grammeme") [((c!"parent"), (c!"POST"))] none [
    .mk (c!"name") [] (some (c!"VERB")) [],
    .mk (c!"alias") [] (some (c!"ГЛ")) [],
    .mk (c!"description") [] (some (c!"глагол (личная форма)")) []],
  .mk (c!"grammeme") [((c!"parent"), (c!"POST"))] none [
    .mk (c!"name") [] (some (c!"INFN")) [],
    .mk (c!"alias") [] (some (c!"ИНФ")) [],
    .mk (c!"description") [] (some (c!"глагол (инфинитив)")) []],
  .mk (c!"grammeme") [((c!"parent"), (c!"POST"))] none [
    .mk (c!"name") [] (some (c!"PRTF")) [],
    .mk (c!"alias") [] (some (c!"ПРИЧ")) [],
    .mk (c!"description") [] (some (c!"причастие (полное)")) []]]

def grammemes1 : List Elem := [
  .mk (c!"grammeme") [((c!"parent"), (c!"POST"))] none [
    .mk (c!"name") [] (some (c!"PRTS")) [],
    .mk (c!"alias") [] (some (c!"КР_ПРИЧ")) [],
    .mk (c!"description") [] (some (c!"причастие (краткое)")) []],
  .mk (c!"grammeme") [((c!"parent"), (c!"POST"))] none [
    .mk (c!"name") [] (some (c!"GRND")) [],
    .mk (c!"alias") [] (some (c!"ДЕЕПР")) [],
    .mk (c!"description") [] (some (c!"деепричастие")) []],
  .mk (c!"grammeme") [((c!"parent"), (c!"POST"))] none [
    .mk (c!"name") [] (some (c!"NUMR")) [],
    .mk (c!"alias") [] (some (c!"ЧИСЛ")) [],
    .mk (c!"description") [] (some (c!"числительное")) []],
  .mk (c!"grammeme") [((c!"parent"), (c!"POST"))] none [
    .mk (c!"name") [] (some (c!"ADVB")) [],
    .mk (c!"alias") [] (some (c!"Н")) [],
    .mk (c!"description") [] (some (c!"наречие")) []],
  .mk (c!"grammeme") [((c!"parent"), (c!"POST"))] none [
    .mk (c!"name") [] (some (c!"NPRO")) [],
    .mk (c!"alias") [] (some (c!"МС")) [],
    .mk (c!"description") [] (some (c!"местоимение-существительное")) []],
  .mk (c!"grammeme") [((c!"parent"), (c!"POST"))] none [
    .mk (c!"name") [] (some (c!"PRED")) [],
    .mk (c!"alias") [] (some (c!"ПРЕДК")) [],
    .mk (c!"description") [] (some (c!"предикатив")) []],
  .mk (c!"grammeme") [((c!"parent"), (c!"POST"))] none [
    .mk (c!"name") [] (some (c!"PREP")) [],
    .mk (c!"alias") [] (some (c!"ПР")) [],
    .mk (c!"description") [] (some (c!"предлог")) []],
  .mk (c!"grammeme") [((c!"parent"), (c!"POST"))] none [
    .mk (c!"name") [] (some (c!"CONJ")) [],
    .mk (c!"alias") [] (some (c!"СОЮЗ")) [],
    .mk (c!"description") [] (some (c!"союз")) []]]

def grammemes2 : List Elem := [
  .mk (c!"grammeme") [((c!"parent"), (c!"POST"))] none [
    .mk (c!"name") [] (some (c!"PRCL")) [],
    .mk (c!"alias") [] (some (c!"ЧАСТ")) [],
    .mk (c!"description") [] (some (c!"частица")) []],
  .mk (c!"grammeme") [((c!"parent"), (c!"POST"))] none [
    .mk (c!"name") [] (some (c!"INTJ")) [],
    .mk (c!"alias") [] (some (c!"МЕЖД")) [],
    .mk (c!"description") [] (some (c!"междометие")) []],
  .mk (c!"grammeme") [((c!"parent"), (c!""))] none [
    .mk (c!"name") [] (some (c!"ANim")) [],
    .mk (c!"alias") [] (some (c!"Од-неод")) [],
    .mk (c!"description") [] (some (c!"одушевлённость / одушевлённость не выражена")) []],
  .mk (c!"grammeme") [((c!"parent"), (c!"ANim"))] none [
    .mk (c!"name") [] (some (c!"anim")) [],
    .mk (c!"alias") [] (some (c!"од")) [],
    .mk (c!"description") [] (some (c!"одушевлённое")) []],
  .mk (c!"grammeme") [((c!"parent"), (c!"ANim"))] none [
    .mk (c!"name") [] (some (c!"inan")) [],
    .mk (c!"alias") [] (some (c!"неод")) [],
    .mk (c!"description") [] (some (c!"неодушевлённое")) []],
  .mk (c!"grammeme") [((c!"parent"), (c!""))] none [
    .mk (c!"name") [] (some (c!"GNdr")) [],
    .mk (c!"alias") [] (some (c!"хр")) [],
    .mk (c!"description") [] (some (c!"род / род не выражен")) []],
  .mk (c!"grammeme") [((c!"parent"), (c!"GNdr"))] none [
    .mk (c!"name") [] (some (c!"masc")) [],
    .mk (c!"alias") [] (some (c!"мр")) [],
    .mk (c!"description") [] (some (c!"мужской род")) []],
  .mk (c!"grammeme") [((c!"parent"), (c!"GNdr"))] none [
    .mk (c!"name") [] (some (c!"femn")) [],
    .mk (c!"alias") [] (some (c!"жр")) [],
    .mk (c!"description") [] (some (c!"женский род")) []]]

def grammemes3 : List Elem := [
  .mk (c!"grammeme") [((c!"parent"), (c!"GNdr"))] none [
    .mk (c!"name") [] (some (c!"neut")) [],
    .mk (c!"alias") [] (some (c!"ср")) [],
    .mk (c!"description") [] (some (c!"средний род")) []],
  .mk (c!"grammeme") [((c!"parent"), (c!""))] none [
    .mk (c!"name") [] (some (c!"Ms-f")) [],
    .mk (c!"alias") [] (some (c!"ор")) [],
    .mk (c!"description") [] (some (c!"общий род")) []],
  .mk (c!"grammeme") [((c!"parent"), (c!""))] none [
    .mk (c!"name") [] (some (c!"NMbr")) [],
    .mk (c!"alias") [] (some (c!"Число")) [],
    .mk (c!"description") [] (some (c!"число")) []],
  .mk (c!"grammeme") [((c!"parent"), (c!"NMbr"))] none [
    .mk (c!"name") [] (some (c!"sing")) [],
    .mk (c!"alias") [] (some (c!"ед")) [],
    .mk (c!"description") [] (some (c!"единственное число")) []],
  .mk (c!"grammeme") [((c!"parent"), (c!"NMbr"))] none [
    .mk (c!"name") [] (some (c!"plur")) [],
    .mk (c!"alias") [] (some (c!"мн")) [],
    .mk (c!"description") [] (some (c!"множественное число")) []],
  .mk (c!"grammeme") [((c!"parent"), (c!""))] none [
    .mk (c!"name") [] (some (c!"Sgtm")) [],
    .mk (c!"alias") [] (some (c!"sg")) [],
    .mk (c!"description") [] (some (c!"singularia tantum")) []],
  .mk (c!"grammeme") [((c!"parent"), (c!""))] none [
    .mk (c!"name") [] (some (c!"Pltm")) [],
    .mk (c!"alias") [] (some (c!"pl")) [],
    .mk (c!"description") [] (some (c!"pluralia tantum")) []],
  .mk (c!"grammeme") [((c!"parent"), (c!""))] none [
    .mk (c!"name") [] (some (c!"Fixd")) [],
    .mk (c!"alias") [] (some (c!"0")) [],
    .mk (c!"description") [] (some (c!"неизменяемое")) []]]

def grammemes4 : List Elem := [
  .mk (c!"grammeme") [((c!"parent"), (c!""))] none [
    .mk (c!"name") [] (some (c!"CAse")) [],
    .mk (c!"alias") [] (some (c!"Падеж")) [],
    .mk (c!"description") [] (some (c!"категория падежа")) []],
  .mk (c!"grammeme") [((c!"parent"), (c!"CAse"))] none [
    .mk (c!"name") [] (some (c!"nomn")) [],
    .mk (c!"alias") [] (some (c!"им")) [],
    .mk (c!"description") [] (some (c!"именительный падеж")) []],
  .mk (c!"grammeme") [((c!"parent"), (c!"CAse"))] none [
    .mk (c!"name") [] (some (c!"gent")) [],
    .mk (c!"alias") [] (some (c!"рд")) [],
    .mk (c!"description") [] (some (c!"родительный падеж")) []],
  .mk (c!"grammeme") [((c!"parent"), (c!"CAse"))] none [
    .mk (c!"name") [] (some (c!"datv")) [],
    .mk (c!"alias") [] (some (c!"дт")) [],
    .mk (c!"description") [] (some (c!"дательный падеж")) []],
  .mk (c!"grammeme") [((c!"parent"), (c!"CAse"))] none [
    .mk (c!"name") [] (some (c!"accs")) [],
    .mk (c!"alias") [] (some (c!"вн")) [],
    .mk (c!"description") [] (some (c!"винительный падеж")) []],
  .mk (c!"grammeme") [((c!"parent"), (c!"CAse"))] none [
    .mk (c!"name") [] (some (c!"ablt")) [],
    .mk (c!"alias") [] (some (c!"тв")) [],
    .mk (c!"description") [] (some (c!"творительный падеж")) []],
  .mk (c!"grammeme") [((c!"parent"), (c!"CAse"))] none [
    .mk (c!"name") [] (some (c!"loct")) [],
    .mk (c!"alias") [] (some (c!"пр")) [],
    .mk (c!"description") [] (some (c!"предложный падеж")) []],
  .mk (c!"grammeme") [((c!"parent"), (c!"nomn"))] none [
    .mk (c!"name") [] (some (c!"voct")) [],
    .mk (c!"alias") [] (some (c!"зв")) [],
    .mk (c!"description") [] (some (c!"звательный падеж")) []]]

def grammemes5 : List Elem := [
  .mk (c!"grammeme") [((c!"parent"), (c!"gent"))] none [
    .mk (c!"name") [] (some (c!"gen1")) [],
    .mk (c!"alias") [] (some (c!"рд1")) [],
    .mk (c!"description") [] (some (c!"первый родительный падеж")) []],
  .mk (c!"grammeme") [((c!"parent"), (c!"gent"))] none [
    .mk (c!"name") [] (some (c!"gen2")) [],
    .mk (c!"alias") [] (some (c!"рд2")) [],
    .mk (c!"description") [] (some (c!"второй родительный (частичный) падеж")) []],
  .mk (c!"grammeme") [((c!"parent"), (c!"accs"))] none [
    .mk (c!"name") [] (some (c!"acc2")) [],
    .mk (c!"alias") [] (some (c!"вн2")) [],
    .mk (c!"description") [] (some (c!"второй винительный падеж")) []],
  .mk (c!"grammeme") [((c!"parent"), (c!"loct"))] none [
    .mk (c!"name") [] (some (c!"loc1")) [],
    .mk (c!"alias") [] (some (c!"пр1")) [],
    .mk (c!"description") [] (some (c!"первый предложный падеж")) []],
  .mk (c!"grammeme") [((c!"parent"), (c!"loct"))] none [
    .mk (c!"name") [] (some (c!"loc2")) [],
    .mk (c!"alias") [] (some (c!"пр2")) [],
    .mk (c!"description") [] (some (c!"второй предложный (местный) падеж")) []],
  .mk (c!"grammeme") [((c!"parent"), (c!""))] none [
    .mk (c!"name") [] (some (c!"Abbr")) [],
    .mk (c!"alias") [] (some (c!"аббр")) [],
    .mk (c!"description") [] (some (c!"аббревиатура")) []],
  .mk (c!"grammeme") [((c!"parent"), (c!""))] none [
    .mk (c!"name") [] (some (c!"Name")) [],
    .mk (c!"alias") [] (some (c!"имя")) [],
    .mk (c!"description") [] (some (c!"имя")) []],
  .mk (c!"grammeme") [((c!"parent"), (c!""))] none [
    .mk (c!"name") [] (some (c!"Surn")) [],
    .mk (c!"alias") [] (some (c!"фам")) [],
    .mk (c!"description") [] (some (c!"фамилия")) []]]

def grammemes6 : List Elem := [
  .mk (c!"grammeme") [((c!"parent"), (c!""))] none [
    .mk (c!"name") [] (some (c!"Patr")) [],
    .mk (c!"alias") [] (some (c!"отч")) [],
    .mk (c!"description") [] (some (c!"отчество")) []],
  .mk (c!"grammeme") [((c!"parent"), (c!""))] none [
    .mk (c!"name") [] (some (c!"Geox")) [],
    .mk (c!"alias") [] (some (c!"гео")) [],
    .mk (c!"description") [] (some (c!"топоним")) []],
  .mk (c!"grammeme") [((c!"parent"), (c!""))] none [
    .mk (c!"name") [] (some (c!"Orgn")) [],
    .mk (c!"alias") [] (some (c!"орг")) [],
    .mk (c!"description") [] (some (c!"организация")) []],
  .mk (c!"grammeme") [((c!"parent"), (c!""))] none [
    .mk (c!"name") [] (some (c!"Trad")) [],
    .mk (c!"alias") [] (some (c!"tm")) [],
    .mk (c!"description") [] (some (c!"торговая марка")) []],
  .mk (c!"grammeme") [((c!"parent"), (c!""))] none [
    .mk (c!"name") [] (some (c!"Subx")) [],
    .mk (c!"alias") [] (some (c!"субст?")) [],
    .mk (c!"description") [] (some (c!"возможна субстантивация")) []],
  .mk (c!"grammeme") [((c!"parent"), (c!""))] none [
    .mk (c!"name") [] (some (c!"Supr")) [],
    .mk (c!"alias") [] (some (c!"превосх")) [],
    .mk (c!"description") [] (some (c!"превосходная степень")) []],
  .mk (c!"grammeme") [((c!"parent"), (c!""))] none [
    .mk (c!"name") [] (some (c!"Qual")) [],
    .mk (c!"alias") [] (some (c!"кач")) [],
    .mk (c!"description") [] (some (c!"качественное")) []],
  .mk (c!"grammeme") [((c!"parent"), (c!""))] none [
    .mk (c!"name") [] (some (c!"Apro")) [],
    .mk (c!"alias") [] (some (c!"мест-п")) [],
    .mk (c!"description") [] (some (c!"местоименное")) []]]

def grammemes7 : List Elem := [
  .mk (c!"grammeme") [((c!"parent"), (c!""))] none [
    .mk (c!"name") [] (some (c!"Anum")) [],
    .mk (c!"alias") [] (some (c!"числ-п")) [],
    .mk (c!"description") [] (some (c!"порядковое")) []],
  .mk (c!"grammeme") [((c!"parent"), (c!""))] none [
    .mk (c!"name") [] (some (c!"Poss")) [],
    .mk (c!"alias") [] (some (c!"притяж")) [],
    .mk (c!"description") [] (some (c!"притяжательное")) []],
  .mk (c!"grammeme") [((c!"parent"), (c!""))] none [
    .mk (c!"name") [] (some (c!"V-ey")) [],
    .mk (c!"alias") [] (some (c!"*ею")) [],
    .mk (c!"description") [] (some (c!"форма на -ею")) []],
  .mk (c!"grammeme") [((c!"parent"), (c!""))] none [
    .mk (c!"name") [] (some (c!"V-oy")) [],
    .mk (c!"alias") [] (some (c!"*ою")) [],
    .mk (c!"description") [] (some (c!"форма на -ою")) []],
  .mk (c!"grammeme") [((c!"parent"), (c!""))] none [
    .mk (c!"name") [] (some (c!"Cmp2")) [],
    .mk (c!"alias") [] (some (c!"сравн2")) [],
    .mk (c!"description") [] (some (c!"сравнительная степень на по-")) []],
  .mk (c!"grammeme") [((c!"parent"), (c!""))] none [
    .mk (c!"name") [] (some (c!"V-ej")) [],
    .mk (c!"alias") [] (some (c!"*ей")) [],
    .mk (c!"description") [] (some (c!"форма компаратива на -ей")) []],
  .mk (c!"grammeme") [((c!"parent"), (c!""))] none [
    .mk (c!"name") [] (some (c!"ASpc")) [],
    .mk (c!"alias") [] (some (c!"Вид")) [],
    .mk (c!"description") [] (some (c!"категория вида")) []],
  .mk (c!"grammeme") [((c!"parent"), (c!"ASpc"))] none [
    .mk (c!"name") [] (some (c!"perf")) [],
    .mk (c!"alias") [] (some (c!"сов")) [],
    .mk (c!"description") [] (some (c!"совершенный вид")) []]]

def grammemes8 : List Elem := [
  .mk (c!"grammeme") [((c!"parent"), (c!"ASpc"))] none [
    .mk (c!"name") [] (some (c!"impf")) [],
    .mk (c!"alias") [] (some (c!"несов")) [],
    .mk (c!"description") [] (some (c!"несовершенный вид")) []],
  .mk (c!"grammeme") [((c!"parent"), (c!""))] none [
    .mk (c!"name") [] (some (c!"TRns")) [],
    .mk (c!"alias") [] (some (c!"Перех")) [],
    .mk (c!"description") [] (some (c!"категория переходности")) []],
  .mk (c!"grammeme") [((c!"parent"), (c!"TRns"))] none [
    .mk (c!"name") [] (some (c!"tran")) [],
    .mk (c!"alias") [] (some (c!"перех")) [],
    .mk (c!"description") [] (some (c!"переходный")) []],
  .mk (c!"grammeme") [((c!"parent"), (c!"TRns"))] none [
    .mk (c!"name") [] (some (c!"intr")) [],
    .mk (c!"alias") [] (some (c!"неперех")) [],
    .mk (c!"description") [] (some (c!"непереходный")) []],
  .mk (c!"grammeme") [((c!"parent"), (c!""))] none [
    .mk (c!"name") [] (some (c!"Impe")) [],
    .mk (c!"alias") [] (some (c!"безл")) [],
    .mk (c!"description") [] (some (c!"безличный")) []],
  .mk (c!"grammeme") [((c!"parent"), (c!""))] none [
    .mk (c!"name") [] (some (c!"Uimp")) [],
    .mk (c!"alias") [] (some (c!"безл-у")) [],
    .mk (c!"description") [] (some (c!"безличное употребление")) []],
  .mk (c!"grammeme") [((c!"parent"), (c!""))] none [
    .mk (c!"name") [] (some (c!"Mult")) [],
    .mk (c!"alias") [] (some (c!"мног")) [],
    .mk (c!"description") [] (some (c!"многократный")) []],
  .mk (c!"grammeme") [((c!"parent"), (c!""))] none [
    .mk (c!"name") [] (some (c!"Refl")) [],
    .mk (c!"alias") [] (some (c!"возвр")) [],
    .mk (c!"description") [] (some (c!"возвратный")) []]]

def grammemes9 : List Elem := [
  .mk (c!"grammeme") [((c!"parent"), (c!""))] none [
    .mk (c!"name") [] (some (c!"PErs")) [],
    .mk (c!"alias") [] (some (c!"Лицо")) [],
    .mk (c!"description") [] (some (c!"категория лица")) []],
  .mk (c!"grammeme") [((c!"parent"), (c!"PErs"))] none [
    .mk (c!"name") [] (some (c!"1per")) [],
    .mk (c!"alias") [] (some (c!"1л")) [],
    .mk (c!"description") [] (some (c!"1 лицо")) []],
  .mk (c!"grammeme") [((c!"parent"), (c!"PErs"))] none [
    .mk (c!"name") [] (some (c!"2per")) [],
    .mk (c!"alias") [] (some (c!"2л")) [],
    .mk (c!"description") [] (some (c!"2 лицо")) []],
  .mk (c!"grammeme") [((c!"parent"), (c!"PErs"))] none [
    .mk (c!"name") [] (some (c!"3per")) [],
    .mk (c!"alias") [] (some (c!"3л")) [],
    .mk (c!"description") [] (some (c!"3 лицо")) []],
  .mk (c!"grammeme") [((c!"parent"), (c!""))] none [
    .mk (c!"name") [] (some (c!"TEns")) [],
    .mk (c!"alias") [] (some (c!"Время")) [],
    .mk (c!"description") [] (some (c!"категория времени")) []],
  .mk (c!"grammeme") [((c!"parent"), (c!"TEns"))] none [
    .mk (c!"name") [] (some (c!"pres")) [],
    .mk (c!"alias") [] (some (c!"наст")) [],
    .mk (c!"description") [] (some (c!"настоящее время")) []],
  .mk (c!"grammeme") [((c!"parent"), (c!"TEns"))] none [
    .mk (c!"name") [] (some (c!"past")) [],
    .mk (c!"alias") [] (some (c!"прош")) [],
    .mk (c!"description") [] (some (c!"прошедшее время")) []],
  .mk (c!"grammeme") [((c!"parent"), (c!"TEns"))] none [
    .mk (c!"name") [] (some (c!"futr")) [],
    .mk (c!"alias") [] (some (c!"буд")) [],
    .mk (c!"description") [] (some (c!"будущее время")) []]]

def grammemes10 : List Elem := [
  .mk (c!"grammeme") [((c!"parent"), (c!""))] none [
    .mk (c!"name") [] (some (c!"MOod")) [],
    .mk (c!"alias") [] (some (c!"Накл")) [],
    .mk (c!"description") [] (some (c!"категория наклонения")) []],
  .mk (c!"grammeme") [((c!"parent"), (c!"MOod"))] none [
    .mk (c!"name") [] (some (c!"indc")) [],
    .mk (c!"alias") [] (some (c!"изъяв")) [],
    .mk (c!"description") [] (some (c!"изъявительное наклонение")) []],
  .mk (c!"grammeme") [((c!"parent"), (c!"MOod"))] none [
    .mk (c!"name") [] (some (c!"impr")) [],
    .mk (c!"alias") [] (some (c!"повел")) [],
    .mk (c!"description") [] (some (c!"повелительное наклонение")) []],
  .mk (c!"grammeme") [((c!"parent"), (c!""))] none [
    .mk (c!"name") [] (some (c!"INvl")) [],
    .mk (c!"alias") [] (some (c!"Совм")) [],
    .mk (c!"description") [] (some (c!"категория совместности")) []],
  .mk (c!"grammeme") [((c!"parent"), (c!"INvl"))] none [
    .mk (c!"name") [] (some (c!"incl")) [],
    .mk (c!"alias") [] (some (c!"вкл")) [],
    .mk (c!"description") [] (some (c!"говорящий включён в действие (идем, идемте)")) []],
  .mk (c!"grammeme") [((c!"parent"), (c!"INvl"))] none [
    .mk (c!"name") [] (some (c!"excl")) [],
    .mk (c!"alias") [] (some (c!"выкл")) [],
    .mk (c!"description") [] (some (c!"говорящий не включён в действие (иди, идите)")) []],
  .mk (c!"grammeme") [((c!"parent"), (c!""))] none [
    .mk (c!"name") [] (some (c!"VOic")) [],
    .mk (c!"alias") [] (some (c!"Залог")) [],
    .mk (c!"description") [] (some (c!"категория залога")) []],
  .mk (c!"grammeme") [((c!"parent"), (c!"VOic"))] none [
    .mk (c!"name") [] (some (c!"actv")) [],
    .mk (c!"alias") [] (some (c!"действ")) [],
    .mk (c!"description") [] (some (c!"действительный залог")) []]]

def grammemes11 : List Elem := [
  .mk (c!"grammeme") [((c!"parent"), (c!"VOic"))] none [
    .mk (c!"name") [] (some (c!"pssv")) [],
    .mk (c!"alias") [] (some (c!"страд")) [],
    .mk (c!"description") [] (some (c!"страдательный залог")) []],
  .mk (c!"grammeme") [((c!"parent"), (c!""))] none [
    .mk (c!"name") [] (some (c!"Infr")) [],
    .mk (c!"alias") [] (some (c!"разг")) [],
    .mk (c!"description") [] (some (c!"разговорное")) []],
  .mk (c!"grammeme") [((c!"parent"), (c!""))] none [
    .mk (c!"name") [] (some (c!"Slng")) [],
    .mk (c!"alias") [] (some (c!"жарг")) [],
    .mk (c!"description") [] (some (c!"жаргонное")) []],
  .mk (c!"grammeme") [((c!"parent"), (c!""))] none [
    .mk (c!"name") [] (some (c!"Arch")) [],
    .mk (c!"alias") [] (some (c!"арх")) [],
    .mk (c!"description") [] (some (c!"устаревшее")) []],
  .mk (c!"grammeme") [((c!"parent"), (c!""))] none [
    .mk (c!"name") [] (some (c!"Litr")) [],
    .mk (c!"alias") [] (some (c!"лит")) [],
    .mk (c!"description") [] (some (c!"литературный вариант")) []],
  .mk (c!"grammeme") [((c!"parent"), (c!""))] none [
    .mk (c!"name") [] (some (c!"Erro")) [],
    .mk (c!"alias") [] (some (c!"опеч")) [],
    .mk (c!"description") [] (some (c!"опечатка")) []],
  .mk (c!"grammeme") [((c!"parent"), (c!""))] none [
    .mk (c!"name") [] (some (c!"Dist")) [],
    .mk (c!"alias") [] (some (c!"искаж")) [],
    .mk (c!"description") [] (some (c!"искажение")) []],
  .mk (c!"grammeme") [((c!"parent"), (c!""))] none [
    .mk (c!"name") [] (some (c!"Ques")) [],
    .mk (c!"alias") [] (some (c!"вопр")) [],
    .mk (c!"description") [] (some (c!"вопросительное")) []]]

def grammemes12 : List Elem := [
  .mk (c!"grammeme") [((c!"parent"), (c!""))] none [
    .mk (c!"name") [] (some (c!"Dmns")) [],
    .mk (c!"alias") [] (some (c!"указ")) [],
    .mk (c!"description") [] (some (c!"указательное")) []],
  .mk (c!"grammeme") [((c!"parent"), (c!""))] none [
    .mk (c!"name") [] (some (c!"Prnt")) [],
    .mk (c!"alias") [] (some (c!"вводн")) [],
    .mk (c!"description") [] (some (c!"вводное слово")) []],
  .mk (c!"grammeme") [((c!"parent"), (c!""))] none [
    .mk (c!"name") [] (some (c!"V-be")) [],
    .mk (c!"alias") [] (some (c!"*ье")) [],
    .mk (c!"description") [] (some (c!"форма на -ье")) []],
  .mk (c!"grammeme") [((c!"parent"), (c!""))] none [
    .mk (c!"name") [] (some (c!"V-be")) [],
    .mk (c!"alias") [] (some (c!"*ье")) [],
    .mk (c!"description") [] (some (c!"форма на -ье")) []],
  .mk (c!"grammeme") [((c!"parent"), (c!""))] none [
    .mk (c!"name") [] (some (c!"V-en")) [],
    .mk (c!"alias") [] (some (c!"*енен")) [],
    .mk (c!"description") [] (some (c!"форма на -енен")) []],
  .mk (c!"grammeme") [((c!"parent"), (c!""))] none [
    .mk (c!"name") [] (some (c!"V-ie")) [],
    .mk (c!"alias") [] (some (c!"*ие")) [],
    .mk (c!"description") [] (some (c!"отчество через -ие-")) []],
  .mk (c!"grammeme") [((c!"parent"), (c!""))] none [
    .mk (c!"name") [] (some (c!"V-bi")) [],
    .mk (c!"alias") [] (some (c!"*ьи")) [],
    .mk (c!"description") [] (some (c!"форма на -ьи")) []],
  .mk (c!"grammeme") [((c!"parent"), (c!""))] none [
    .mk (c!"name") [] (some (c!"Fimp")) [],
    .mk (c!"alias") [] (some (c!"*несов")) [],
    .mk (c!"description") [] (some (c!"деепричастие от глагола несовершенного вида")) []]]

def grammemes13 : List Elem := [
  .mk (c!"grammeme") [((c!"parent"), (c!""))] none [
    .mk (c!"name") [] (some (c!"Prdx")) [],
    .mk (c!"alias") [] (some (c!"предк?")) [],
    .mk (c!"description") [] (some (c!"может выступать в роли предикатива")) []],
  .mk (c!"grammeme") [((c!"parent"), (c!""))] none [
    .mk (c!"name") [] (some (c!"Coun")) [],
    .mk (c!"alias") [] (some (c!"счетн")) [],
    .mk (c!"description") [] (some (c!"счётная форма")) []],
  .mk (c!"grammeme") [((c!"parent"), (c!""))] none [
    .mk (c!"name") [] (some (c!"Coll")) [],
    .mk (c!"alias") [] (some (c!"собир")) [],
    .mk (c!"description") [] (some (c!"собирательное числительное")) []],
  .mk (c!"grammeme") [((c!"parent"), (c!""))] none [
    .mk (c!"name") [] (some (c!"V-sh")) [],
    .mk (c!"alias") [] (some (c!"*ши")) [],
    .mk (c!"description") [] (some (c!"деепричастие на -ши")) []],
  .mk (c!"grammeme") [((c!"parent"), (c!""))] none [
    .mk (c!"name") [] (some (c!"Af-p")) [],
    .mk (c!"alias") [] (some (c!"*предл")) [],
    .mk (c!"description") [] (some (c!"форма после предлога")) []],
  .mk (c!"grammeme") [((c!"parent"), (c!""))] none [
    .mk (c!"name") [] (some (c!"Inmx")) [],
    .mk (c!"alias") [] (some (c!"неодуш?")) [],
    .mk (c!"description") [] (some (c!"может использоваться как неодушевлённое")) []],
  .mk (c!"grammeme") [((c!"parent"), (c!""))] none [
    .mk (c!"name") [] (some (c!"Vpre")) [],
    .mk (c!"alias") [] (some (c!"в_предл")) [],
    .mk (c!"description") [] (some (c!"Вариант предлога ( со, подо, ...)")) []],
  .mk (c!"grammeme") [((c!"parent"), (c!""))] none [
    .mk (c!"name") [] (some (c!"Anph")) [],
    .mk (c!"alias") [] (some (c!"Анаф")) [],
    .mk (c!"description") [] (some (c!"Анафорическое (местоимение)")) []]]

def grammemes14 : List Elem := [
  .mk (c!"grammeme") [((c!"parent"), (c!""))] none [
    .mk (c!"name") [] (some (c!"Init")) [],
    .mk (c!"alias") [] (some (c!"иниц")) [],
    .mk (c!"description") [] (some (c!"Инициал")) []],
  .mk (c!"grammeme") [((c!"parent"), (c!""))] none [
    .mk (c!"name") [] (some (c!"Adjx")) [],
    .mk (c!"alias") [] (some (c!"прил?")) [],
    .mk (c!"description") [] (some (c!"может выступать в роли прилагательного")) []]]

def restrictions0 : List Elem := [
  .mk (c!"restr") [((c!"type"), (c!"obligatory")), ((c!"auto"), (c!"0"))] none [
    .mk (c!"left") [((c!"type"), (c!"lemma"))] none [],
    .mk (c!"right") [((c!"type"), (c!"lemma"))] (some (c!"POST")) []],
  .mk (c!"restr") [((c!"type"), (c!"obligatory")), ((c!"auto"), (c!"0"))] none [
    .mk (c!"left") [((c!"type"), (c!"lemma"))] (some (c!"NOUN")) [],
    .mk (c!"right") [((c!"type"), (c!"lemma"))] (some (c!"ANim")) []],
  .mk (c!"restr") [((c!"type"), (c!"obligatory")), ((c!"auto"), (c!"0"))] none [
    .mk (c!"left") [((c!"type"), (c!"lemma"))] (some (c!"NOUN")) [],
    .mk (c!"right") [((c!"type"), (c!"lemma"))] (some (c!"GNdr")) []],
  .mk (c!"restr") [((c!"type"), (c!"maybe")), ((c!"auto"), (c!"0"))] none [
    .mk (c!"left") [((c!"type"), (c!"lemma"))] (some (c!"NOUN")) [],
    .mk (c!"right") [((c!"type"), (c!"lemma"))] (some (c!"Ms-f")) []],
  .mk (c!"restr") [((c!"type"), (c!"obligatory")), ((c!"auto"), (c!"0"))] none [
    .mk (c!"left") [((c!"type"), (c!"lemma"))] (some (c!"NOUN")) [],
    .mk (c!"right") [((c!"type"), (c!"form"))] (some (c!"NMbr")) []],
  .mk (c!"restr") [((c!"type"), (c!"maybe")), ((c!"auto"), (c!"0"))] none [
    .mk (c!"left") [((c!"type"), (c!"lemma"))] (some (c!"NOUN")) [],
    .mk (c!"right") [((c!"type"), (c!"lemma"))] (some (c!"Sgtm")) []],
  .mk (c!"restr") [((c!"type"), (c!"maybe")), ((c!"auto"), (c!"0"))] none [
    .mk (c!"left") [((c!"type"), (c!"lemma"))] (some (c!"NOUN")) [],
    .mk (c!"right") [((c!"type"), (c!"lemma"))] (some (c!"Pltm")) []],
  .mk (c!"restr") [((c!"type"), (c!"maybe")), ((c!"auto"), (c!"0"))] none [
    .mk (c!"left") [((c!"type"), (c!"lemma"))] (some (c!"NOUN")) [],
    .mk (c!"right") [((c!"type"), (c!"form"))] none []]]

def restrictions1 : List Elem := [
  .mk (c!"restr") [((c!"type"), (c!"maybe")), ((c!"auto"), (c!"0"))] none [
    .mk (c!"left") [((c!"type"), (c!"lemma"))] (some (c!"NOUN")) [],
    .mk (c!"right") [((c!"type"), (c!"form"))] none []],
  .mk (c!"restr") [((c!"type"), (c!"obligatory")), ((c!"auto"), (c!"0"))] none [
    .mk (c!"left") [((c!"type"), (c!"lemma"))] (some (c!"NOUN")) [],
    .mk (c!"right") [((c!"type"), (c!"form"))] (some (c!"CAse")) []],
  .mk (c!"restr") [((c!"type"), (c!"maybe")), ((c!"auto"), (c!"0"))] none [
    .mk (c!"left") [((c!"type"), (c!"lemma"))] (some (c!"NOUN")) [],
    .mk (c!"right") [((c!"type"), (c!"lemma"))] (some (c!"Abbr")) []],
  .mk (c!"restr") [((c!"type"), (c!"maybe")), ((c!"auto"), (c!"0"))] none [
    .mk (c!"left") [((c!"type"), (c!"lemma"))] (some (c!"NOUN")) [],
    .mk (c!"right") [((c!"type"), (c!"lemma"))] (some (c!"Name")) []],
  .mk (c!"restr") [((c!"type"), (c!"maybe")), ((c!"auto"), (c!"0"))] none [
    .mk (c!"left") [((c!"type"), (c!"lemma"))] (some (c!"NOUN")) [],
    .mk (c!"right") [((c!"type"), (c!"lemma"))] (some (c!"Surn")) []],
  .mk (c!"restr") [((c!"type"), (c!"maybe")), ((c!"auto"), (c!"0"))] none [
    .mk (c!"left") [((c!"type"), (c!"lemma"))] (some (c!"NOUN")) [],
    .mk (c!"right") [((c!"type"), (c!"lemma"))] (some (c!"Patr")) []],
  .mk (c!"restr") [((c!"type"), (c!"maybe")), ((c!"auto"), (c!"0"))] none [
    .mk (c!"left") [((c!"type"), (c!"lemma"))] (some (c!"NOUN")) [],
    .mk (c!"right") [((c!"type"), (c!"lemma"))] (some (c!"Geox")) []],
  .mk (c!"restr") [((c!"type"), (c!"maybe")), ((c!"auto"), (c!"0"))] none [
    .mk (c!"left") [((c!"type"), (c!"lemma"))] (some (c!"NOUN")) [],
    .mk (c!"right") [((c!"type"), (c!"lemma"))] (some (c!"Orgn")) []]]

def restrictions2 : List Elem := [
  .mk (c!"restr") [((c!"type"), (c!"maybe")), ((c!"auto"), (c!"0"))] none [
    .mk (c!"left") [((c!"type"), (c!"lemma"))] (some (c!"NOUN")) [],
    .mk (c!"right") [((c!"type"), (c!"lemma"))] (some (c!"Trad")) []],
  .mk (c!"restr") [((c!"type"), (c!"maybe")), ((c!"auto"), (c!"0"))] none [
    .mk (c!"left") [((c!"type"), (c!"lemma"))] (some (c!"NOUN")) [],
    .mk (c!"right") [((c!"type"), (c!"form"))] (some (c!"V-ey")) []],
  .mk (c!"restr") [((c!"type"), (c!"maybe")), ((c!"auto"), (c!"0"))] none [
    .mk (c!"left") [((c!"type"), (c!"lemma"))] (some (c!"NOUN")) [],
    .mk (c!"right") [((c!"type"), (c!"form"))] (some (c!"V-oy")) []],
  .mk (c!"restr") [((c!"type"), (c!"maybe")), ((c!"auto"), (c!"0"))] none [
    .mk (c!"left") [((c!"type"), (c!"lemma"))] (some (c!"NOUN")) [],
    .mk (c!"right") [((c!"type"), (c!"form"))] (some (c!"V-be")) []],
  .mk (c!"restr") [((c!"type"), (c!"maybe")), ((c!"auto"), (c!"0"))] none [
    .mk (c!"left") [((c!"type"), (c!"lemma"))] (some (c!"ADJF")) [],
    .mk (c!"right") [((c!"type"), (c!"form"))] (some (c!"anim")) []],
  .mk (c!"restr") [((c!"type"), (c!"maybe")), ((c!"auto"), (c!"0"))] none [
    .mk (c!"left") [((c!"type"), (c!"lemma"))] (some (c!"ADJF")) [],
    .mk (c!"right") [((c!"type"), (c!"form"))] (some (c!"inan")) []]]

def lemmata0 : List Elem := [
  .mk (c!"lemma") [((c!"id"), (c!"1")), ((c!"rev"), (c!"1"))] none [
    l (c!"ёж") [g (c!"NOUN"), g (c!"anim"), g (c!"masc")],
    f (c!"ёж") [g (c!"sing"), g (c!"nomn")],
    f (c!"ежа") [g (c!"sing"), g (c!"gent")],
    f (c!"ежу") [g (c!"sing"), g (c!"datv")],
    f (c!"ежа") [g (c!"sing"), g (c!"accs")],
    f (c!"ежом") [g (c!"sing"), g (c!"ablt")],
    f (c!"еже") [g (c!"sing"), g (c!"loct")],
    f (c!"ежи") [g (c!"plur"), g (c!"nomn")],
    f (c!"ежей") [g (c!"plur"), g (c!"gent")],
    f (c!"ежам") [g (c!"plur"), g (c!"datv")],
    f (c!"ежей") [g (c!"plur"), g (c!"accs")],
    f (c!"ежами") [g (c!"plur"), g (c!"ablt")],
    f (c!"ежах") [g (c!"plur"), g (c!"loct")]],
  .mk (c!"lemma") [((c!"id"), (c!"2")), ((c!"rev"), (c!"2"))] none [
    l (c!"ёж") [g (c!"NOUN"), g (c!"inan"), g (c!"masc")],
    f (c!"ёж") [g (c!"sing"), g (c!"nomn")],
    f (c!"ежа") [g (c!"sing"), g (c!"gent")],
    f (c!"ежу") [g (c!"sing"), g (c!"datv")],
    f (c!"ёж") [g (c!"sing"), g (c!"accs")],
    f (c!"ежом") [g (c!"sing"), g (c!"ablt")],
    f (c!"еже") [g (c!"sing"), g (c!"loct")],
    f (c!"ежи") [g (c!"plur"), g (c!"nomn")],
    f (c!"ежей") [g (c!"plur"), g (c!"gent")],
    f (c!"ежам") [g (c!"plur"), g (c!"datv")],
    f (c!"ежи") [g (c!"plur"), g (c!"accs")],
    f (c!"ежами") [g (c!"plur"), g (c!"ablt")],
    f (c!"ежах") [g (c!"plur"), g (c!"loct")]],
  .mk (c!"lemma") [((c!"id"), (c!"3")), ((c!"rev"), (c!"3"))] none [
    l (c!"ёжик") [g (c!"NOUN"), g (c!"anim"), g (c!"masc")],
    f (c!"ёжик") [g (c!"sing"), g (c!"nomn")],
    f (c!"ёжика") [g (c!"sing"), g (c!"gent")],
    f (c!"ёжику") [g (c!"sing"), g (c!"datv")],
    f (c!"ёжика") [g (c!"sing"), g (c!"accs")],
    f (c!"ёжиком") [g (c!"sing"), g (c!"ablt")],
    f (c!"ёжике") [g (c!"sing"), g (c!"loct")],
    f (c!"ёжики") [g (c!"plur"), g (c!"nomn")],
    f (c!"ёжиков") [g (c!"plur"), g (c!"gent")],
    f (c!"ёжикам") [g (c!"plur"), g (c!"datv")],
    f (c!"ёжиков") [g (c!"plur"), g (c!"accs")],
    f (c!"ёжиками") [g (c!"plur"), g (c!"ablt")],
    f (c!"ёжиках") [g (c!"plur"), g (c!"loct")]],
  .mk (c!"lemma") [((c!"id"), (c!"4")), ((c!"rev"), (c!"4"))] none [
    l (c!"ёжиком") [g (c!"ADVB")],
    f (c!"ёжиком") []],
  .mk (c!"lemma") [((c!"id"), (c!"5")), ((c!"rev"), (c!"5"))] none [
    l (c!"ёжистый") [g (c!"ADJF"), g (c!"Qual")],
    f (c!"ёжистый") [g (c!"masc"), g (c!"sing"), g (c!"nomn")],
    f (c!"ёжистого") [g (c!"masc"), g (c!"sing"), g (c!"gent")],
    f (c!"ёжистому") [g (c!"masc"), g (c!"sing"), g (c!"datv")],
    f (c!"ёжистого") [g (c!"anim"), g (c!"masc"), g (c!"sing"), g (c!"accs")],
    f (c!"ёжистый") [g (c!"inan"), g (c!"masc"), g (c!"sing"), g (c!"accs")],
    f (c!"ёжистым") [g (c!"masc"), g (c!"sing"), g (c!"ablt")],
    f (c!"ёжистом") [g (c!"masc"), g (c!"sing"), g (c!"loct")],
    f (c!"ёжистая") [g (c!"femn"), g (c!"sing"), g (c!"nomn")],
    f (c!"ёжистой") [g (c!"femn"), g (c!"sing"), g (c!"gent")],
    f (c!"ёжистой") [g (c!"femn"), g (c!"sing"), g (c!"datv")],
    f (c!"ёжистую") [g (c!"femn"), g (c!"sing"), g (c!"accs")],
    f (c!"ёжистой") [g (c!"femn"), g (c!"sing"), g (c!"ablt")],
    f (c!"ёжистою") [g (c!"femn"), g (c!"sing"), g (c!"ablt"), g (c!"V-oy")],
    f (c!"ёжистой") [g (c!"femn"), g (c!"sing"), g (c!"loct")],
    f (c!"ёжистое") [g (c!"neut"), g (c!"sing"), g (c!"nomn")],
    f (c!"ёжистого") [g (c!"neut"), g (c!"sing"), g (c!"gent")],
    f (c!"ёжистому") [g (c!"neut"), g (c!"sing"), g (c!"datv")],
    f (c!"ёжистое") [g (c!"neut"), g (c!"sing"), g (c!"accs")],
    f (c!"ёжистым") [g (c!"neut"), g (c!"sing"), g (c!"ablt")],
    f (c!"ёжистом") [g (c!"neut"), g (c!"sing"), g (c!"loct")],
    f (c!"ёжистые") [g (c!"plur"), g (c!"nomn")],
    f (c!"ёжистых") [g (c!"plur"), g (c!"gent")],
    f (c!"ёжистым") [g (c!"plur"), g (c!"datv")],
    f (c!"ёжистых") [g (c!"anim"), g (c!"plur"), g (c!"accs")],
    f (c!"ёжистые") [g (c!"inan"), g (c!"plur"), g (c!"accs")],
    f (c!"ёжистыми") [g (c!"plur"), g (c!"ablt")],
    f (c!"ёжистых") [g (c!"plur"), g (c!"loct")]],
  .mk (c!"lemma") [((c!"id"), (c!"6")), ((c!"rev"), (c!"6"))] none [
    l (c!"ёжист") [g (c!"ADJS"), g (c!"Qual")],
    f (c!"ёжист") [g (c!"masc"), g (c!"sing")],
    f (c!"ёжиста") [g (c!"femn"), g (c!"sing")],
    f (c!"ёжисто") [g (c!"neut"), g (c!"sing")],
    f (c!"ёжисты") [g (c!"plur")]],
  .mk (c!"lemma") [((c!"id"), (c!"7")), ((c!"rev"), (c!"7"))] none [
    l (c!"ёжистее") [g (c!"COMP"), g (c!"Qual")],
    f (c!"ёжистее") [],
    f (c!"ёжистей") [g (c!"V-ej")],
    f (c!"поёжистее") [g (c!"Cmp2")],
    f (c!"поёжистей") [g (c!"Cmp2"), g (c!"V-ej")]],
  .mk (c!"lemma") [((c!"id"), (c!"8")), ((c!"rev"), (c!"8"))] none [
    l (c!"ёжу") [g (c!"VERB"), g (c!"impf"), g (c!"tran")],
    f (c!"ёжу") [g (c!"sing"), g (c!"1per"), g (c!"pres"), g (c!"indc")],
    f (c!"ёжим") [g (c!"plur"), g (c!"1per"), g (c!"pres"), g (c!"indc")],
    f (c!"ёжишь") [g (c!"sing"), g (c!"2per"), g (c!"pres"), g (c!"indc")],
    f (c!"ёжите") [g (c!"plur"), g (c!"2per"), g (c!"pres"), g (c!"indc")],
    f (c!"ёжит") [g (c!"sing"), g (c!"3per"), g (c!"pres"), g (c!"indc")],
    f (c!"ёжат") [g (c!"plur"), g (c!"3per"), g (c!"pres"), g (c!"indc")],
    f (c!"ёжил") [g (c!"masc"), g (c!"sing"), g (c!"past"), g (c!"indc")],
    f (c!"ёжила") [g (c!"femn"), g (c!"sing"), g (c!"past"), g (c!"indc")],
    f (c!"ёжило") [g (c!"neut"), g (c!"sing"), g (c!"past"), g (c!"indc")],
    f (c!"ёжили") [g (c!"plur"), g (c!"past"), g (c!"indc")],
    f (c!"ёжь") [g (c!"sing"), g (c!"impr"), g (c!"excl")],
    f (c!"ёжьте") [g (c!"plur"), g (c!"impr"), g (c!"excl")]]]

def lemmata1 : List Elem := [
  .mk (c!"lemma") [((c!"id"), (c!"9")), ((c!"rev"), (c!"9"))] none [
    l (c!"ёжить") [g (c!"INFN"), g (c!"impf"), g (c!"tran")],
    f (c!"ёжить") []],
  .mk (c!"lemma") [((c!"id"), (c!"10")), ((c!"rev"), (c!"10"))] none [
    l (c!"ёжимый") [g (c!"PRTF"), g (c!"impf"), g (c!"tran"), g (c!"pres"), g (c!"pssv")],
    f (c!"ёжимый") [g (c!"masc"), g (c!"sing"), g (c!"nomn")],
    f (c!"ёжимого") [g (c!"masc"), g (c!"sing"), g (c!"gent")],
    f (c!"ёжимому") [g (c!"masc"), g (c!"sing"), g (c!"datv")],
    f (c!"ёжимого") [g (c!"anim"), g (c!"masc"), g (c!"sing"), g (c!"accs")],
    f (c!"ёжимый") [g (c!"inan"), g (c!"masc"), g (c!"sing"), g (c!"accs")],
    f (c!"ёжимым") [g (c!"masc"), g (c!"sing"), g (c!"ablt")],
    f (c!"ёжимом") [g (c!"masc"), g (c!"sing"), g (c!"loct")],
    f (c!"ёжимая") [g (c!"femn"), g (c!"sing"), g (c!"nomn")],
    f (c!"ёжимой") [g (c!"femn"), g (c!"sing"), g (c!"gent")],
    f (c!"ёжимой") [g (c!"femn"), g (c!"sing"), g (c!"datv")],
    f (c!"ёжимую") [g (c!"femn"), g (c!"sing"), g (c!"accs")],
    f (c!"ёжимой") [g (c!"femn"), g (c!"sing"), g (c!"ablt")],
    f (c!"ёжимою") [g (c!"femn"), g (c!"sing"), g (c!"ablt"), g (c!"V-oy")],
    f (c!"ёжимой") [g (c!"femn"), g (c!"sing"), g (c!"loct")],
    f (c!"ёжимое") [g (c!"neut"), g (c!"sing"), g (c!"nomn")],
    f (c!"ёжимого") [g (c!"neut"), g (c!"sing"), g (c!"gent")],
    f (c!"ёжимому") [g (c!"neut"), g (c!"sing"), g (c!"datv")],
    f (c!"ёжимое") [g (c!"neut"), g (c!"sing"), g (c!"accs")],
    f (c!"ёжимым") [g (c!"neut"), g (c!"sing"), g (c!"ablt")],
    f (c!"ёжимом") [g (c!"neut"), g (c!"sing"), g (c!"loct")],
    f (c!"ёжимые") [g (c!"plur"), g (c!"nomn")],
    f (c!"ёжимых") [g (c!"plur"), g (c!"gent")],
    f (c!"ёжимым") [g (c!"plur"), g (c!"datv")],
    f (c!"ёжимых") [g (c!"anim"), g (c!"plur"), g (c!"accs")],
    f (c!"ёжимые") [g (c!"inan"), g (c!"plur"), g (c!"accs")],
    f (c!"ёжимыми") [g (c!"plur"), g (c!"ablt")],
    f (c!"ёжимых") [g (c!"plur"), g (c!"loct")]],
  .mk (c!"lemma") [((c!"id"), (c!"11")), ((c!"rev"), (c!"11"))] none [
    l (c!"ёжим") [g (c!"PRTS"), g (c!"impf"), g (c!"pres"), g (c!"pssv")],
    f (c!"ёжим") [g (c!"masc"), g (c!"sing")],
    f (c!"ёжима") [g (c!"femn"), g (c!"sing")],
    f (c!"ёжимо") [g (c!"neut"), g (c!"sing")],
    f (c!"ёжимы") [g (c!"plur")]],
  .mk (c!"lemma") [((c!"id"), (c!"12")), ((c!"rev"), (c!"12"))] none [
    l (c!"ёжа") [g (c!"GRND"), g (c!"impf"), g (c!"tran")],
    f (c!"ёжа") [g (c!"pres")],
    f (c!"ёжив") [g (c!"past")],
    f (c!"ёживши") [g (c!"past"), g (c!"V-sh")]],
  .mk (c!"lemma") [((c!"id"), (c!"13")), ((c!"rev"), (c!"13"))] none [
    l (c!"ёжусь") [g (c!"VERB"), g (c!"impf"), g (c!"intr")],
    f (c!"ёжусь") [g (c!"sing"), g (c!"1per"), g (c!"pres"), g (c!"indc")],
    f (c!"ёжимся") [g (c!"plur"), g (c!"1per"), g (c!"pres"), g (c!"indc")],
    f (c!"ёжишься") [g (c!"sing"), g (c!"2per"), g (c!"pres"), g (c!"indc")],
    f (c!"ёжитесь") [g (c!"plur"), g (c!"2per"), g (c!"pres"), g (c!"indc")],
    f (c!"ёжится") [g (c!"sing"), g (c!"3per"), g (c!"pres"), g (c!"indc")],
    f (c!"ёжатся") [g (c!"plur"), g (c!"3per"), g (c!"pres"), g (c!"indc")],
    f (c!"ёжился") [g (c!"masc"), g (c!"sing"), g (c!"past"), g (c!"indc")],
    f (c!"ёжилась") [g (c!"femn"), g (c!"sing"), g (c!"past"), g (c!"indc")],
    f (c!"ёжилось") [g (c!"neut"), g (c!"sing"), g (c!"past"), g (c!"indc")],
    f (c!"ёжились") [g (c!"plur"), g (c!"past"), g (c!"indc")],
    f (c!"ёжься") [g (c!"sing"), g (c!"impr"), g (c!"excl")],
    f (c!"ёжьтесь") [g (c!"plur"), g (c!"impr"), g (c!"excl")]],
  .mk (c!"lemma") [((c!"id"), (c!"14")), ((c!"rev"), (c!"14"))] none [
    l (c!"ёжиться") [g (c!"INFN"), g (c!"impf"), g (c!"intr")],
    f (c!"ёжиться") []],
  .mk (c!"lemma") [((c!"id"), (c!"18")), ((c!"rev"), (c!"18"))] none [
    l (c!"ёкнул") [g (c!"VERB"), g (c!"perf"), g (c!"intr")],
    f (c!"ёкнул") [g (c!"masc"), g (c!"sing"), g (c!"past"), g (c!"indc")],
    f (c!"ёкнула") [g (c!"femn"), g (c!"sing"), g (c!"past"), g (c!"indc")],
    f (c!"ёкнуло") [g (c!"neut"), g (c!"sing"), g (c!"past"), g (c!"indc")],
    f (c!"ёкнули") [g (c!"plur"), g (c!"past"), g (c!"indc")],
    f (c!"ёкну") [g (c!"sing"), g (c!"1per"), g (c!"futr"), g (c!"indc")],
    f (c!"ёкнем") [g (c!"plur"), g (c!"1per"), g (c!"futr"), g (c!"indc")],
    f (c!"ёкнешь") [g (c!"sing"), g (c!"2per"), g (c!"futr"), g (c!"indc")],
    f (c!"ёкнете") [g (c!"plur"), g (c!"2per"), g (c!"futr"), g (c!"indc")],
    f (c!"ёкнет") [g (c!"sing"), g (c!"3per"), g (c!"futr"), g (c!"indc")],
    f (c!"ёкнут") [g (c!"plur"), g (c!"3per"), g (c!"futr"), g (c!"indc")],
    f (c!"ёкнем") [g (c!"sing"), g (c!"impr"), g (c!"incl")],
    f (c!"ёкнемте") [g (c!"plur"), g (c!"impr"), g (c!"incl")],
    f (c!"ёкни") [g (c!"sing"), g (c!"impr"), g (c!"excl")],
    f (c!"ёкните") [g (c!"plur"), g (c!"impr"), g (c!"excl")]],
  .mk (c!"lemma") [((c!"id"), (c!"19")), ((c!"rev"), (c!"19"))] none [
    l (c!"ёкнуть") [g (c!"INFN"), g (c!"perf"), g (c!"intr")],
    f (c!"ёкнуть") []]]

def lemmata2 : List Elem := [
  .mk (c!"lemma") [((c!"id"), (c!"20")), ((c!"rev"), (c!"20"))] none [
    l (c!"ёкнувший") [g (c!"PRTF"), g (c!"perf"), g (c!"intr"), g (c!"past"), g (c!"actv")],
    f (c!"ёкнувший") [g (c!"masc"), g (c!"sing"), g (c!"nomn")],
    f (c!"ёкнувшего") [g (c!"masc"), g (c!"sing"), g (c!"gent")],
    f (c!"ёкнувшему") [g (c!"masc"), g (c!"sing"), g (c!"datv")],
    f (c!"ёкнувшего") [g (c!"anim"), g (c!"masc"), g (c!"sing"), g (c!"accs")],
    f (c!"ёкнувший") [g (c!"inan"), g (c!"masc"), g (c!"sing"), g (c!"accs")],
    f (c!"ёкнувшим") [g (c!"masc"), g (c!"sing"), g (c!"ablt")],
    f (c!"ёкнувшем") [g (c!"masc"), g (c!"sing"), g (c!"loct")],
    f (c!"ёкнувшая") [g (c!"femn"), g (c!"sing"), g (c!"nomn")],
    f (c!"ёкнувшей") [g (c!"femn"), g (c!"sing"), g (c!"gent")],
    f (c!"ёкнувшей") [g (c!"femn"), g (c!"sing"), g (c!"datv")],
    f (c!"ёкнувшую") [g (c!"femn"), g (c!"sing"), g (c!"accs")],
    f (c!"ёкнувшей") [g (c!"femn"), g (c!"sing"), g (c!"ablt")],
    f (c!"ёкнувшею") [g (c!"femn"), g (c!"sing"), g (c!"ablt"), g (c!"V-ey")],
    f (c!"ёкнувшей") [g (c!"femn"), g (c!"sing"), g (c!"loct")],
    f (c!"ёкнувшее") [g (c!"neut"), g (c!"sing"), g (c!"nomn")],
    f (c!"ёкнувшего") [g (c!"neut"), g (c!"sing"), g (c!"gent")],
    f (c!"ёкнувшему") [g (c!"neut"), g (c!"sing"), g (c!"datv")],
    f (c!"ёкнувшее") [g (c!"neut"), g (c!"sing"), g (c!"accs")],
    f (c!"ёкнувшим") [g (c!"neut"), g (c!"sing"), g (c!"ablt")],
    f (c!"ёкнувшем") [g (c!"neut"), g (c!"sing"), g (c!"loct")],
    f (c!"ёкнувшие") [g (c!"plur"), g (c!"nomn")],
    f (c!"ёкнувших") [g (c!"plur"), g (c!"gent")],
    f (c!"ёкнувшим") [g (c!"plur"), g (c!"datv")],
    f (c!"ёкнувших") [g (c!"anim"), g (c!"plur"), g (c!"accs")],
    f (c!"ёкнувшие") [g (c!"inan"), g (c!"plur"), g (c!"accs")],
    f (c!"ёкнувшими") [g (c!"plur"), g (c!"ablt")],
    f (c!"ёкнувших") [g (c!"plur"), g (c!"loct")]],
  .mk (c!"lemma") [((c!"id"), (c!"21")), ((c!"rev"), (c!"21"))] none [
    l (c!"ёкнув") [g (c!"GRND"), g (c!"perf"), g (c!"intr")],
    f (c!"ёкнув") [g (c!"past")],
    f (c!"ёкнувши") [g (c!"past"), g (c!"V-sh")]],
  .mk (c!"lemma") [((c!"id"), (c!"22")), ((c!"rev"), (c!"22"))] none [
    l (c!"ёлка") [g (c!"NOUN"), g (c!"inan"), g (c!"femn")],
    f (c!"ёлка") [g (c!"sing"), g (c!"nomn")],
    f (c!"ёлки") [g (c!"sing"), g (c!"gent")],
    f (c!"ёлке") [g (c!"sing"), g (c!"datv")],
    f (c!"ёлку") [g (c!"sing"), g (c!"accs")],
    f (c!"ёлкой") [g (c!"sing"), g (c!"ablt")],
    f (c!"ёлкою") [g (c!"sing"), g (c!"ablt"), g (c!"V-oy")],
    f (c!"ёлке") [g (c!"sing"), g (c!"loct")],
    f (c!"ёлки") [g (c!"plur"), g (c!"nomn")],
    f (c!"ёлок") [g (c!"plur"), g (c!"gent")],
    f (c!"ёлкам") [g (c!"plur"), g (c!"datv")],
    f (c!"ёлки") [g (c!"plur"), g (c!"accs")],
    f (c!"ёлками") [g (c!"plur"), g (c!"ablt")],
    f (c!"ёлках") [g (c!"plur"), g (c!"loct")]],
  .mk (c!"lemma") [((c!"id"), (c!"23")), ((c!"rev"), (c!"23"))] none [
    l (c!"ёлочка") [g (c!"NOUN"), g (c!"inan"), g (c!"femn")],
    f (c!"ёлочка") [g (c!"sing"), g (c!"nomn")],
    f (c!"ёлочки") [g (c!"sing"), g (c!"gent")],
    f (c!"ёлочке") [g (c!"sing"), g (c!"datv")],
    f (c!"ёлочку") [g (c!"sing"), g (c!"accs")],
    f (c!"ёлочкой") [g (c!"sing"), g (c!"ablt")],
    f (c!"ёлочкою") [g (c!"sing"), g (c!"ablt"), g (c!"V-oy")],
    f (c!"ёлочке") [g (c!"sing"), g (c!"loct")],
    f (c!"ёлочки") [g (c!"plur"), g (c!"nomn")],
    f (c!"ёлочек") [g (c!"plur"), g (c!"gent")],
    f (c!"ёлочкам") [g (c!"plur"), g (c!"datv")],
    f (c!"ёлочки") [g (c!"plur"), g (c!"accs")],
    f (c!"ёлочками") [g (c!"plur"), g (c!"ablt")],
    f (c!"ёлочках") [g (c!"plur"), g (c!"loct")]],
  .mk (c!"lemma") [((c!"id"), (c!"1928")), ((c!"rev"), (c!"1928"))] none [
    l (c!"абсурдно") [g (c!"ADVB")],
    f (c!"абсурдно") []],
  .mk (c!"lemma") [((c!"id"), (c!"1929")), ((c!"rev"), (c!"1929"))] none [
    l (c!"абсурдность") [g (c!"NOUN"), g (c!"inan"), g (c!"femn")],
    f (c!"абсурдность") [g (c!"sing"), g (c!"nomn")],
    f (c!"абсурдности") [g (c!"sing"), g (c!"gent")],
    f (c!"абсурдности") [g (c!"sing"), g (c!"datv")],
    f (c!"абсурдность") [g (c!"sing"), g (c!"accs")],
    f (c!"абсурдностью") [g (c!"sing"), g (c!"ablt")],
    f (c!"абсурдности") [g (c!"sing"), g (c!"loct")],
    f (c!"абсурдности") [g (c!"plur"), g (c!"nomn")],
    f (c!"абсурдностей") [g (c!"plur"), g (c!"gent")],
    f (c!"абсурдностям") [g (c!"plur"), g (c!"datv")],
    f (c!"абсурдности") [g (c!"plur"), g (c!"accs")],
    f (c!"абсурдностями") [g (c!"plur"), g (c!"ablt")],
    f (c!"абсурдностях") [g (c!"plur"), g (c!"loct")]],
  .mk (c!"lemma") [((c!"id"), (c!"1930")), ((c!"rev"), (c!"1930"))] none [
    l (c!"абсурдный") [g (c!"ADJF"), g (c!"Qual")],
    f (c!"абсурдный") [g (c!"masc"), g (c!"sing"), g (c!"nomn")],
    f (c!"абсурдного") [g (c!"masc"), g (c!"sing"), g (c!"gent")],
    f (c!"абсурдному") [g (c!"masc"), g (c!"sing"), g (c!"datv")],
    f (c!"абсурдного") [g (c!"anim"), g (c!"masc"), g (c!"sing"), g (c!"accs")],
    f (c!"абсурдный") [g (c!"inan"), g (c!"masc"), g (c!"sing"), g (c!"accs")],
    f (c!"абсурдным") [g (c!"masc"), g (c!"sing"), g (c!"ablt")],
    f (c!"абсурдном") [g (c!"masc"), g (c!"sing"), g (c!"loct")],
    f (c!"абсурдная") [g (c!"femn"), g (c!"sing"), g (c!"nomn")],
    f (c!"абсурдной") [g (c!"femn"), g (c!"sing"), g (c!"gent")],
    f (c!"абсурдной") [g (c!"femn"), g (c!"sing"), g (c!"datv")],
    f (c!"абсурдную") [g (c!"femn"), g (c!"sing"), g (c!"accs")],
    f (c!"абсурдной") [g (c!"femn"), g (c!"sing"), g (c!"ablt")],
    f (c!"абсурдною") [g (c!"femn"), g (c!"sing"), g (c!"ablt"), g (c!"V-oy")],
    f (c!"абсурдной") [g (c!"femn"), g (c!"sing"), g (c!"loct")],
    f (c!"абсурдное") [g (c!"neut"), g (c!"sing"), g (c!"nomn")],
    f (c!"абсурдного") [g (c!"neut"), g (c!"sing"), g (c!"gent")],
    f (c!"абсурдному") [g (c!"neut"), g (c!"sing"), g (c!"datv")],
    f (c!"абсурдное") [g (c!"neut"), g (c!"sing"), g (c!"accs")],
    f (c!"абсурдным") [g (c!"neut"), g (c!"sing"), g (c!"ablt")],
    f (c!"абсурдном") [g (c!"neut"), g (c!"sing"), g (c!"loct")],
    f (c!"абсурдные") [g (c!"plur"), g (c!"nomn")],
    f (c!"абсурдных") [g (c!"plur"), g (c!"gent")],
    f (c!"абсурдным") [g (c!"plur"), g (c!"datv")],
    f (c!"абсурдных") [g (c!"anim"), g (c!"plur"), g (c!"accs")],
    f (c!"абсурдные") [g (c!"inan"), g (c!"plur"), g (c!"accs")],
    f (c!"абсурдными") [g (c!"plur"), g (c!"ablt")],
    f (c!"абсурдных") [g (c!"plur"), g (c!"loct")]],
  .mk (c!"lemma") [((c!"id"), (c!"1931")), ((c!"rev"), (c!"1931"))] none [
    l (c!"абсурден") [g (c!"ADJS"), g (c!"Qual")],
    f (c!"абсурден") [g (c!"masc"), g (c!"sing")],
    f (c!"абсурдна") [g (c!"femn"), g (c!"sing")],
    f (c!"абсурдно") [g (c!"neut"), g (c!"sing")],
    f (c!"абсурдны") [g (c!"plur")]]]

def lemmata3 : List Elem := [
  .mk (c!"lemma") [((c!"id"), (c!"1932")), ((c!"rev"), (c!"1932"))] none [
    l (c!"абсурднее") [g (c!"COMP"), g (c!"Qual")],
    f (c!"абсурднее") [],
    f (c!"абсурдней") [g (c!"V-ej")],
    f (c!"поабсурднее") [g (c!"Cmp2")],
    f (c!"поабсурдней") [g (c!"Cmp2"), g (c!"V-ej")]],
  .mk (c!"lemma") [((c!"id"), (c!"2000")), ((c!"rev"), (c!"2000"))] none [
    l (c!"а") [],
    f (c!"а") [g (c!"ADVB")]],
  .mk (c!"lemma") [((c!"id"), (c!"111111")), ((c!"rev"), (c!"111111"))] none [
    l (c!"словобезинформации") [],
    f (c!"словобезинформации") []],
  .mk (c!"lemma") [((c!"id"), (c!"38632")), ((c!"rev"), (c!"38632"))] none [
    l (c!"ванька-встанька") [g (c!"NOUN"), g (c!"anim"), g (c!"masc")],
    f (c!"ванька-встанька") [g (c!"nomn"), g (c!"sing")],
    f (c!"ваньки-встаньки") [g (c!"sing"), g (c!"gent")],
    f (c!"ваньке-встаньке") [g (c!"sing"), g (c!"datv")],
    f (c!"ваньку-встаньку") [g (c!"sing"), g (c!"accs")],
    f (c!"ванькой-встанькой") [g (c!"sing"), g (c!"ablt")],
    f (c!"ванькою-встанькою") [g (c!"sing"), g (c!"ablt"), g (c!"V-oy")],
    f (c!"ваньке-встаньке") [g (c!"sing"), g (c!"loct")],
    f (c!"ваньки-встаньки") [g (c!"plur"), g (c!"nomn")],
    f (c!"ванек-встанек") [g (c!"plur"), g (c!"gent")],
    f (c!"ванькам-встанькам") [g (c!"plur"), g (c!"datv")],
    f (c!"ванек-встанек") [g (c!"plur"), g (c!"accs")],
    f (c!"ваньками-встаньками") [g (c!"plur"), g (c!"ablt")],
    f (c!"ваньках-встаньках") [g (c!"plur"), g (c!"loct")]],
  .mk (c!"lemma") [((c!"id"), (c!"222222")), ((c!"rev"), (c!"222222"))] none [],
  .mk (c!"lemma") [((c!"id"), (c!"390020")), ((c!"rev"), (c!"394057"))] none [
    l (c!"ц") [g (c!"NOUN"), g (c!"anim"), g (c!"GNdr"), g (c!"Ms-f"), g (c!"Sgtm"), g (c!"Fixd"), g (c!"Abbr"), g (c!"Name"), g (c!"Init")],
    f (c!"ц") [g (c!"sing"), g (c!"nomn")],
    f (c!"ц") [g (c!"sing"), g (c!"gent")],
    f (c!"ц") [g (c!"sing"), g (c!"datv")],
    f (c!"ц") [g (c!"sing"), g (c!"accs")],
    f (c!"ц") [g (c!"sing"), g (c!"ablt")],
    f (c!"ц") [g (c!"sing"), g (c!"loct")]]]

def linktypes0 : List Elem := [
  .mk (c!"type") [((c!"id"), (c!"1"))] (some (c!"ADJF-ADJS")) [],
  .mk (c!"type") [((c!"id"), (c!"2"))] (some (c!"ADJF-COMP")) [],
  .mk (c!"type") [((c!"id"), (c!"3"))] (some (c!"INFN-VERB")) [],
  .mk (c!"type") [((c!"id"), (c!"4"))] (some (c!"INFN-PRTF")) [],
  .mk (c!"type") [((c!"id"), (c!"5"))] (some (c!"INFN-GRND")) [],
  .mk (c!"type") [((c!"id"), (c!"6"))] (some (c!"PRTF-PRTS")) [],
  .mk (c!"type") [((c!"id"), (c!"7"))] (some (c!"NAME-PATR")) [],
  .mk (c!"type") [((c!"id"), (c!"8"))] (some (c!"PATR_MASC-PATR_FEMN")) []]

def linktypes1 : List Elem := [
  .mk (c!"type") [((c!"id"), (c!"9"))] (some (c!"SURN_MASC-SURN_FEMN")) [],
  .mk (c!"type") [((c!"id"), (c!"10"))] (some (c!"SURN_MASC-SURN_PLUR")) [],
  .mk (c!"type") [((c!"id"), (c!"11"))] (some (c!"PERF-IMPF")) [],
  .mk (c!"type") [((c!"id"), (c!"12"))] (some (c!"ADJF-SUPR_ejsh")) [],
  .mk (c!"type") [((c!"id"), (c!"13"))] (some (c!"PATR_MASC_FORM-PATR_MASC_INFR")) [],
  .mk (c!"type") [((c!"id"), (c!"14"))] (some (c!"PATR_FEMN_FORM-PATR_FEMN_INFR")) [],
  .mk (c!"type") [((c!"id"), (c!"15"))] (some (c!"ADJF_eish-SUPR_nai_eish")) [],
  .mk (c!"type") [((c!"id"), (c!"16"))] (some (c!"ADJF-SUPR_ajsh")) []]

def linktypes2 : List Elem := [
  .mk (c!"type") [((c!"id"), (c!"17"))] (some (c!"ADJF_aish-SUPR_nai_aish")) [],
  .mk (c!"type") [((c!"id"), (c!"18"))] (some (c!"ADJF-SUPR_suppl")) [],
  .mk (c!"type") [((c!"id"), (c!"19"))] (some (c!"ADJF-SUPR_nai")) [],
  .mk (c!"type") [((c!"id"), (c!"20"))] (some (c!"ADJF-SUPR_slng")) [],
  .mk (c!"type") [((c!"id"), (c!"21"))] (some (c!"FULL-CONTRACTED")) [],
  .mk (c!"type") [((c!"id"), (c!"22"))] (some (c!"NORM-ORPHOVAR")) [],
  .mk (c!"type") [((c!"id"), (c!"23"))] (some (c!"CARDINAL-ORDINAL")) [],
  .mk (c!"type") [((c!"id"), (c!"24"))] (some (c!"SBST_MASC-SBST_FEMN")) []]

def linktypes3 : List Elem := [
  .mk (c!"type") [((c!"id"), (c!"25"))] (some (c!"SBST_MASC-SBST_PLUR")) [],
  .mk (c!"type") [((c!"id"), (c!"26"))] (some (c!"ADVB-COMP")) [],
  .mk (c!"type") [((c!"id"), (c!"27"))] (some (c!"ADJF_TEXT-ADJF_NUMBER")) []]

def links0 : List Elem := [
  .mk (c!"link") [((c!"id"), (c!"1")), ((c!"from"), (c!"5")), ((c!"to"), (c!"6")), ((c!"type"), (c!"1"))] none [],
  .mk (c!"link") [((c!"id"), (c!"2")), ((c!"from"), (c!"5")), ((c!"to"), (c!"7")), ((c!"type"), (c!"2"))] none [],
  .mk (c!"link") [((c!"id"), (c!"3")), ((c!"from"), (c!"9")), ((c!"to"), (c!"8")), ((c!"type"), (c!"3"))] none [],
  .mk (c!"link") [((c!"id"), (c!"4")), ((c!"from"), (c!"9")), ((c!"to"), (c!"10")), ((c!"type"), (c!"4"))] none [],
  .mk (c!"link") [((c!"id"), (c!"5")), ((c!"from"), (c!"9")), ((c!"to"), (c!"12")), ((c!"type"), (c!"5"))] none [],
  .mk (c!"link") [((c!"id"), (c!"6")), ((c!"from"), (c!"10")), ((c!"to"), (c!"11")), ((c!"type"), (c!"6"))] none [],
  .mk (c!"link") [((c!"id"), (c!"7")), ((c!"from"), (c!"14")), ((c!"to"), (c!"13")), ((c!"type"), (c!"3"))] none [],
  .mk (c!"link") [((c!"id"), (c!"11")), ((c!"from"), (c!"19")), ((c!"to"), (c!"18")), ((c!"type"), (c!"3"))] none []]

def links1 : List Elem := [
  .mk (c!"link") [((c!"id"), (c!"12")), ((c!"from"), (c!"19")), ((c!"to"), (c!"20")), ((c!"type"), (c!"4"))] none [],
  .mk (c!"link") [((c!"id"), (c!"13")), ((c!"from"), (c!"19")), ((c!"to"), (c!"21")), ((c!"type"), (c!"5"))] none [],
  .mk (c!"link") [((c!"id"), (c!"1742")), ((c!"from"), (c!"1930")), ((c!"to"), (c!"1931")), ((c!"type"), (c!"1"))] none [],
  .mk (c!"link") [((c!"id"), (c!"1743")), ((c!"from"), (c!"1930")), ((c!"to"), (c!"1932")), ((c!"type"), (c!"2"))] none [],
  .mk (c!"link") [((c!"id"), (c!"1800")), ((c!"from"), (c!"1929")), ((c!"to"), (c!"2000")), ((c!"type"), (c!"21"))] none []]

/-- The document. -/
def doc : Elem := .mk (c!"dictionary") [((c!"version"), (c!"0.92")), ((c!"revision"), (c!"389440"))] (some (c!"\n")) [
  .mk (c!"grammemes") [] (some (c!"\n    ")) (grammemes0 ++ grammemes1 ++ grammemes2 ++ grammemes3 ++ grammemes4 ++ grammemes5 ++ grammemes6 ++ grammemes7 ++ grammemes8 ++ grammemes9 ++ grammemes10 ++ grammemes11 ++ grammemes12 ++ grammemes13 ++ grammemes14),
  .mk (c!"restrictions") [] (some (c!"\n    ")) (restrictions0 ++ restrictions1 ++ restrictions2),
  .mk (c!"lemmata") [] (some (c!"\n    ")) (lemmata0 ++ lemmata1 ++ lemmata2 ++ lemmata3),
  .mk (c!"link_types") [] (some (c!"\n")) (linktypes0 ++ linktypes1 ++ linktypes2 ++ linktypes3),
  .mk (c!"links") [] (some (c!"\n    ")) (links0 ++ links1)]

end Verif.ToyDict
