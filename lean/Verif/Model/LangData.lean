/-
Language constants copied from /repo/pymorphy2/lang (generated once from the source files).
-/
import Verif.Base

namespace Verif

/-- lang/ru/config.py:21-166 `KNOWN_PREFIXES` -/
def ruKnownPrefixes : List Str := [
  c!"авиа", c!"авто", c!"аква", c!"анти", c!"анти-", c!"антропо", c!"архи", c!"арт", c!"арт-", c!"астро",
  c!"аудио", c!"аэро", c!"без", c!"бес", c!"био", c!"вело", c!"взаимо", c!"вне", c!"внутри", c!"видео",
  c!"вице-", c!"вперед", c!"впереди", c!"гекто", c!"гелио", c!"гео", c!"гетеро", c!"гига", c!"гигро",
  c!"гипер", c!"гипо", c!"гомо", c!"дву", c!"двух", c!"де", c!"дез", c!"дека", c!"деци", c!"дис", c!"до",
  c!"евро", c!"за", c!"зоо", c!"интер", c!"инфра", c!"квази", c!"квази-", c!"кило", c!"кино", c!"контр",
  c!"контр-", c!"космо", c!"космо-", c!"крипто", c!"лейб-", c!"лже", c!"лже-", c!"макро", c!"макси",
  c!"макси-", c!"мало", c!"меж", c!"медиа", c!"медиа-", c!"мега", c!"мета", c!"мета-", c!"метео", c!"метро",
  c!"микро", c!"милли", c!"мини", c!"мини-", c!"моно", c!"мото", c!"много", c!"мульти", c!"нано", c!"нарко",
  c!"не", c!"небез", c!"недо", c!"нейро", c!"нео", c!"низко", c!"обер-", c!"обще", c!"одно", c!"около",
  c!"орто", c!"палео", c!"пан", c!"пара", c!"пента", c!"пере", c!"пиро", c!"поли", c!"полу", c!"после",
  c!"пост", c!"пост-", c!"порно", c!"пра", c!"пра-", c!"пред", c!"пресс-", c!"противо", c!"противо-",
  c!"прото", c!"псевдо", c!"псевдо-", c!"радио", c!"разно", c!"ре", c!"ретро", c!"ретро-", c!"само",
  c!"санти", c!"сверх", c!"сверх-", c!"спец", c!"суб", c!"супер", c!"супер-", c!"супра", c!"теле", c!"тетра",
  c!"топ-", c!"транс", c!"транс-", c!"ультра", c!"унтер-", c!"штаб-", c!"экзо", c!"эко", c!"эндо",
  c!"эконом-", c!"экс", c!"экс-", c!"экстра", c!"экстра-", c!"электро", c!"энерго", c!"этно"]

/-- lang/ru/config.py:12 `INITIAL_LETTERS` (`set(letters)` is a set of one-character strings) -/
def ruInitialLetters : List Str := [
  c!"А", c!"Б", c!"В", c!"Г", c!"Д", c!"Е", c!"Ё", c!"Ж", c!"З", c!"И", c!"Й", c!"К", c!"Л", c!"М", c!"Н",
  c!"О", c!"П", c!"Р", c!"С", c!"Т", c!"У", c!"Ф", c!"Х", c!"Ц", c!"Ч", c!"Ш", c!"Щ", c!"Э", c!"Ю", c!"Я"]

/-- lang/ru/config.py:15 `PARTICLES_AFTER_HYPHEN` -/
def ruParticles : List Str := [
  c!"-то", c!"-ка", c!"-таки", c!"-де", c!"-тко", c!"-тка", c!"-с", c!"-ста"]

/-- lang/uk/_prefixes.py `KNOWN_PREFIXES`: the value the module computes (lines 1-495), including the upper-case entries -/
def ukKnownPrefixes : List Str := [
  c!"2D-", c!"2G-", c!"3D-", c!"3G-", c!"4D-", c!"4G-", c!"CAD-", c!"call-", c!"CD-", c!"CDMA-", c!"CFI-",
  c!"CNG-", c!"DDoS-", c!"DNS-", c!"DoS-", c!"DSL-", c!"dvd-", c!"e-", c!"fashion-", c!"FM-", c!"ftp-",
  c!"G-", c!"GMP-", c!"GPRS-", c!"GPS-", c!"grid-", c!"GSM-", c!"HD-", c!"HR-", c!"HSDPA-", c!"ID-",
  c!"IMEA-", c!"IP-", c!"IT-", c!"led-", c!"LCD-", c!"LNG-", c!"live-", c!"MLM-", c!"MTV-", c!"mp3-", c!"n-",
  c!"OSB-", c!"pdf-", c!"PhD-", c!"PIN-", c!"POS-", c!"pr-", c!"QR-", c!"R'n'B-", c!"R'N'B-", c!"R&B-",
  c!"R&D-", c!"s-", c!"sim-", c!"SOS-", c!"SPA-", c!"sms-", c!"TV-", c!"UMTS-", c!"USB-", c!"VIN-", c!"vip-",
  c!"VoIP-", c!"WAP-", c!"web-", c!"X-", c!"Y-", c!"аль-", c!"альфа-", c!"анти-", c!"АРВ-", c!"арт-",
  c!"аудіо-", c!"байк-", c!"байкер-", c!"бард-", c!"бас-", c!"бета-", c!"бізнес-", c!"бліц-", c!"блог-",
  c!"блок-", c!"блюз-", c!"бомж-", c!"бонус-", c!"ботокс-", c!"боулінг-", c!"брейк-", c!"бренд-",
  c!"бундес-", c!"вакуум-", c!"веб-", c!"велнес-", c!"ВІЛ-", c!"віп-", c!"віце-", c!"гала-", c!"гамма-",
  c!"гей-", c!"гейм-", c!"генерал-", c!"гештальт-", c!"ГМ-", c!"ГМО-", c!"гольф-", c!"гоп-", c!"горе-",
  c!"готик-", c!"гранд-", c!"ґранд-", c!"графіті-", c!"грид-", c!"грумінг-", c!"дайв-", c!"дайвінг-",
  c!"данс-", c!"даун-", c!"дельта-", c!"денс-", c!"дзен-", c!"джаз-", c!"диво-", c!"дизайн-", c!"дизель-",
  c!"долбі-", c!"допінг-", c!"ДОТС-", c!"драг-", c!"дрес-", c!"дубль-", c!"дурман-", c!"е-", c!"екіпаж-",
  c!"економ-", c!"експерт-", c!"екс-", c!"експрес-", c!"екстра-", c!"екстрим-", c!"екшн-", c!"еліт-",
  c!"ерзац-", c!"ескорт-", c!"євро-", c!"жлоб-", c!"зіц-", c!"зомбі-", c!"ЗПГ-", c!"івент-", c!"імідж-",
  c!"інвест-", c!"інді-", c!"інсентив-", c!"інтернет-", c!"інтим-", c!"інформ-", c!"історико-", c!"ІТ-",
  c!"ІЧ-", c!"йога-", c!"камер-", c!"кантрі-", c!"караоке-", c!"кастинг-", c!"квазі-", c!"кемпінг-",
  c!"кваліфайн-", c!"кібер-", c!"кітч-", c!"козак-", c!"коктейль-", c!"колл-", c!"комік-", c!"комікс-",
  c!"майстер-", c!"конгрес-", c!"консалтинг-", c!"контент-", c!"контр-", c!"конференц-", c!"концепт-",
  c!"кредит-", c!"кремль-", c!"крос-", c!"КСВ-", c!"лайт-", c!"лаунж-", c!"лейб-", c!"лесбі-", c!"лгбт-",
  c!"лже-", c!"ліберал-", c!"лор-", c!"люкс-", c!"люмпен-", c!"максі-", c!"маркетинг-", c!"мас-", c!"мега-",
  c!"медіа-", c!"менеджмент-", c!"метал-", c!"міді-", c!"мікс-", c!"мілітарі-", c!"міні-", c!"МММ-",
  c!"модерн-", c!"мульт-", c!"мультимедіа-", c!"напів-", c!"націонал-", c!"нація-", c!"НВЧ-", c!"нокаут-",
  c!"ностальжі-", c!"нью-", c!"обер-", c!"онлайн-", c!"офіс-", c!"ОУН-", c!"панк-", c!"ПВХ-", c!"ПЕТ-",
  c!"піар-", c!"пін-", c!"плейбек-", c!"ПЛР-", c!"покер-", c!"поп-", c!"пост-", c!"поттер-",
  c!"постпродакшн-", c!"прайм-", c!"прайс-", c!"прем'єр-", c!"преміум-", c!"прес-", c!"приват-",
  c!"продакшн-", c!"профі-", c!"псевдо-", c!"реаліті-", c!"реггі-", c!"резус-", c!"рейв-", c!"рентген-",
  c!"рейтинг-", c!"реп-", c!"ретро-", c!"референс-", c!"референц-", c!"ритм-", c!"РК-", c!"рок-",
  c!"ротарі-", c!"РХБ-", c!"салон-", c!"саунд-", c!"своп-", c!"секонд-", c!"секс-", c!"сексі-", c!"сервіс-",
  c!"скейт-", c!"скінхед-", c!"скретч-", c!"слем-", c!"смарт-", c!"смс-", c!"СНІД-", c!"соціал-", c!"СОС-",
  c!"соул-", c!"софт-", c!"спа-", c!"спам-", c!"спаринг-", c!"СПГ-", c!"спорт-", c!"спрей-", c!"стартап-",
  c!"стоп-", c!"стрес-", c!"стрип-", c!"стриптиз-", c!"супер-", c!"тайм-", c!"талант-", c!"тандем-",
  c!"танц-", c!"тату-", c!"ТБ-", c!"телеком-", c!"тест-", c!"топ-", c!"топлес-", c!"торент-", c!"тренд-",
  c!"тренінг-", c!"треш-", c!"триб'ют-", c!"трофі-", c!"тур-", c!"тюнинг-", c!"УЗД-", c!"ура-", c!"УФ-",
  c!"фан-", c!"фест-", c!"фешн-", c!"фітнес-", c!"флеш-", c!"ФМ-", c!"фолк-", c!"фольк-", c!"хеш-", c!"цар-",
  c!"чудо-", c!"хайтек-", c!"хард-", c!"хіпі-", c!"хостел-", c!"чіп-", c!"шейпінг-", c!"шенген-", c!"шеф-",
  c!"шопінг-", c!"шоу-", c!"штаб-", c!"юніор-", c!"авіа", c!"авто", c!"аква", c!"анти", c!"антропо",
  c!"архі", c!"арт", c!"астро", c!"аудіо", c!"аеро", c!"без", c!"біо", c!"вело", c!"взаємо", c!"поза",
  c!"внутрішньо", c!"відео", c!"вперед", c!"гекто", c!"гелио", c!"гео", c!"гетеро", c!"гіга", c!"гігро",
  c!"гіпер", c!"гіпо", c!"гомо", c!"дво", c!"де", c!"дез", c!"деци", c!"дис", c!"до", c!"євро", c!"за",
  c!"зоо", c!"інтер", c!"інфра", c!"квазі", c!"кіло", c!"кіно", c!"контр", c!"космо", c!"космо-", c!"крипто",
  c!"лже", c!"макро", c!"мало", c!"між", c!"медіа", c!"мега", c!"мета", c!"мета-", c!"метео", c!"метро",
  c!"мікро", c!"мілі", c!"міні", c!"моно", c!"мото", c!"багато", c!"нано", c!"нарко", c!"не", c!"нейро",
  c!"нео", c!"низько", c!"загально", c!"навколо", c!"орто", c!"палео", c!"пан", c!"пара", c!"пента",
  c!"пере", c!"піро", c!"полі", c!"полу", c!"після", c!"пост", c!"порно", c!"пра", c!"пра-", c!"перед",
  c!"проти", c!"проти-", c!"прото", c!"псевдо", c!"радіо", c!"разно", c!"ре", c!"ретро", c!"само", c!"санти",
  c!"над", c!"над-", c!"спец", c!"суб", c!"супер", c!"теле", c!"тетра", c!"транс", c!"транс-", c!"ультра",
  c!"унтер-", c!"екзо", c!"еко", c!"ендо", c!"екс", c!"екстра", c!"електро", c!"енерго", c!"етно"]

/-- lang/uk/config.py `INITIAL_LETTERS` -/
def ukInitialLetters : List Str := [
  c!"А", c!"Б", c!"В", c!"Г", c!"Ґ", c!"Д", c!"Е", c!"Є", c!"Ж", c!"З", c!"І", c!"Ї", c!"Й", c!"К", c!"Л",
  c!"М", c!"Н", c!"О", c!"П", c!"Р", c!"С", c!"Т", c!"У", c!"Ф", c!"Х", c!"Ц", c!"Ч", c!"Ш", c!"Щ", c!"Ю",
  c!"Я"]

/-- lang/uk/config.py `PARTICLES_AFTER_HYPHEN` -/
def ukParticles : List Str := [
  c!"-но", c!"-таки", c!"-бо", c!"-от"]

/-- lang/ru/config.py:18 `CHAR_SUBSTITUTES` -/
def ruSubst : Char → List Char := fun c => if c = 'е' then ['ё'] else []

/-- lang/uk/config.py `CHAR_SUBSTITUTES` -/
def ukSubst : Char → List Char := fun c => if c = 'г' then ['ґ'] else []

end Verif
