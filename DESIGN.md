# Formal model of kmike/pymorphy2 in Lean 4 — design

Source: `/repo` (pymorphy2 at the pinned commit).  Model and proofs: `/verif/lean/Verif`.
Properties: `/verif/properties.jsonl` (C01…).  Status per property: `/verif/MANIFEST.json`.

## 1. How the code is modelled

* Python strings are `List Char` (`Str`), so `len`, slicing and iteration are exact at code point level.
* Python exceptions are values of `Except PyErr α`; a `for` loop is structural recursion or a fold; a `set`
  that is only tested for membership is a list of keys; a set of grammemes is a `Finset Str`.
* Where CPython's set/dict iteration order is unspecified the model takes the order as a parameter, and the
  theorem quantifies over it.
* Facts that live in the interpreter (`str.lower`, `isalpha`, `unicodedata.name`, `int()`, `float()`…) are fields
  of a structure `Env`; a theorem that needs a law about them says so in a hypothesis (`Env.Laws…`) and a
  concrete `Env` meeting the law is exhibited.
* Scores are elements of an abstract `Score` type: structural theorems hold for every `Score` (IEEE doubles
  included); theorems that speak about arithmetic are about exact rationals (`Rat`) and say so.  C73 repeats the
  arithmetic statements for doubles (`Dbl`: rationals with 53 significant bits, round to nearest, ties to even;
  the exponent is unbounded) and proves that the two analyzers answer alike.  C100 does so once more for IEEE binary64
  with its exponent range (`B64`: gradual underflow, overflow, infinities, NaN; only signed zero is not modelled).
* Recursion through `morph.parse`/`morph.tag` is modelled by an open recursion `Rec` closed by a fuel argument
  (the interpreter's remaining recursion budget, counted in nested `morph.parse` calls).  It is proved that the
  result does not depend on the fuel once it exceeds the length of the lower-cased word.
* A bound analyzer unit occurs inside `methods_stack`; the model stores an object identifier plus the immutable
  data of the unit (`UObj`), so `assert analyzer is self` is modelled by comparing identifiers.

## 2. Trusted base

* Lean 4.33 kernel; axioms at most `propext`, `Classical.choice`, `Quot.sound` (checked by `vcheck`); `AXIOMS.md`
  (generated by `tools/axioms.py`) lists the axioms of each theorem.
* My reading of the Python code, cited definition by definition.
* The contract of third-party libraries: `dawg`/`dawg_python` (a DAWG is a finite map/multimap from strings;
  `similar_items`, `prefixes`, `iteritems`, `get` behave as written in `Verif/Model/Dict.lean`), `json`, `struct`,
  `array`, `heapq.nlargest(1, ·)` = first maximum, `sorted` = stable sort, `re`, `lru_cache` (a cache that stores only
  computed values), `threading.RLock` (mutual exclusion), pickling via `__reduce__`.
* Not modelled: performance, memory, logging, warnings' delivery, `docopt`, file system errors other than "missing"
  and "torn", the parsers behind `lxml`/`opencorpora-tools`/`nltk` (their contracts are stated where used), Python 2
  branches, benchmarks, and of the
  experimental `CyrillicOpencorporaTag` everything except what saving and loading dictionaries do with it (C64).

### Modelling notes, module by module

* `Model/Tag`, `Model/TagInit`, `Model/Attrs` (the twelve named attributes) — the tag class is a value `Cls` (known grammemes, incompatibility, alias tables, …);
  `init_cls` is a function on it.  `Model/Caches` numbers tag objects and models the lazily filled attributes.
* `Model/Typed` — the values of the named attributes as `TypedGrammeme` strings, for both values of the class switch
  `typed_grammemes`.
* `Model/Dict` — a loaded dictionary (`opencorpora_dict/wrapper.py`, `dawg.py`): DAWGs are finite multimaps in key
  order; paradigms are flat lists of numbers exactly as on disk.
  `Model/DawgKeys` has the documented byte layout of the word files; C108 proves that it meets the contract of the multimap.
* `Model/Units`, `Model/Parse`, `Model/Analyzer` — `units/*.py`, `analyzer.py`.
* `Model/Inflect` — `inflect`, `_inflect`, `make_agree_with_number` (ints; `Model/Numeral`: fractions and floats), `lexeme`, `normalized`.
* `Model/Compile`, `Model/Preprocess`, `Model/Xml` — `opencorpora_dict/{compile,preprocess,parse}.py`.  Paradigm ids are
  positions in the id table; `Counter`s are lists of increments read by `count`; the DAWG builder is abstracted to
  "the finite map of the pairs given".  `Fail.hangs` stands for a loop that never ends (adequacy: `c31_hang_adequate`).
  XML: well-formed documents as event trees, a flag `lx` tells lxml's from ElementTree's clearing of elements; comments
  and Python 2 decoding are not modelled.
* `Model/Storage` — a folder is a map from structured file names to file states (`good`, `broken`); a write interrupted
  half way leaves `broken`; `json`, `struct`, `array` are byte-level where the format depends on them (paradigms.array) and
  value-level otherwise; `Model/JsonText` has the bytes of JSON files too, and C92 proves what `Model/Storage` takes for granted of them.
  Grammeme descriptions are dropped.
* `Model/Tokens` — `isWord` (the regex class `\w`) is a parameter.  `Model/Case` — the case methods of `str` are parameters
  with stated laws.  `Model/Cli` — the `parse` command; `lru_cache` is third party, number formatting is a parameter.
* `Model/Prob` — exact rationals; the contracts of NLTK's `ConditionalFreqDist`/Lidstone and of `CorpusReader` are written out.
* `Model/Construct` — `MorphAnalyzer.__init__`, `__reduce__`, language and dictionary choice; warnings are in
  `Model/Warn`, result-type wrapping in `Model/Results`; a non-string language code raises `TypeError` early.
* `Model/Conc` — threads.  A step is one attribute/dict/set access (atomic under the GIL); `Tag(...)` construction and filter
  reads are one access; adding the user's extra grammemes is one step; the `RLock` is an owner cell (no nested
  construction occurs); dictionary files do not change during construction.
* `Model/Cyr` — the two tag classes of the registry; the Cyrillic class's own indices, incompatibilities and
  non-productive grammemes, which only Cyrillic tags read, are not modelled; registry order is insertion order
  (Cyrillic first); grammeme names are not empty.
* `Model/Convert` — `convert_to_pymorphy2`: reading, preprocessing, compiling, saving, and what stays on disk when one of them
  fails.  `os.mkdir` fails only if the folder exists; a grammeme without name or alias text stops the model (Python goes on
  with `None`); Python's `int` on ids is a parameter.
* `Model/Main` — `cli.main` for `parse` and `dict meta`.  docopt (third party) is represented by its result, a record; `float`, `int`, `%0.3f` and
  `\w` are parameters (`Model/Format` is `%0.3f` for C103 and C104); `dict mem_usage` is not modelled.  `Model/Stream` is the same command one event at a time, with input that may be endless or fail and output that may fail (C102).
* `Model/Objects` — unit objects in a heap (attributes, `__init__`, `clone`, `init`, `__repr__`), lists they refer to, analyzers that share them.
  Writing to attributes from outside is not modelled; attributes computed from the dictionary alone are not stored; addresses of objects a failing
  constructor made are reused.  C69 relates this to the value-level `UnitSpec`/`UnitCfg` of the other modules.
* **Ext** `DAWG.prefixes` of the C extension is a trusted contract (the non-empty keys that start the word, shortest first); `dawg` and
  `dawg_python` are otherwise assumed to read files alike.
* `Model/UnicodeData`, `Model/Cpython` — the string functions of CPython 3.11 the analyzer calls (`str.lower`, `str.isalpha`, `str.isspace`, `unicodedata.name`
  and `category`, `int()`, `float()`, `re.IGNORECASE` on the Roman letters), used only in C80 and later: elsewhere the interpreter is a parameter `Env`.  CPython 3.11 itself lacks `inspect.getargspec`, which cloning units calls (C91): the theorems that mention the 3.11 functions are about an interpreter (or process) that has both.  The tables are
  generated by `tools/gen_unicode.py`; `tools/diff_cpython.py` compares all of it with the interpreter (1.25 million cases, no difference).  Lone surrogates are not
  in the model (`Char` has none), names are abbreviated to LATIN/OTHER, and the size limit of `float()` on texts of a billion digits is ignored.
* `Model/UnicodeCase`, `Model/CpythonCase` — the case methods `restore_capitalization` calls (`lower`, `upper`, `title`, `islower`, `isupper`, `istitle`), as CPython 3.11
  defines them; also not part of /repo, tables generated by `tools/gen_unicode_case.py`, compared with the interpreter by `tools/diff_case.py` (no difference).
* `Model/UnicodeWord`, `Model/CpythonTokens` — `\w` of CPython 3.11 (`tools/gen_unicode_word.py`; the generator compares `re` with `isalnum` and the underscore for all code points) and the tokenizer with it.
* `Model/OpenUnits` — the unit loop, `_init_units`, the inherited `tag` and `_ShapeAnalyzer` for units and estimators that are arbitrary functions (C110); the user's classes have no state
  of their own, and `get_lexeme`/`normalized` of such classes (other than shapes) are not modelled.
* The constants of `Model/LangData` and `Model/Tag` are compared with the literals in /repo by `tools/check_data.py` (parsed as text; no difference).

### Conformance of the model with the repository's tests

The modules `Conformance/*` run cases of /repo/tests on the model, on the CPython environment; the kernel evaluates them. They are evidence that the
model is the program (tests of the model), not proofs of properties, and no property rests on them.

- `Conformance/ToyDict` is /repo/dev_data/toy_dict.xml as a term (generated by tools/toydict.py).
- `Conformance/Convert`: test_opencorpora_dict.py: parsing the whole file; converting it and using the analyzer (with the lemmas the test looks at: the
  whole file needs too much memory in the kernel; evaluated outside the kernel it gives the same answers); all `_to_paradigm` cases.
- `Conformance/Tags`: test_tokenizers.py and the cases of test_tagset.py about values.
- `Conformance/Lexemes`: cases of test_lexemes.py (including человек-гора, гора-человек, лес-колдун), test_inflection.py and
  test_numeral_agreement.py with dictionaries compiled from the lexemes the cases need. All cases of the three files whose lexemes were written down
  (16 lexemes, 29 inflections, 67 agreements) were also evaluated outside the kernel with one dictionary and agree.

## 3. Plan per property

* **C01** parse() and tag() always terminate with at least one answer — model all units, analyzer loop with fuel; induction on length of the lower-cased word; negative witness for unnamed letters.
* **C02** tag() agrees with parse() — joint induction on fuel of parse/tag with the invariant "every seen key has its tag in the result"; dictionary group: map equality.
* **C03** A parse result is a spelling of the input word — inductive derivation predicate per unit, induction on it; spec `Spells` (pointwise relation).
* **C04** Parse.is_known is consistent with MorphAnalyzer.word_is_known — from C03 + variant transitivity; dictionary unit first.
* **C05** Dictionary look-up is sound and complete up to substitutions — spec `Spells` vs. recursive enumeration `variants`; membership equivalence and no duplicates.
* **C06** Unit groups: the first group that answers gives the whole answer — induction over the unit list; spec in terms of the list of groups.
* **C07** Closed word classes are never predicted — case analysis of unit functions.
* **C08** Predicted parses are not repeated — invariant on seen keys; Nodup.
* **C09** normal_forms() lists each normal form once, in parse order — fold invariant; sublist/nodup/membership spec.
* **C10** The UNKN answer is given only when nothing else matches — run loop invariant: seen nonempty implies result nonempty.
* **C11** Order and normalisation of scores — merge sort lemmas; rational arithmetic; concrete counterexample to the documented order.
* **C12** Scores are probabilities — rational invariants through the recursion.
* **C13** The lexeme is the same whichever of its forms it is asked from — structural recursion over methods stacks, induction on derivations.
* **C14** A parsed form belongs to its own lexeme — same; with witnesses of failure.
* **C15** normalized is the first form of the lexeme and spells normal_form — same; with witnesses of failure.
* **C16** All forms of a lexeme share one normal form — same.
* **C17** inflect() returns the best matching form of the lexeme, or None exactly when there is none — model of _inflect with an arbitrary similarity order; first-maximum lemma.
* **C18** inflect() rejects misspelled grammemes — from the model of updated_grammemes / fix_rare_cases.
* **C19** inflecting into what the form already is changes nothing — finite-set cardinality inequality, exact arithmetic.
* **C20** Agreement with numerals — integer arithmetic (omega) on Python modulo.
* **C21** Initials: gender is kept for first names, patronymics have one lexeme — unit functions of abbreviations.py for arbitrary letters.
* **C22** Membership test in a tag never hides a typo — tag class state machine, membership functions.
* **C23** Tag construction, equality, ordering and pickling are coherent — split functions, lexicographic order on lists of strings.
* **C24** updated_grammemes adds what is required and removes what is incompatible — fold over an arbitrary enumeration of the required set.
* **C25** lat2cyr and cyr2lat are inverse — token-wise translation, split/join inverse lemmas.
* **C26** Re-loading dictionaries: what depends on history and what does not — state machine over arbitrary sequences of loads; witnesses of leakage.
* **C27** Category attributes of a tag — finite categories; arbitrary choice function for next(iter(set)).
* **C28** Compiling a dictionary loses nothing — compile_parsed_dict as a fold; invariants of the id tables.
* **C29** Compiling a dictionary invents nothing — same invariants.
* **C30** A compiled dictionary is structurally sound — same invariants + prediction data invariants.
* **C31** Joining linked lexemes keeps every form — move loop as partial function with fuel; rank argument for acyclic links; witness for cycles.
* **C32** Tag simplification does not change what a tag means — tag spelling table invariant.
* **C33** Paradigm extraction is invertible — find/index lemmas for substrings.
* **C34** longest_common_substring is correct — loop invariant over (i,j).
* **C35** largest_elements is correct — order statistics on distinct keys.
* **C36** paradigms.array round trip — byte level codec, induction on list of paradigms.
* **C37** Dictionary format check — string split spec.
* **C38** Metadata survives update — ordered dictionary update.
* **C39** P(t|w) storage is faithful to 1e-6 and unambiguous — floor arithmetic on rationals; key injectivity.
* **C40** word_splits enumerates exactly the allowed splits — list arithmetic.
* **C41** iter_known_word_parses enumerates the dictionary — filter over DAWG entries.
* **C42** Prefix matching — filter + stable sort by length.
* **C43** The tokenizer loses nothing but whitespace — structural tokenizer model; induction on text.
* **C44** Caches never change the output — cache state machine; any history, any eviction policy.
* **C45** Roman numbers — recogniser vs. generator of numerals; digit-wise argument.
* **C46** Shape predicates — list quantifiers.
* **C47** restore_capitalization only changes case — split/join lemmas; case laws in Env.
* **C48** Pickling an analyzer — constructor-argument model, __reduce__ model.
* **C49** Choice of dictionary and language — decision functions.
* **C50** Constructing analyzers concurrently — interleaving semantics with a lock; reduction to sequential order; witness for an unlocked reader.
* **C51** Using one analyzer from several threads — interleaving semantics of lazily filled caches; an inductive invariant "every filled slot holds the pure value"; witnesses for the Cyrillic caches.
* **C52** Hyphenated words — unit function spec.
* **C53** Letter case does not matter for words — unit functions compared on two spellings, induction on the unit list.
* **C54** Memoised decorator respects a pre-filled cache — state machine over call histories.
* **C55** Lexeme extraction from XML — list functions over an abstract XML element.
* **C56** A saved dictionary loads as compiled — file map model; round trip of each file, composition; exact failure condition.
* **C57** Crash while saving — every prefix of the sequence of writes, with a torn last file; witness of a mixture.
* **C58** What the parse command prints — the command as a stream function; induction on the token list; threshold monotonicity.
* **C59** Prediction by ending — soundness through the derivation predicate, completeness through the unit loop; spec `Spec/Predict`.
* **C60** Prefix removal — same technique.
* **C61** Particle removal and the adverb rule — same technique.
* **C62** Scores of the default analyzers before P(t|w) — score spec as an inductive relation over derivations, for the shipped configuration.
* **C63** P(t|w) estimation — the corpus is an arbitrary list of parsed sentences; exact rationals.
* **C64** The Cyrillic gramtab — the loop of replacements as a fold; a separability condition on names; class state of the registry.
* **C65** From the XML file to the analyzer — composition of C55, C32, C31, C28, C56, C49 over an arbitrary document; failed
  conversions by cases on where they stop.
* **C66** Prediction tables — a string-level spec (`Spec/Evidence`: observations, best guesses) against the id-level tables;
  invariants of the main loop for words and popularity; counting through an injective translation of observations to increments.
* **C67** Which sources compile — `Spec/Fits` counts distinct suffixes, tags, paradigms, forms and winning observations; each step of the
  compiler is shown to succeed iff its count is in range; then saving and conversion.  A document family witnesses the gap between the two limits.
* **C68** The command line — a record `Ready` says what the preparations must yield; the run is then C58's specification of every token
  (`Spec/Printed`), proved as an equivalence; failures by cases on where the run stops.
* **C69** Unit objects — refinement: cloning and binding objects in a heap agrees with the value-level model, for every heap reachable by a
  program (induction over actions); frame conditions as prefix relations on the heap.
* **C70** C extension — the unit loop with the DAWG prefix matcher (Model/Ext) equals the pure-Python one after removing empty prefixes: the two
  lists of splits differ by adjacent repeats only, which `seen_parses`/`seen_tags` absorb; induction on nested calls.
* **C71** Which rule answers — `Spec/Rules` states for each rule when it applies and what it answers (with literal letters and particles); each
  group of units is shown to implement its rule, and the first non-empty group is the first rule that applies.
* **C72** Lexemes of known words — C28/C29 (every entry comes from a lexeme all of whose forms are stored) with C05 (look-up) and the lexeme lemmas of C13.
* **C73** Double precision — `fl` rounds a rational to 53 bits; a simulation relates the exact and the double run unit by unit (scores related by: same sign, same order where the code compares), hence same analyses, order and errors; score bounds and the sum by error analysis of `fl`; `inflect` by separating distinct similarities (1/10 apart) from rounding errors.
* **C74** Order — `Spec/Order.lean` says for each rule of C71 in which order its results come (before P(t|w)); `StableBy` says what the probabilities change. Proved group by group, the prediction tables by one induction for the parse loop and the tag loop together, then carried to `parse`/`tag` as in C71.
* **C75** Attributes by name — `Model/Attrs.lean` models the twelve descriptors and their comparison; `Spec/Attributes.lean` lists the values of the categories independently. The equality of the two tables is decided per category, everything else follows from C27's laws for an arbitrary category and choice function.
* **C76** Calling the converter — `Model/ConvertCall.lean` adds to `Model/Convert` the test for the C extension, the merging of `compile_options` and the real metadata (`realInfo`); the call is shown to be the conversion of C65/C67 with the merged options, and the metadata theorem follows from C55 and C56.
* **C77** A list of known prefixes is a set of lower-case prefixes — `SameUnits` relates two lists of units; as in C70 the splits of the two lists agree up to adjacent repetitions, which `seen_parses`/`seen_tags` absorb; under `LowerStable` a prefix of a lower-cased word is in lower case.
* **C78** Nested calls: on which words, how deep, how many — a nested call on `x` is observed by making it raise: `CallsParse w x` says that whatever exception the call on `x` raises, `parse(w)` raises it; the recursive calls of the model go through the `Rec` argument of `parseStep`/`tagStep`, so the exception is injected there. `AtLeast` counts calls by a derivation tree. The exponential lower bound is for unknown words `небез…небез + t` (`Gibberish`), shown inhabited for the demo analyzer for every `k`.
* **C79** For known words the answer is exactly what the source dictionary says — C05 (entries of the table), C28/C29 (entries come from source lexemes) and the fact that the compiler gives a lexeme one paradigm number combine to a duplicate-free list of occurrences; locality follows as both answers enumerate the same occurrences; appended lexemes pass through `_join_lexemes` untouched.
* **C80** With the string functions of CPython 3.11: every string is analyzed, except that Tangut letters raise ValueError — a concrete `Env` (`Model/Cpython`) over generated Unicode 14.0 tables; the tables are checked once by the kernel (`lowerTable_ok`), stability of lower-casing follows character by character since the image of every character is left alone wherever it stands; the defect by running the units before the Latin one.
* **C81** Which words are numbers on CPython — a separate grammar (`Spec/Number`) proved equivalent to the scanners of `Model/Cpython` (integer scan by induction on the run of digits; underscores by segmenting the text at non-digits; other scripts by a translation to ASCII); then C71.
* **C82** restore_capitalization on CPython 3.11 — a concrete `CaseEnv` (`Model/CpythonCase`) over generated case tables; the tables are checked once by the kernel entry by entry (`Lemmas/CaseTables`: images are valid, final, fold to the same text, contain no hyphen), the laws of C47 follow by induction on the string; then the theorems of C47 hold without assumptions.
* **C83** Texts on CPython — `\w` as a table generated from the interpreter (`Model/UnicodeWord`); disjointness from white space and inclusion of letters and digits by kernel computation over the ranges, which discharges the assumption of C43; cutting by induction over `TokensOf`; marks by C71 (no rule but punctuation or the last one applies to them; predictions need four letters) and C80.
* **C84** Which forms inflect() can reach — From the characterization of `inflect` as a first maximum (C17): forms with the same grammemes have the same similarity and pass the same filter, so only the first of them can be a first maximum; a widest form is matched only by forms with the same grammemes. There and back by the lexeme symmetry of C13.
* **C85** End to end on CPython: from the XML file to the analyzed text — Composition: C65 (construction from the converted folder, forms found; now also that every grammeme of the lexemes is declared), C30 (soundness of compiled dictionaries), C80 and C83 (totality on CPython), C84 (inflection). The example converts and uses a small document under the CPython tables.
* **C86** Numbers in texts on CPython — C81's grammars restricted by the shape of tokens (no blanks; points, commas and plus signs are alone, C83); Roman numbers from C45 with the interpreter's case folding; digits are no letters by kernel computation over the tables.
* **C87** P(t|w) computed and stored in double precision — Model/ProbDbl repeats the arithmetic part of Model/Prob with doubles (C73's `Dbl`). Fractions with denominators up to 2^31 are apart by more than the rounding error, so comparing floats is comparing fractions; p*1000000 is an integer or at least 1/q away from one. Scores by C73 and C63.
* **C88** Adding P(t|w) to a dictionary — Model/AddProb: the call as a list of writes computed from the analyzer it constructs (with P(t|w) off) and double precision estimation (C87). Loading is shown to depend only on the files and metadata keys it reads; kills with the `Killed` relation of C57.
* **C89** Chains of operations on results — Inductive relation Obtained (chains of operations), invariant by induction on it. Needs: lexemes of forms (C13), first forms (C15), a new induction over derivations that every form of a lexeme normalizes to its first form, and that lexemeOf and normalizedOf do not look at scores (Lemmas/CoreEq, now generic over the score types; C73 gained c73_same_normalized).
* **C90** Answers do not depend on the hash seed — Sets are finite sets in the model except where the code iterates over one: there the model takes an enumeration (a list) or a choice function as argument, and C90 proves that the results are equal for all of them. All other uses of sets in the code are membership tests, inclusions, unions, differences and sizes.
* **C91** Interpreters without inspect.getargspec — `Model/Interp` repeats the construction with the interpreter as a parameter; induction over the list of units shows that it agrees with `construct` or stops at the first unit with an `__init__` of its own.
* **C92** JSON files down to the bytes — `Model/JsonText` is the writer (`ensure_ascii=False, indent=2`), the reader (scanner with fuel) and the UTF-8 codec; the reader and writer were compared with CPython on 12000 random inputs. Round trip by induction on the value for every following text; a text accepted as list or dict is accepted with the same rest when more follows, so a cut document that were accepted would leave a rest in the whole one. `RawDisk` has bytes instead of JSON values; `c92_killed` maps its crashes to those of `Killed` (C57), so the assumption made there (an unfinished JSON file is refused) is a theorem.
* **C93** Operations on results never fail — Unlike C89 nothing is asked about compounds, predicted words or paradigms with hyphens, so the chain may leave the lexeme. The proof is an invariant (`Sound`) of method stack, word, normal form and tag: it holds for all analyses (by induction on derivations), it implies that lexeme and normal form exist, and it holds again for all forms of the lexeme and for the normal form. Compounds with both parts inflected carry stacks (`Firm`) on which everything works whatever the word is; they need the word and the normal form to contain a hyphen, which every merged form does. `c93_agree` lists the grammemes `make_agree_with_number` may ask for.
* **C94** Values of attributes stand for grammemes — `Model/Typed` has strings with their types, `==` with Python's rule that the operand of the subclass is asked first, lookups in hash tables that compare all entries with the hash of the key, the set operations, and `_inflect`, `updated_grammemes`, `fix_rare_cases`, `numeral_agreement_grammemes` written with them. Refinement: each operation on sets of valid values gives the set of the characters, by induction on the entries; so the typed `inflect` is the `inflect` of `Model/Inflect`. Not modelled: the dict lookup of incompatible grammemes (by characters), and order comparisons.
* **C95** Which tags appear in answers — Proved in Props/C95 with Lemmas/AnswerTags. The inductive description of results (Lemmas/Deriv) records for the shape, adverb and unknown-word units that the tag is one of the unit's own; deriv_tag reads off where a tag comes from. An invariant on method stacks (the tags of the initials units in the stack satisfy T) is preserved by lexeme and normalized, for any predicate T that holds of the dictionary's tags (lexeme_in, normalized_in); c95_possible takes T = 'in the dictionary or in the list written out in nonDictionaryTags', c95_known takes T = 'all grammemes known' and shows that binding the units and loading the dictionary establish it (every tag was made by TagClass(...), which checks, and the set only grows while units are bound). c95_tag goes through C02. The examples show that each of the 31 tags does occur. The lemma also removed the hypothesis on the size of the tag of the result from C13, C89 and C93 (only the tags of the dictionary must be smaller than half a million grammemes).
* **C96** Only the relevant part of a dictionary matters — Proved in Props/C96 with Spec/Related (agreement of dictionaries; renumbering of stacks), Lemmas/Renumber and Lemmas/RenumLex. A simulation: each unit, run on a part of the word with corresponding `seen` sets and corresponding nested calls, gives corresponding results in both analyzers (the duplicate checks compare paradigm numbers, hence injectivity); the loop over the units, the probability estimator and the budgeted recursion preserve this, and nested calls only see parts of the word. For lexemes the invariant is that the dictionary forms in a methods stack are forms of the tables, which parse establishes and lexeme and normalized preserve. c96_grown instantiates the renumbering with the identity. Complements C79, which is about sources, known words, and answers up to order.
* **C97** No analysis is listed twice — Proved in Props/C97 by induction on the call budget: results of different units differ in the unit object of the outermost method (ids of bound units are distinct), and for each unit the results are distinct given that the nested calls list distinct stacks: look-ups because the variants of a word and the records of a key are distinct, prefix units because the splits have prefixes of different lengths, compounds because a pair of stacks (or a stack behind a fixed left part) determines the result, suffix predictions because equal stacks would give equal duplicate-check keys (C08). Initials share one stack and are told apart by their twelve tags; nested calls are on lower-case parts, which are never initials. c97_needs_distinct exhibits a dictionary with repeated records for which the claim fails.
* **C98** How much work an analysis is — Model/Cost is a copy of the analyzer in which every call of parse or tag is recorded in a log that survives exceptions; c98_recorded shows that erasing the log gives the analyzer of the other theorems. c98_bound: induction on the length of the word over the four (three) units that call back. c98_peelings: the log is computed by induction on the budget as one call per element of a duplicate-free list of peelings (Spec/Peel: Peels, afterPeeling). c98_direct, c98_predicted and c98_known (Props/C98b) compare the direct calls with the list directCalls of Spec/Peel, for words with hyphens too. c98_exponential exhibits 2^k peelings of недо^k ъъъ; c98_cpython discharges its hypotheses for the CPython string functions. Work inside one call (look-ups, suffix predictions) is not counted.
* **C99** The first analysis has the highest score, except for compounds and known prefixes — `c99_ru` and `c99_uk`: `Falling ps` for the first rule that applies (the rules of C71, `Rule.Falls` says which); every unit group is shown to give falling scores (constant scores per unit, the guess by ending sorted and at most 0.5 = the score of the unknown prefixes), and rescoring keeps them falling (C11). `c99_known_ru` is the case of known words, `c99_uniform_ru` the exact scores without data, `c99_cpython` discharges the side condition of the Ukrainian rule, `c99_prefixed_not_sorted` is the counterexample for known prefixes.
* **C100** Scores neither underflow nor overflow — Model/Binary64 is a third instance of the scores: finite rationals, infinities and NaN, rounded to nearest even with the last bit never below 2^-1074 and overflow at 2^1024. `BRel k` says that a binary64 number equals the double, is 0 or at least 2^-k, and is at most 1; each unit costs at most one bit (multipliers are at least 1/2), a prediction starts at 2^-26, normalising n analyses costs log2 n bits. `parse_rel` is an induction on the length of the word (nested calls are on shorter pieces, C01). `c100_same`, `c100_normal`, `c100_exact`, `c100_inflect`; `c100_underflow` shows that the range does matter outside. CPython's limit of 1000 nested Python calls is reached long before words of 996 letters could use that depth.
* **C101** The analyzer on a converted document says exactly what the document says — C65's `construct_converted` reduces the constructed analyzer to the compiled source, C79 gives the one-to-one correspondence with the joined lexemes, and C31's permutation carries it back to the forms of the document; counting is by sub-permutations (`List.Subperm`) of lists of (word, meaning). `c101_twins` is the witness that equal lemmas collapse.
* **C102** The parse command is a filter: endless input, failing input, failing output — `Model/Stream` is the loop as a transition system: an event reads a line or writes a chunk; the input and the output are arbitrary functions of the number of the request. An invariant of all reachable states (`StreamInv`) gives `c102_situation`; `c102_progress` is by induction on the lines; `c102_batch` relates it to `Model/Cli` by counting events. Buffering inside the file objects is below this level: reading and writing mean what the iterator and `write` do.
* **C103** Scores are accurate, and so is the score that is printed — `Near k`: a double within k roundings of an exact number, closed under +, *, / and sums; simulation of the analyzer in doubles and in exact arithmetic carrying k (normalisation doubles it, every unit adds two), induction on the length of the word; `%0.3f` modelled as rounding to the nearest thousandth, ties to even, and its text read back by an independent specification.
* **C104** What the parse command prints in floating point — a specification of the printed items with float sums, proved equal to the formatter; the simulation of C73 for the lines with tags; the accuracy of C103 for the sums; the tie of 0.2 + 0.1 and 0.3 exhibited on a dictionary by the kernel.
* **C105** How many analyses a word can have — Every predicted analysis has a key (word, tag, paradigm or right part of a compound) and keys are not repeated (C08). By induction on the length of the word the key of an analysis is determined by a dictionary or prediction entry about an ending of the word without particles (taking a known prefix off only changes the prefix), by one of the 31 tags of the units, or by a pair of analyses of the two hyphen-free parts of a compound inside the word; so the list of possible keys is counted. Answers of a group that does not look for repetitions are counted unit by unit.
* **C106** tag() and parse() give the tags in the same order — `firsts` lists the different elements of a list in the order of first occurrences. Two lists agree outside a set D when `firsts` of them without D are equal; this is stable under filtering by tag, appending, duplicate removal by (word, tag, paradigm) on the one side and by tag on the other, and stable sorting by a key that depends on the tag only. Induction on the length of the word through prefixes and particles; the group of the two prediction units is handled together, since a tag predicted by the ending may be added before or after. Negative witness: c106_needed. `c106_floats` carries it over to double precision through C73 and C100.
* **C107** Agreement with fractional numbers — `Model/Numeral.lean`: `%` for fractions, and for floats as CPython's float_rem (exact fmod, then a rounded addition for negative numbers). Proof: when the remainder is below half the modulus the addition is exact (Sterbenz), otherwise it stays in the upper half, away from the numbers the code compares with. For fractions the remainder is that of the whole part plus the fractional part. `decimal.Decimal` has its own `%` (quotient rounded towards zero and limited to 28 digits, remainder rounded to 28 digits; the limits on exponents are not modelled): a remainder has no more digits than the number, so it is exact up to 28 digits.
* **C108** The layout of the word files is unambiguous — `Model/DawgKeys.lean`: keys as documented in docs/internals/dict.rst, a file as the sorted list of keys; the automaton that shares parts of keys is not modelled (third party). Proof: base64 and packing are inverted, the separator occurs once in a key, UTF-8 keeps prefixes and order. `c108_build` shows that this meets the contract `DawgBuild` on which the theorems about the compiler rest.
* **C109** Analyzers with units of one's own keep the guarantees — `Morph.Configured m items` (`Spec/Custom.lean`): m is the result of the modelled constructor with `units=items`. The lemmas behind C13-C16, C89, C93, C04, C11 and C12 are stated for what they rest on, and `Lemmas/Custom.lean` derives that for every configuration; that masculine and feminine initials are disjoint lists follows from the constructor's own assertion by counting. `Demo.morph109`: predictions before the dictionary, compounds in one group with the dictionary, a tag pattern of one's own. The enumeration of the dictionary is C41 restated for its two cores (`enumerates_core`, `iter_lexeme_core`) plus the empty list of units. `Props/C109b.lean`: C72, C78 and C79 rest on `Morph.LooksUp` (the dictionary unit comes first and is the only one) and on prefixes being non-empty, which are derived for configured analyzers. Subclasses of units written by users are not covered.
* **C110** Units and estimators written by the user — Model: `Model/OpenUnits` — a unit is a pair of functions of the call-back record, the word, its lower-cased form and the set of what was seen; the loops of `parse`/`tag` and `_init_units` over such units; the inherited `tag`; subclasses of `_ShapeAnalyzer`; estimators as pairs of functions. Contracts in `Spec/Open` (`Quiet`, `AsksShorter`, `SilentOn`, `SafeOn`, `Reorders`). Proof: the library's own units meet the contracts (lemmas of C01, C02, C11), one generic induction over the loop for `parse` and `tag` together (`Lemmas/Open`), induction on the length of the word for nested calls; `c110_library_units` shows that with library units only this is the analyzer of the other properties. Not covered: user units with state of their own (`get_lexeme`/`normalized` of analogy units: C111).
* **C111** Analogy units written by the user — Model: `Model/Analogy` — a unit is a pair of coroutines (what is yielded first, and a continuation), layers on top of a methods stack of the library, `get_lexeme`/`normalized`/`_inflect` through the layers. Contract in `Spec/Analogy` (`Wrapper.Proper`, `KeepsTags`, `KeepsNormal`, `KeepsNormalForms`, `MadeFrom`). Proof: the layers commute with the lexeme and normal form of the undecorated word by induction on the layers; the guarantees of the base come from C13-C16/C109; `c111_library` ties the layers to the model of the library's prefix, particle and ending units. Not covered: coroutines with state of their own, or that change the methods stack.
* **C112** json_read reads exactly the JSON grammar — `Spec/JsonGrammar` is the grammar as inductive relations between values and texts (no reference to the reader). Soundness of every scanner of `Model/JsonText` by induction on the fuel, completeness by mutual induction on the derivation for every following text a value may have, with `scan_fuel` (C92) for the bound; dict semantics through `dictGet` of the reversed entries. UTF-8 both ways by cases on the first byte; the encoder is tied to Lean's own (`c112_utf8`). Not covered, as in C92: `NaN`, `Infinity`, lone surrogates (Python's json accepts them), limits on depth and digits; numbers with a fraction are read with `parse_float=str`, as metadata is.
* **C113** Which exception is raised — No new model: `Model/Objects`, `Model/Main`, `Model/Xml`, `Model/Convert`. `mapE_error_iff` says that a loop raises at its first bad item; `c113_lemma` is an iff with `NoValue`, `FormRead` and `FormBad` as specification. Written after mutants that changed the class of an exception survived (see seeded/LOG.jsonl); `c64_ext_again` and the values in `c76_shipped_prefixes` were added for the same reason.
* **C114** Results belong to the analyzer that made them — `Model/Results`: classes as objects with `__mro__` and the attributes `_morph`/`_dict`, analyzers with `_result_type`/`_result_type_orig`, results as tuples or instances; `Process.Later` is any history. Invariant `Process.Inv` by induction over histories (`c114_class`, `c114_copy`, `c114_unbound`); `c114_methods` and `c114_chain` relate the objects to the field-level model (`Obtained` of C89), so that the theorems about results there hold for the objects of the code; `c114_foreign`, `c114_tuples`, `c114_equal`. Not modelled: result types that are not derived from Parse or override its methods; nested calls of parse in units unpack results at once, their class is not modelled.
* **C115** Constructing an analyzer warns exactly when something is wrong with the language — `Model/Warn`: the constructor with a list of warnings. `c115_same` relates it to `Model/Construct`; `c115_exact` (constructed analyzers) and `c115_failing` (all calls) describe the list; `c115_silent` and `c115_old` are the consequences users care about. The names `pymorphy2.lang` has are a parameter; what the warnings module does with a warning is not modelled (with `-W error` the constructor would raise).
* **C116** Comparing tags and results — `Model/Compare`: Python's rules for comparison operators (reflected methods, `NotImplemented`), the comparison methods of tags, and lexicographic comparison of nested tuples. `c116_tags`, `c116_others`: tags; `c116_equal`, `c116_order`, `c116_ties`: results, by induction on the nested methods; `c116_iter`: sorting the dictionary; `c116_sort_fails`: two results of one `parse` that cannot be compared.

## 4. Defects and surprises the proofs brought out

Each is a theorem (a concrete counterexample or a general negative statement), next to the positive theorem it limits.

* C01 — a letter without a Unicode name makes parse() raise; incomplete P(t|w) data can make parse()
  divide by zero; for every recursion budget some word exceeds it.
* C02 — when UnknAnalyzer shares a group with HyphenatedWordsAnalyzer, tag() and parse() disagree.
* C11 — without P(t|w) data the results are not always sorted by score.
* C14, C15 — overlapping paradigm prefix/suffix and compounds: a parsed form can be missing from its own lexeme, and
  `normalized` can be spelt differently from `normal_form`.
* C20 — not symmetric in the sign; a noun without case raises ValueError; oblique adjectives lose their case.
* C25 — when two grammemes share an alias cyr2lat∘lat2cyr is not the identity.
* C26 — grammemes of a previously loaded dictionary leak into the next; tags built before a reload are stale.
* C31 — links that form a cycle lose all forms of the lexemes in it, or hang the compiler.
* C32 — simplification can reintroduce `loc1`/`gen1` and does not unify all spellings.
* C36 — paradigms.array is written in native byte order; more than 65535 paradigms raise struct.error.
* C38 — update_meta is not atomic.  C57 — killing a save over an existing dictionary can leave a working mixture.
* C39 — tags containing ':' can make two pairs collide in the P(t|w) table.
* C45 — the Roman-numeral pattern accepts a trailing newline, and even a lone newline.
* C47 — capitals inside a word are lost.
* C48 — pickling drops char_substitutes and probability_estimator_cls.
* C49 — with PYMORPHY2_DICT_PATH set, the analyzer's language is not that of the dictionary used.
* C50 — the constructor's lock does not protect readers.  C51 — Cyrillic caches can become stale or poisoned.
* C63 — scores of results sharing a tag can add up to more than 1; tags equal up to spacing miss their entry.
* C64 — the opencorpora-ext format cannot be loaded; attempting it overwrites incompatibilities of the class other
  analyzers use; aliases leak between dictionaries saved in one process; a name inside another name is mistranslated.
* C65 — a conversion that fails leaves an empty folder, after which repeating it without --overwrite silently does nothing; a
  dictionary too large for the format destroys the dictionary it was to replace.
* C67 — sources with a lemma of 21846 to 65536 forms compile but cannot be saved, and converting them destroys the old dictionary.
* C66 — short words are counted several times for the ending that is the whole word, so one word can reach min_ending_freq.
* C68 — `pymorphy parse --score` alone always fails; `--dict` with a Ukrainian dictionary is analyzed with the Russian configuration.
* C69 — changing a list of particles after construction changes existing analyzers, while prefixes and letters were copied.
* C70 — an empty string among the known prefixes makes the pure-Python variant recurse without end; with the C extension it is ignored.  An empty
  skipped prefix turns the hyphenated-words unit off without the extension and is ignored with it.
* C72 — predicted lexemes are not closed: a predicted word may inflect to a form that parse() assigns to another lexeme only.
* C73 — in doubles the scores need not add up to exactly 1 (three equal analyses sum to 1 - 2^-54), and similarities that are equal in exact arithmetic may be ordered by rounding (2 common/11 different against 1/1), so which of two equally good forms `inflect` returns depends on rounding, not on the lexeme order.
* C74 — for a guessed word `tag()` and `parse()` may list the same tags in different orders (`c74_orders_differ`): `tag` breaks ties of the count by the tag, `parse` by the position in the table; so `tag(w)[0]` need not be `parse(w)[0].tag`.
* C75 — `acc1` is among the rare cases that `fix_rare_cases` replaces but not among the values of `tag.case` (`c75_rare`): a tag with `acc1` has `case is None` and comparing a case with `'acc1'` raises.
* C76 — `compile_options=None` is the default of `convert_to_pymorphy2`, but always ends in `KeyError`, leaving an empty folder that makes the next conversion do nothing (`c76_no_prefixes`).
* C77 — 75 of the 445 known prefixes configured for Ukrainian contain capital letters and can never match, since words are lower-cased first (`c77_shipped`).
* C78 — the number of nested calls of `parse()`/`tag()` is exponential in the length of the word in the worst case: `'небез'*k + t` makes at least 3·2^k − 2 calls (`c78_exponential`), as nothing is memoised and не, без and небез are all known prefixes.
* C80 — `unicodedata.name` has no names for Tangut ideographs, which are letters: `parse('𗀀')` and `tag('𗀀')` raise `ValueError: no such name` (`c80_tangut`), likewise for every unknown word in which such a letter precedes all non-Latin letters.
* C81 — the Russian analyzer tags `nan`, `inf`, `Infinity` (any case) `NUMB,real`, not `LATN` (`c81_special`), and integers of more than 4300 digits `NUMB,real` (`c81_long`).
* C82 — restoring the case twice differs from restoring it once for words like 'ΐa' (example 'Hello'), and 'Ǆa' is not restored from itself although it is in title case (`c82_exceptions`).
* C83 — `simple_word_tokenize` splits a word at an apostrophe (Ukrainian п'ять, also with ’), at a combining stress mark or accent, and at a soft hyphen: such a word is never one token, although the dictionary may contain it (`c83_split`).
* C83 — `+`, `№`, `$`, `°` and lone combining accents are tokens analyzed as UNKN, not as punctuation (`c83_mark`).
* C84 — Of two forms of a lexeme with the same grammemes (variants without a distinguishing grammeme) `inflect` never returns the later one (`c84_unreachable`).
* C86 — Decimal fractions in texts are never analyzed as real numbers: simple_word_tokenize splits 3,14 in 3 , 14 (`c86_fraction`), while nan, inf and 1e5 are.
* C86 — The units ml, dl, mm and the word mix are Roman numbers (1050, 550, 2000, 1009), and İV is one too (`c86_roman`).
* C87 — int(prob*1000000) truncates a rounded product: 41/80 is stored as 512499, not 512500 (`c87_truncated`).
* C88 — meta.json is rewritten in place: a kill while P(t|w) data is added destroys the dictionary, not only the new data (`c88_recover`).
* C90 — The attributes of a tag with two grammemes of one category, and agreement with numbers for a tag with two genders, depend on the hash seed (c90_two_genders).
* C91 — C91 — on CPython 3.11 and later `MorphAnalyzer()` raises `AttributeError` (`inspect.getargspec` is gone; `c91_default`).
* C92 — C92 — `json_read` does not notice the first bytes of an unfinished character after the document (`codecs` stream reader; `c92_longer`).
* C94 — With a collision of the hash of a grammeme and another string in a set, `tag.case in {...}` raises ValueError (`c94_collision`).
* C98 — Analysis time is exponential in the length of the word for some words: не, до and недо (likewise не, без and небез, …) are all in KNOWN_PREFIXES, KnownPrefixAnalyzer calls morph.parse on every remainder and nothing is cached, so недонедо…недоъъъ of 4k+3 letters costs at least 2^k nested parse calls (C98: c98_exponential, c98_cpython). A text with one such word of 100 letters hangs the program.
* C99 — For words with two known prefixes (недокош = недо+кош or не+докош) parse() is not sorted by score although the user guide says so (c99_prefixed_not_sorted); see also c11_not_always_sorted for compounds.
* C106 — `docs/user/guide.rst` tells the user to take the first analysis from `parse` or `tag`; for words predicted by the ending the two first tags can differ (C106 `c106_needed`; acknowledged in a comment at by_analogy.py:245).
* C107 — `make_agree_with_number(1.5)` and other fractions whose whole part does not end in 2 or 3 give the genitive plural, where Russian has the genitive singular (C107 `c107_genitive`).
* C107 — `make_agree_with_number(Decimal(-8))` differs from `make_agree_with_number(-8)`: a negative Decimal is always treated as 5 (`c107_decimal_differs`).
* C108 — The records of a word are not 'properly sorted' as the comment at dawg.py:27 says: base64 does not keep the order of bytes, so paradigm 13 comes before paradigm 0 and form 208 before form 0 (C108 `c108_not_sorted`).
* C109 — A `KnownPrefixAnalyzer` given the empty string as a prefix, as the first unit and without the C extension, recurses forever on every word long enough (C109 `c109_empty_prefix`); an analyzer without units cannot enumerate its dictionary (`c109_no_units`).
* C111 — c111_inherited_defect: decorating words but keeping the inherited coroutines computes lexemes from the decorated word (`#кошек!!` style suffixes give `кошекка`).
* C111 — c111_empty_suffix_defect: `without_fixed_suffix(form, 0)` removes the whole word (`s[:-0]`).
* C115 — `hasattr(pymorphy2.lang, lang)` (analyzer.py:254) also holds for names that are no languages: MorphAnalyzer(path, lang='absolute_import') uses the Russian settings without the warning about an unknown language.
* C116 — `tag == 'NOUN'` and `tag == None` raise AttributeError instead of answering False (tagset.py:358-359); so `tag in [None, ...]` and `p == other_tuple` can raise.
* C116 — There is no `__le__`/`__ge__` (tagset.py:364-368): `tag <= tag` raises TypeError.
* C116 — `sorted(morph.parse(word))` can raise TypeError: two results of equal score by different units are compared by their analyzer units.
