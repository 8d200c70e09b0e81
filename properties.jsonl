{"id": "C01", "title": "parse() and tag() always terminate with at least one answer", "statement": "For every string, MorphAnalyzer.parse(word) and MorphAnalyzer.tag(word) with the default Russian or Ukrainian unit list terminate, raise no exception and return a non-empty list, given a structurally sound dictionary whose tag class knows the grammemes the units use, P(t|w) data that gives no word a zero total it then divides by, no recursion limit, and provided every alphabetic character of the word has a Unicode name. (Each proviso is needed: an alphabetic character without a Unicode name can make both calls raise ValueError; incomplete P(t|w) data can make parse raise ZeroDivisionError; for every recursion budget there is a word that exceeds it, while the depth of nested calls never exceeds the length of the word plus one.)", "quantifier": "all strings (any length, any characters, including the empty string), all sound dictionaries, all substitution tables, all P(t|w) tables with positive scores", "why_tests_cant": "The analyzer units call morph.parse/morph.tag recursively on parts of the word; termination and absence of IndexError/KeyError/ZeroDivisionError is needed on every word, tests only run a few hundred.", "anchors": ["pymorphy2/analyzer.py:MorphAnalyzer.parse", "pymorphy2/analyzer.py:MorphAnalyzer.tag", "pymorphy2/units/unkn.py:UnknAnalyzer", "pymorphy2/shapes.py:is_latin_char", "pymorphy2/lang/ru/config.py:DEFAULT_UNITS", "pymorphy2/lang/uk/config.py:DEFAULT_UNITS"]}
{"id": "C02", "title": "tag() agrees with parse()", "statement": "For every word, the set of tags returned by morph.tag(word) equals the set of tags of the results of morph.parse(word) (equality of tags as the library defines it); when the word is answered by the dictionary unit group the two lists are equal element by element, in the same order. For custom unit lists this needs UnknAnalyzer to stand in a group of its own (otherwise it can fail).", "quantifier": "all words, dictionaries, unit lists made of the library's units, with or without P(t|w)", "why_tests_cant": "Every unit implements tag() and parse() separately, with different duplicate filters and different stopping conditions; agreement on sampled words says nothing on the others.", "anchors": ["pymorphy2/analyzer.py:MorphAnalyzer.parse", "pymorphy2/analyzer.py:MorphAnalyzer.tag", "pymorphy2/units/by_analogy.py:KnownSuffixAnalyzer", "pymorphy2/units/by_hyphen.py", "pymorphy2/units/base.py:BaseAnalyzerUnit.tag"]}
{"id": "C03", "title": "A parse result is a spelling of the input word", "statement": "Every result p of morph.parse(w) satisfies: p.word has the same length as w.lower() and agrees with it at each position up to the declared one-way character substitutions (e.g. the input may have е where p.word has ё, never the other way round).", "quantifier": "all words, all dictionaries, all unit lists, all substitution tables", "why_tests_cant": "Requires an induction over arbitrarily nested prefix/suffix/hyphen/particle decompositions.", "anchors": ["pymorphy2/units/by_lookup.py:DictionaryAnalyzer.parse", "pymorphy2/units/by_analogy.py", "pymorphy2/units/by_hyphen.py", "pymorphy2/units/by_shape.py", "pymorphy2/units/abbreviations.py"]}
{"id": "C04", "title": "Parse.is_known is consistent with MorphAnalyzer.word_is_known", "statement": "For every word w and every result p of morph.parse(w): p.is_known is True exactly when morph.word_is_known(w) is True. Moreover word_is_known(w, strict=True) implies word_is_known(w).", "quantifier": "all words, all dictionaries, all default unit lists, all substitution tables whose targets are not themselves substitutable", "why_tests_cant": "A predicted word could accidentally be a dictionary spelling; only a proof over all decompositions excludes that.", "anchors": ["pymorphy2/analyzer.py:Parse.is_known", "pymorphy2/analyzer.py:MorphAnalyzer.word_is_known", "pymorphy2/opencorpora_dict/wrapper.py:Dictionary.word_is_known"]}
{"id": "C05", "title": "Dictionary look-up is sound and complete up to substitutions", "statement": "For a word with at least one dictionary spelling, the dictionary results of parse(w) are exactly the pairs (spelling, paradigm form) stored in the dictionary for the spellings reachable from w.lower() by replacing some substitutable characters; a substitutable character that is already written in its target form matches only itself.", "quantifier": "all words, all dictionaries, all substitution tables", "why_tests_cant": "2^k spellings per word; tests check two or three е/ё words.", "anchors": ["pymorphy2/units/by_lookup.py:DictionaryAnalyzer.parse", "pymorphy2/analyzer.py:MorphAnalyzer._init_char_substitutes"]}
{"id": "C06", "title": "Unit groups: the first group that answers gives the whole answer", "statement": "The result of parse(w) before scoring is the concatenation of the results of the units of the first unit group (a nested list in the units argument counts as one group) that produces any result; no later group contributes. In particular a dictionary word never gets predicted parses.", "quantifier": "all unit lists with arbitrary grouping, all words", "why_tests_cant": "Grouping is implemented by a flat list with is_terminal flags and a loop with break; correctness for every grouping is a refinement statement.", "anchors": ["pymorphy2/analyzer.py:MorphAnalyzer._init_units", "pymorphy2/analyzer.py:MorphAnalyzer.parse"]}
{"id": "C07", "title": "Closed word classes are never predicted", "statement": "No result of parse(w) or tag(w) produced by prefix removal or suffix prediction (KnownPrefixAnalyzer, UnknownPrefixAnalyzer, KnownSuffixAnalyzer as the outermost method) carries a non-productive tag (pronoun, numeral, predicative, preposition, conjunction, particle, interjection, Apro).", "quantifier": "all words, dictionaries, prediction tables, prefix lists", "why_tests_cant": "Universally quantified over words; tests list two words.", "anchors": ["pymorphy2/units/by_analogy.py", "pymorphy2/tagset.py:OpencorporaTag.is_productive"]}
{"id": "C08", "title": "Predicted parses are not repeated", "statement": "Among the results that one parse(w) call obtains from prefix and suffix prediction no two share word, tag and paradigm; tag(w) from these units contains no tag twice.", "quantifier": "all words, dictionaries, prediction tables", "why_tests_cant": "Duplicate elimination is spread over units through a shared mutable set.", "anchors": ["pymorphy2/units/utils.py:add_parse_if_not_seen", "pymorphy2/units/utils.py:add_tag_if_not_seen", "pymorphy2/units/by_analogy.py:KnownSuffixAnalyzer.parse"]}
{"id": "C09", "title": "normal_forms() lists each normal form once, in parse order", "statement": "morph.normal_forms(w) contains exactly the normal forms of the results of parse(w), each once, in the order of first occurrence.", "quantifier": "all words and all parse results", "why_tests_cant": "Quantifies over all result lists.", "anchors": ["pymorphy2/analyzer.py:MorphAnalyzer.normal_forms"]}
{"id": "C10", "title": "The UNKN answer is given only when nothing else matches", "statement": "If parse(w) has a result produced by the UNKN unit itself then it is the only result and it is (w.lower(), UNKN, w.lower()); and every other unit returned nothing for w.", "quantifier": "all words, all default unit lists", "why_tests_cant": "A negative statement on all units.", "anchors": ["pymorphy2/units/unkn.py:UnknAnalyzer", "pymorphy2/analyzer.py:MorphAnalyzer.parse"]}
{"id": "C11", "title": "Order and normalisation of scores", "statement": "With P(t|w) data for at least one tag of the word, parse(w) is sorted by non-increasing score, the sort is stable and every score is the stored P(t|w); with no such data the scores are the unit scores divided by their sum, so they add up to 1, and the order of the units is kept; the documented claim 'parses are always sorted by decreasing score' is false for some words without P(t|w) data.", "quantifier": "all parse lists, all P(t|w) tables, exact (rational) arithmetic for the sum", "why_tests_cant": "Sum/sortedness over arbitrary lists; the counterexample needs an unusual dictionary.", "anchors": ["pymorphy2/analyzer.py:ProbabilityEstimator.apply_to_parses", "pymorphy2/analyzer.py:ProbabilityEstimator.apply_to_tags", "docs/user/guide.rst"]}
{"id": "C12", "title": "Scores are probabilities", "statement": "Every score returned by parse(w) of the default analyzers is greater or equal to 0 and at most 1 (exact arithmetic), and is positive whenever P(t|w) data is absent.", "quantifier": "all words, all dictionaries with positive prediction counts, all P(t|w) tables with values at most 1", "why_tests_cant": "Products of multipliers along arbitrarily deep recursion and a normalisation step.", "anchors": ["pymorphy2/analyzer.py:ProbabilityEstimator", "pymorphy2/units/by_analogy.py:KnownSuffixAnalyzer.parse"]}
{"id": "C13", "title": "The lexeme is the same whichever of its forms it is asked from", "statement": "For every result p of parse(w) that is not a hyphenated compound with both parts inflected (in particular whenever w has no hyphen) and every form f in p.lexeme: f.lexeme == p.lexeme. For compounds with both parts inflected the two lexemes agree in words, tags, normal forms and methods (scores may differ), provided hyphens do not come and go inside the lexemes of the dictionary. The lexeme is computed without an exception and is not empty.", "quantifier": "all words, dictionaries, nested analysis stacks, all forms", "why_tests_cant": "Induction over the methods stack; tests check the first form of 20 lexemes.", "anchors": ["pymorphy2/analyzer.py:MorphAnalyzer.get_lexeme", "pymorphy2/units/by_lookup.py:DictionaryAnalyzer.get_lexeme", "pymorphy2/units/base.py:AnalogyAnalizerUnit", "pymorphy2/units/by_hyphen.py:HyphenatedWordsAnalyzer._iter_lexeme"]}
{"id": "C14", "title": "A parsed form belongs to its own lexeme", "statement": "For every result p of parse(w), p.lexeme contains a form with the same word and tag as p (for suffix prediction: unless the predicted paradigm prefix and suffix overlap inside a very short word, in which case it can fail; for compounds with both parts inflected the right part decides and it can fail as well).", "quantifier": "all words, all sound dictionaries, all nested analysis stacks", "why_tests_cant": "Needs the whole chain stem extraction / re-attachment for all paradigms.", "anchors": ["pymorphy2/opencorpora_dict/wrapper.py:Dictionary.build_stem", "pymorphy2/units/by_lookup.py:DictionaryAnalyzer.get_lexeme"]}
{"id": "C15", "title": "normalized is the first form of the lexeme and spells normal_form", "statement": "For every result p of parse(w): p.normalized has the word, tag, normal form and methods of p.lexeme[0]; p.normalized.word == p.normal_form (can fail for compounds with both parts inflected), and normalizing again changes nothing. (As in C14, all of this excepts predictions whose paradigm prefix and suffix overlap inside a very short word.)", "quantifier": "all words, dictionaries, nested stacks", "why_tests_cant": "Two separate code paths (normalized / get_lexeme) must agree on every paradigm and every stack.", "anchors": ["pymorphy2/analyzer.py:Parse.normalized", "pymorphy2/units/by_lookup.py:DictionaryAnalyzer.normalized", "pymorphy2/units/base.py:AnalogyAnalizerUnit.normalized"]}
{"id": "C16", "title": "All forms of a lexeme share one normal form", "statement": "For every result p of parse(w) every form in p.lexeme has normal_form == p.normal_form (for compounds with both parts inflected: provided hyphens do not come and go inside the lexemes of the dictionary).", "quantifier": "all words, dictionaries, nested stacks", "why_tests_cant": "Universal over stacks and paradigms.", "anchors": ["pymorphy2/units/by_lookup.py:DictionaryAnalyzer.get_lexeme", "pymorphy2/units/by_hyphen.py:HyphenatedWordsAnalyzer._merge_lexemes"]}
{"id": "C17", "title": "inflect() returns the best matching form of the lexeme, or None exactly when there is none", "statement": "p.inflect(req) is None iff no form of p.lexeme carries all of req and none carries all of req with rare cases replaced; otherwise it is a form of p.lexeme carrying req (or, only when no form carries req, the rare-case replacement), it maximises the documented similarity among those and is the first such form.", "quantifier": "all forms, all grammeme sets, all arithmetic", "why_tests_cant": "Universal over lexemes and requests.", "anchors": ["pymorphy2/analyzer.py:MorphAnalyzer._inflect", "pymorphy2/analyzer.py:Parse.inflect"]}
{"id": "C18", "title": "inflect() rejects misspelled grammemes", "statement": "If req contains a grammeme the tag class does not know (and that is not a rare-case name), p.inflect(req) raises ValueError; it never silently returns None or a form.", "quantifier": "all forms, all grammeme sets, all tag class states in which the forms' own grammemes are known", "why_tests_cant": "Universal over inputs and class states.", "anchors": ["pymorphy2/analyzer.py:MorphAnalyzer._inflect", "pymorphy2/tagset.py:OpencorporaTag.updated_grammemes"]}
{"id": "C19", "title": "inflecting into what the form already is changes nothing", "statement": "If p belongs to its lexeme, req is contained in p's grammemes and p carries nothing incompatible with req, then p.inflect(req) has exactly the grammemes of p (exact arithmetic); inflecting twice with the same req gives a form carrying req.", "quantifier": "all lexemes, all such requests", "why_tests_cant": "A maximisation argument over arbitrary lexemes.", "anchors": ["pymorphy2/analyzer.py:MorphAnalyzer._inflect"]}
{"id": "C20", "title": "Agreement with numerals", "statement": "numeral_agreement_grammemes(num), hence make_agree_with_number(num), depends only on num mod 100 and follows the Russian rule for every non-negative integer: numbers ending in 1 but not 11 take the singular, numbers ending in 2-4 but not 12-14 take genitive singular (nouns in nominative/accusative) / plural nominative (feminine adjectives), all others genitive plural; other cases keep the case. It is not symmetric in the sign of the number, and it raises ValueError in make_agree_with_number for a noun tag without case. An adjective or participle in an oblique case loses its case (it is put into accusative singular or genitive plural).", "quantifier": "all integers, all tags", "why_tests_cant": "Infinitely many numbers.", "anchors": ["pymorphy2/tagset.py:OpencorporaTag.numeral_agreement_grammemes", "pymorphy2/analyzer.py:Parse.make_agree_with_number"]}
{"id": "C21", "title": "Initials: gender is kept for first names, patronymics have one lexeme", "statement": "For a single upper-case letter of the configured alphabet, parse() contains 12 first-name and 12 patronymic analyses (2 genders x 6 cases), the word and normal form are the lower-cased letter; the lexeme of a first-name analysis has the 6 case forms of the same gender and normalizes to the nominative of the same gender; the patronymic lexeme has 12 forms and normalizes to masculine nominative; every analysis is in its lexeme.", "quantifier": "all letters, all alphabets, all analyses", "why_tests_cant": "Quantifies over alphabets and forms.", "anchors": ["pymorphy2/units/abbreviations.py"]}
{"id": "C22", "title": "Membership test in a tag never hides a typo", "statement": "`g in tag` is True iff g is a grammeme of the tag; `{..} in tag` is True iff all are; otherwise the answer is False when all the asked grammemes are known and ValueError when one is not (RuntimeError when the class was never initialised); `g in tag` and `{g} in tag` always behave alike.", "quantifier": "all tags, all strings and sets, all class states", "why_tests_cant": "Universal over inputs and class states.", "anchors": ["pymorphy2/tagset.py:OpencorporaTag.__contains__"]}
{"id": "C23", "title": "Tag construction, equality, ordering and pickling are coherent", "statement": "Tag(s) succeeds iff all comma/first-space separated parts of s are known; two tags are equal iff their grammeme sequences are; equality is an equivalence compatible with hash, < is a strict total order compatible with ==; unpickling/rebuilding from str(tag) gives an equal tag as long as the grammemes are still known.", "quantifier": "all strings, all tags, all class states", "why_tests_cant": "Algebraic laws over all tags.", "anchors": ["pymorphy2/tagset.py:OpencorporaTag"]}
{"id": "C24", "title": "updated_grammemes adds what is required and removes what is incompatible", "statement": "tag.updated_grammemes(req) equals (grammemes | req) minus the union of the grammemes incompatible with members of req, independently of the iteration order of req, and raises ValueError iff some member of req is unknown.", "quantifier": "all tags, all sets, all iteration orders, all class states", "why_tests_cant": "Python set iteration order is arbitrary; tests see one order.", "anchors": ["pymorphy2/tagset.py:OpencorporaTag.updated_grammemes"]}
{"id": "C25", "title": "lat2cyr and cyr2lat are inverse", "statement": "For every tag string made of known grammemes in normal spelling, cyr2lat(lat2cyr(t)) == t and vice versa, if the dictionary's alias table is one-to-one and its names contain no separators; unknown tokens pass unchanged; commas and spaces keep their places. With an ambiguous alias the round trip fails.", "quantifier": "all tag strings, all grammeme tables", "why_tests_cant": "Universal over strings and tables.", "anchors": ["pymorphy2/tagset.py:_translate_tag", "pymorphy2/tagset.py:OpencorporaTag.cyr2lat", "pymorphy2/tagset.py:OpencorporaTag.lat2cyr"]}
{"id": "C26", "title": "Re-loading dictionaries: what depends on history and what does not", "statement": "After a load a grammeme of the table excludes exactly the other grammemes one or two levels below its parent, plur also a set that depends on history, and grammemes the table does not list keep the rules they had. After any sequence of dictionary loads the known grammemes and the Latin/Cyrillic tables depend only on the last load; loading the same grammeme table again changes nothing observable, provided nothing in the table lies more than two levels below GNdr (otherwise the second load changes what plur excludes); but incompatibility rules of earlier dictionaries can leak into later ones, exactly through the set reached from GNdr load by load, and an analyzer created earlier can start to raise ValueError for grammemes of its own dictionary after another one is loaded.", "quantifier": "all finite sequences of loads of arbitrary grammeme tables", "why_tests_cant": "The tag class is process-global mutable state; behaviour depends on the whole load history.", "anchors": ["pymorphy2/tagset.py:OpencorporaTag._init_grammemes", "pymorphy2/opencorpora_dict/storage.py:_load_tag_class"]}
{"id": "C27", "title": "Category attributes of a tag", "statement": "tag.POS, tag.case, tag.number ... return a grammeme that is in the tag and in the category, or None exactly when the tag has none of the category; comparing a returned value with a string outside the category raises ValueError, with a string of the category behaves as plain comparison, and comparing with None is False.", "quantifier": "all tags, all categories, every choice made by set iteration", "why_tests_cant": "Set iteration order is arbitrary; universal over tags.", "anchors": ["pymorphy2/tagset.py:_select_grammeme_from"]}
{"id": "C28", "title": "Compiling a dictionary loses nothing", "statement": "If the compiler accepts a source dictionary, then for every (linked) lexeme and every form (word, tag) at position i in it, looking the word up in the compiled dictionary yields an analysis with that tag, with the first form of the lexeme as normal form, and whose lexeme is exactly the source lexeme in order.", "quantifier": "all source dictionaries, all lexemes, all forms", "why_tests_cant": "Universal over dictionaries; stem extraction, deduplication of paradigms, id tables and linear packing all have to compose to the identity.", "anchors": ["pymorphy2/opencorpora_dict/compile.py:compile_parsed_dict", "pymorphy2/opencorpora_dict/compile.py:_to_paradigm", "pymorphy2/opencorpora_dict/wrapper.py:Dictionary"]}
{"id": "C29", "title": "Compiling a dictionary invents nothing", "statement": "Every (word, paradigm, form) entry of a compiled dictionary comes from some source lexeme: the word is the form at that position and rebuilding the paradigm around its stem gives that lexeme.", "quantifier": "all source dictionaries, all entries", "why_tests_cant": "Universal over dictionaries.", "anchors": ["pymorphy2/opencorpora_dict/compile.py:compile_parsed_dict"]}
{"id": "C30", "title": "A compiled dictionary is structurally sound", "statement": "Every dictionary produced by the compiler satisfies the soundness condition used by the analyzer properties: all ids are in range, every word is prefix+stem+suffix of its form, every prediction entry has a positive count, belongs to the prefix table it is stored in, and its ending ends with the suffix of its form; the compiler's own assertions never fail.", "quantifier": "all source dictionaries and compile options", "why_tests_cant": "Makes the hypotheses of the other properties reachable for every dictionary.", "anchors": ["pymorphy2/opencorpora_dict/compile.py:compile_parsed_dict", "pymorphy2/opencorpora_dict/compile.py:_suffixes_prediction_data"]}
{"id": "C31", "title": "Joining linked lexemes keeps every form", "statement": "For every acyclic set of links joining lexemes terminates and yields exactly the forms of the source lexemes (as a multiset), with the forms of a link target appended after those of its root; excluded link types move nothing. With a cyclic pair of links forms are lost, and a further link makes the compiler hang.", "quantifier": "all lexeme tables, all link lists", "why_tests_cant": "Universal over link graphs; the failing case needs a cyclic link, absent from the test dictionary.", "anchors": ["pymorphy2/opencorpora_dict/compile.py:_join_lexemes"]}
{"id": "C32", "title": "Tag simplification does not change what a tag means", "statement": "simplify_tags replaces every tag by one with the same set of grammemes (after identifying loc1/loct, gen1/gent, acc1/accs); words, order and number of forms are untouched. It does not guarantee that loc1/gen1/acc1 disappear.", "quantifier": "all parsed dictionaries, both values of skip_space_ambiguity", "why_tests_cant": "Depends on frequency counts over the whole dictionary.", "anchors": ["pymorphy2/opencorpora_dict/preprocess.py:simplify_tags"]}
{"id": "C33", "title": "Paradigm extraction is invertible", "statement": "For every non-empty lexeme, _to_paradigm(lexeme) returns a stem and (suffix, tag, prefix) rows such that prefix+stem+suffix is the form and the tag is kept, in order, and all prefixes are from the allowed list whenever '' is allowed. The stem is exactly: the form itself for a one-form lexeme; otherwise the longest common part of the forms (the leftmost in the first form) if what stands before its first occurrence in each form is an allowed prefix, and nothing (with whole forms as suffixes) if not.", "quantifier": "all lexemes, all allowed-prefix lists", "why_tests_cant": "Universal over lexemes; depends on str.index picking the first occurrence.", "anchors": ["pymorphy2/opencorpora_dict/compile.py:_to_paradigm"]}
{"id": "C34", "title": "longest_common_substring is correct", "statement": "longest_common_substring(data) is a substring of every string in data and no longer string is; among the longest ones it is the one that occurs first in data[0]; for the empty list it is ''.", "quantifier": "all lists of strings", "why_tests_cant": "Universal over string lists.", "anchors": ["pymorphy2/utils.py:longest_common_substring"]}
{"id": "C35", "title": "largest_elements is correct", "statement": "largest_elements(xs, key, n) is the sublist of xs, in order, of the elements whose key is one of the n largest distinct keys: an element is kept iff fewer than n distinct keys are greater than its key.", "quantifier": "all lists, key functions, n", "why_tests_cant": "Universal over lists.", "anchors": ["pymorphy2/utils.py:largest_elements"]}
{"id": "C36", "title": "paradigms.array round trip", "statement": "Saving any list of paradigms that fits the format and loading it back gives the same list; saving fails with an error (rather than writing a wrong file) iff a count exceeds 65535; the file has exactly 2 + sum(2+2*len) bytes.", "quantifier": "all lists of paradigms, both machine byte orders (saver and loader alike)", "why_tests_cant": "Universal over data.", "anchors": ["pymorphy2/opencorpora_dict/storage.py:save_compiled_dict", "pymorphy2/opencorpora_dict/storage.py:_load_paradigms"]}
{"id": "C37", "title": "Dictionary format check", "statement": "A dictionary is accepted iff its format_version has the form '2.<minor>' with exactly one dot; every other version string is rejected with ValueError.", "quantifier": "all version strings", "why_tests_cant": "Universal over strings.", "anchors": ["pymorphy2/opencorpora_dict/storage.py:_assert_format_is_compatible"]}
{"id": "C38", "title": "Metadata survives update", "statement": "After update_meta(file, extra), loading gives the extra values for the extra keys and the old values for all other keys, in the old order with new keys appended.", "quantifier": "all metadata lists, all extras", "why_tests_cant": "Universal over maps.", "anchors": ["pymorphy2/opencorpora_dict/storage.py:update_meta", "pymorphy2/opencorpora_dict/storage.py:load_meta", "pymorphy2/opencorpora_dict/storage.py:write_meta"]}
{"id": "C39", "title": "P(t|w) storage is faithful to 1e-6 and unambiguous", "statement": "ConditionalProbDistDAWG(data).prob(word, tag) for a stored pair is at most the stored probability and differs from it by less than 0.000001 (exact arithmetic); for a pair that is not stored it is 0, as long as tags contain no ':' ; with ':' in a tag two pairs can collide.", "quantifier": "all tables, all words and tags", "why_tests_cant": "Universal over tables.", "anchors": ["pymorphy2/dawg.py:ConditionalProbDistDAWG"]}
{"id": "C40", "title": "word_splits enumerates exactly the allowed splits", "statement": "word_splits(w, r, m) contains (a, b) iff a+b == w, 1 <= len(a) <= m and len(b) >= r, each once, by increasing len(a).", "quantifier": "all words and limits", "why_tests_cant": "Universal over words.", "anchors": ["pymorphy2/utils.py:word_splits"]}
{"id": "C41", "title": "iter_known_word_parses enumerates the dictionary", "statement": "iter_known_word_parses(prefix) yields exactly the dictionary entries whose word starts with prefix, in dictionary order; each yielded parse is, up to its score, one of the results of parse(word) for that very spelling (when written in lower case), and has a lexeme containing it.", "quantifier": "all dictionaries, all prefixes", "why_tests_cant": "Universal over dictionaries.", "anchors": ["pymorphy2/analyzer.py:MorphAnalyzer.iter_known_word_parses", "pymorphy2/opencorpora_dict/wrapper.py:Dictionary.iter_known_words"]}
{"id": "C42", "title": "Prefix matching", "statement": "PrefixMatcher.prefixes(w) returns exactly the registered prefixes w starts with; is_prefixed(w) iff there is one; KnownPrefixAnalyzer tries the splits longest prefix first and only with remainder of at least min_remainder_length characters.", "quantifier": "all prefix lists, all words", "why_tests_cant": "Universal over words.", "anchors": ["pymorphy2/dawg.py:PythonPrefixMatcher", "pymorphy2/units/by_analogy.py:KnownPrefixAnalyzer.possible_splits"]}
{"id": "C43", "title": "The tokenizer loses nothing but whitespace", "statement": "The concatenation of simple_word_tokenize(text) is text without its whitespace; every token is non-empty, contains no whitespace and is either a single non-word character (or '+') or a maximal run of word characters and hyphens; tokenizing the tokens joined by spaces gives the same tokens.", "quantifier": "all texts, all character classifications in which white space is not a word character", "why_tests_cant": "Universal over texts.", "anchors": ["pymorphy2/tokenizers.py:simple_word_tokenize"]}
{"id": "C44", "title": "Caches never change the output", "statement": "The output of the command line parser, for any input, is the same with no cache, with an LRU cache of any size and with an unlimited cache; memoized_with_single_argument(cache) returns what the function returns for any call history starting from an empty cache.", "quantifier": "all token sequences, all cache sizes, all deterministic functions", "why_tests_cant": "Universal over call histories.", "anchors": ["pymorphy2/cache.py:memoized_with_single_argument", "pymorphy2/cli.py:parse"]}
{"id": "C45", "title": "Roman numbers", "statement": "is_roman_number accepts exactly the canonical Roman numerals of 1..4999 in any letter case, optionally followed by one newline, and besides a lone newline; different numbers have different numerals.", "quantifier": "all strings", "why_tests_cant": "Universal over strings.", "anchors": ["pymorphy2/shapes.py:is_roman_number"]}
{"id": "C46", "title": "Shape predicates", "statement": "is_latin(t) iff t has a letter and all its letters are Latin; is_punctuation(t) iff t has a non-space character and all non-space characters are punctuation; no string is both (given letters are not punctuation), and neither accepts the empty string.", "quantifier": "all strings, all character tables in which letters are neither spaces nor punctuation", "why_tests_cant": "Universal over strings.", "anchors": ["pymorphy2/shapes.py:is_latin", "pymorphy2/shapes.py:is_punctuation"]}
{"id": "C47", "title": "restore_capitalization only changes case", "statement": "restore_capitalization(word, example) has the same hyphen structure and is equal to word up to letter case; parts beyond the example are lower-cased; with an all-lower-case example without hyphen the result is word.lower().", "quantifier": "all words and examples, all case mappings that are case-insensitively neutral", "why_tests_cant": "Universal over strings.", "anchors": ["pymorphy2/shapes.py:restore_capitalization"]}
{"id": "C48", "title": "Pickling an analyzer", "statement": "An unpickled MorphAnalyzer is configured exactly as the original (hence answers alike) if the original was created with default char_substitutes and probability_estimator_cls; with an explicitly passed char_substitutes or probability_estimator_cls the copy can answer differently.", "quantifier": "all constructor arguments, all words", "why_tests_cant": "Universal over configurations.", "anchors": ["pymorphy2/analyzer.py:MorphAnalyzer.__reduce__", "pymorphy2/analyzer.py:MorphAnalyzer.__init__"]}
{"id": "C49", "title": "Choice of dictionary and language", "statement": "An explicit path always wins, then the environment variable, then the installed dictionary of the language (default 'ru'), else ValueError; the analyzer language is the requested one, else, if a path is given, the dictionary's, else 'ru' (so without arguments it is 'ru' even when the environment variable points to a dictionary of another language); 'ru-old' and unknown languages use the Russian units. Once the dictionary has been read, the construction with the default units succeeds exactly if the grammeme table of the dictionary has the 14 grammemes the units for initials put in their tags (NOUN, anim, masc, femn, Sgtm, Fixd, Abbr, sing and the six cases) and, unless the language is Ukrainian, ADVB.", "quantifier": "all combinations of arguments, environments and installed dictionaries", "why_tests_cant": "Decision table over unbounded strings.", "anchors": ["pymorphy2/analyzer.py:MorphAnalyzer.choose_dictionary_path", "pymorphy2/analyzer.py:MorphAnalyzer.choose_language", "pymorphy2/analyzer.py:lang_dict_path"]}
{"id": "C50", "title": "Constructing analyzers concurrently", "statement": "Under every interleaving of any number of threads constructing analyzers (and of other threads that only read the tag class without the lock): a construction that would succeed alone succeeds, with the same language and answers; the constructions are equivalent to one sequential order of them and the tag class ends in the state that order leaves; there is no deadlock, every schedule ends and the lock is given back also by failing constructions. The lock does not protect users: while a dictionary is loaded, `grammeme in tag` for every grammeme the tag lacks, and `parse` of some words starting with по-, can raise RuntimeError; parse and tag of words without по- never depend on the class state and are safe.", "quantifier": "all schedules, any number of threads", "why_tests_cant": "Schedules cannot be enumerated by tests.", "anchors": ["pymorphy2/analyzer.py:MorphAnalyzer._lock", "pymorphy2/tagset.py:OpencorporaTag._init_grammemes"]}
{"id": "C51", "title": "Using one analyzer from several threads", "statement": "Lazy caches shared by threads (grammeme sets of tags, Latin-letter cache, memoisation decorator) are transparent: under every interleaving, also with dictionaries being loaded, every reader gets the value the pure computation gives; the Cyrillic caches of tags (grammemes_cyr, cyr_repr) are transparent while no dictionary is loaded. They are not otherwise: a value cached before a load stays, and a tag first asked during a load can keep its untranslated text for ever.", "quantifier": "all schedules, any number of threads", "why_tests_cant": "Schedules cannot be enumerated by tests.", "anchors": ["pymorphy2/shapes.py:is_latin_char", "pymorphy2/tagset.py:OpencorporaTag.grammemes"]}
{"id": "C52", "title": "Hyphenated words", "statement": "HyphenatedWordsAnalyzer answers only for words with exactly one hyphen, inside the word, without a known prefix; each answer is left-part '-' right-part where the right part comes from a parse of the right half, and the left part is either the literal left half or a parse of it with the same part of speech, number, case, person and tense (rare cases identified).", "quantifier": "all words, all dictionaries", "why_tests_cant": "Universal over words.", "anchors": ["pymorphy2/units/by_hyphen.py:HyphenatedWordsAnalyzer"]}
{"id": "C53", "title": "Letter case does not matter for words", "statement": "If two spellings have the same lower-case form, the same length, the same shape classification and neither is an initial, parse() gives results with the same words, tags, normal forms and scores, and tag() the same tags.", "quantifier": "all pairs of words, all dictionaries", "why_tests_cant": "Universal over pairs of words.", "anchors": ["pymorphy2/analyzer.py:MorphAnalyzer.parse"]}
{"id": "C54", "title": "Memoised decorator respects a pre-filled cache", "statement": "With a non-empty starting cache the decorated function returns the cached value for cached arguments and the function value otherwise, and never calls the function twice for one argument.", "quantifier": "all caches, all call histories", "why_tests_cant": "Universal over call histories.", "anchors": ["pymorphy2/cache.py:memoized_with_single_argument"]}
{"id": "C55", "title": "Lexeme extraction from XML", "statement": "For a <lemma> element the compiler keeps the forms in order, lower-cased, each with tag 'lexeme grammemes' + ' ' + 'form grammemes' (stripped); a lemma without children or with a form without any grammeme gives no forms; it never yields a form with an empty tag.", "quantifier": "all lemma elements", "why_tests_cant": "Universal over XML trees.", "anchors": ["pymorphy2/opencorpora_dict/parse.py:_word_forms_from_xml_elem"]}
{"id": "C56", "title": "A saved dictionary loads as compiled", "statement": "Whatever lexemes were compiled: saving succeeds unless there are more than 65535 paradigms or a paradigm has more than 65535 items (then struct.error), and loading the saved folder gives exactly the compiled words, paradigms, suffixes, tags, prefixes, prediction tables and metadata.", "quantifier": "all lexeme lists, all target folders (with any old content), both byte orders", "why_tests_cant": "Universal over dictionaries and folder contents.", "anchors": ["pymorphy2/opencorpora_dict/storage.py:save_compiled_dict", "pymorphy2/opencorpora_dict/storage.py:load_dict", "pymorphy2/opencorpora_dict/compile.py:compile_parsed_dict"]}
{"id": "C57", "title": "Crash while saving a dictionary", "statement": "A process killed at any point of saving into a folder without metadata leaves a folder that load_dict refuses; over an existing dictionary, a torn file is never accepted (if loading succeeds the result is that of a kill between two file writes), but the result can be a mixture of the two dictionaries that answers with words of neither.", "quantifier": "all dictionaries, all crash points (between and inside writes), all previous folder contents", "why_tests_cant": "Crash points cannot be enumerated by unit tests.", "anchors": ["pymorphy2/opencorpora_dict/storage.py:save_compiled_dict", "pymorphy2/opencorpora_dict/storage.py:load_dict", "pymorphy2/opencorpora_dict/storage.py:_load_paradigms"]}
{"id": "C58", "title": "What the parse command prints", "statement": "`pymorphy parse` writes exactly one chunk `token{analyses}` per input token, in order (up to the first token whose analysis raises, whose exception ends the run). With tags, the analyses are those of parse() in its order, with the columns asked for and a score at least the threshold (tags only, without score and threshold: those of tag()); with lemmas and without tags they are the token's distinct normal forms with the sums of the scores of their analyses, each once, by decreasing total, ties in order of first appearance, those whose total reaches the threshold; raising the threshold only removes analyses. With --tokenized the tokens are the lines of the input that are not blank, stripped of surrounding whitespace, one token per line in order; without it each line is cut into tokens as by simple_word_tokenize.", "quantifier": "all inputs, all options, all dictionaries", "why_tests_cant": "Universal over texts and option combinations.", "anchors": ["pymorphy2/cli.py:parse", "pymorphy2/cli.py:_TokenParserFormatter"]}
{"id": "C59", "title": "Prediction by the ending uses the longest known ending, and all of it", "statement": "A result obtained by the ending of the word rests on the longest ending known for a paradigm prefix the word begins with; its tag, word, normal form and paradigm are those of the predicted form, its score (before P(t|w)) is count/(1+total of the ending) times the multiplier, only for words of at least min_word_length letters; and when such a result is returned, every productive prediction of every longest ending is among the results.", "quantifier": "all words, all well-formed dictionaries, all unit configurations (and the default ones)", "why_tests_cant": "Universal over words and prediction tables.", "anchors": ["pymorphy2/units/by_analogy.py:KnownSuffixAnalyzer.parse", "pymorphy2/units/by_analogy.py:KnownSuffixAnalyzer._possible_prefixes"]}
{"id": "C60", "title": "Prefix removal returns exactly the productive answers for the rest", "statement": "A result obtained by removing a prefix is a productive answer of parse() for the rest of the word (known prefix, rest at least min_remainder_length letters) or a productive dictionary entry the rest spells (unknown prefix of one to five letters, rest at least three), with the prefix put back in front of word and normal form; and when the answering group contains such a unit, each such answer, for every prefix, is represented among the results (same word, tag and paradigm).", "quantifier": "all words, dictionaries, unit configurations without an empty known prefix", "why_tests_cant": "Universal over words, dictionaries and configurations.", "anchors": ["pymorphy2/units/by_analogy.py:KnownPrefixAnalyzer.parse", "pymorphy2/units/by_analogy.py:UnknownPrefixAnalyzer.parse", "pymorphy2/utils.py:word_splits"]}
{"id": "C61", "title": "Particle removal and the adverb rule", "statement": "A result obtained by removing a hyphen-separated particle is an answer of parse() for the word without the first listed particle that ends it, with the particle put back, and every such answer is represented; the adverb rule answers only for 'по-' plus at least two letters when the rest can be a dative singular full adjective, with the word itself tagged ADVB, and that answer is the only one.", "quantifier": "all words, dictionaries and unit configurations", "why_tests_cant": "Universal over words and dictionaries.", "anchors": ["pymorphy2/units/by_hyphen.py:HyphenSeparatedParticleAnalyzer.parse", "pymorphy2/units/by_hyphen.py:HyphenAdverbAnalyzer.parse"]}
{"id": "C62", "title": "Scores of the default analyzers before P(t|w)", "statement": "Without P(t|w) data: dictionary and unknown words score 1, initials 0.1, numbers/punctuation/Latin/Roman 0.9, 'по-' adverbs 0.7; removing a particle multiplies the score parse() gives the rest by 0.9, compound words and known prefixes by 0.75, unknown prefixes by 0.5, and a prediction by ending has half of count/(1+total count of the ending).", "quantifier": "all words, all well-formed dictionaries, default Russian and Ukrainian units, any score arithmetic", "why_tests_cant": "Universal over words and dictionaries.", "anchors": ["pymorphy2/lang/ru/config.py:DEFAULT_UNITS", "pymorphy2/units/by_analogy.py", "pymorphy2/units/by_hyphen.py", "pymorphy2/units/abbreviations.py"]}
{"id": "C63", "title": "The P(t|w) table is the smoothed estimate from the corpus", "statement": "add_conditional_tag_probability stores an entry (word, tag) exactly for the lower-cased words that occur in the corpus at least min_word_freq times with a single (disambiguated, not UNKN) parse in a spelling the analyzer finds ambiguous, for every different tag of the word's parses, unless all of them were observed equally often; the value is (times observed with these grammemes + 1) / (times observed + max(number of tags, number of different observed grammeme sets)). Hence every value is in (0, 1], a tag observed more often has a larger value, and the values of a word add up to at most 1 when its different tags have different grammemes. An analyzer with this table scores each result of the word with the estimate of its tag up to 1e-6 (so the scores of results that share a tag can add up to more than 1).", "quantifier": "all corpora, all frequency thresholds, all analyzers, exact arithmetic", "why_tests_cant": "The estimate sums over arbitrary corpora and analyzers; the repository has no test of it.", "anchors": ["pymorphy2/opencorpora_dict/probability.py:add_conditional_tag_probability", "pymorphy2/opencorpora_dict/probability.py:estimate_conditional_tag_probability", "pymorphy2/opencorpora_dict/probability.py:build_cpd_dawg", "pymorphy2/dawg.py:ConditionalProbDistDAWG"]}
{"id": "C64", "title": "The Cyrillic gramtab, and what saving does to the tag classes", "statement": "The tags saved in the opencorpora-ext gramtab are the compiled tags with every grammeme replaced by its alias (if it has one), separators unchanged, as long as no grammeme name occurs inside another grammeme or alias; in a fresh process with all aliases present this is what lat2cyr gives. Saving a dictionary acts on the tag class shared by all analyzers like loading that dictionary twice. Loading the opencorpora-ext format succeeds exactly if the translated tags consist of Latin grammeme names of the table; so as soon as one grammeme is really translated it raises ValueError, and the first such attempt leaves the shared class with the incompatibilities of the new table. Aliases of dictionaries saved earlier in the process are still applied.", "quantifier": "all grammeme tables, all gramtabs, all previous states of the tag classes", "why_tests_cant": "Quantifies over class states left by earlier loads and saves and over all tables; the repository has no test of the Cyrillic class.", "anchors": ["pymorphy2/tagset.py:CyrillicOpencorporaTag", "pymorphy2/opencorpora_dict/storage.py:save_compiled_dict", "pymorphy2/opencorpora_dict/storage.py:load_dict"]}
{"id": "C65", "title": "From the OpenCorpora XML file to the analyzer", "statement": "If convert_to_pymorphy2 ran and did not raise on an OpenCorpora XML file (no duplicate lemma ids, links acyclic and with two ends, all grammemes declared, among them those the default units need), then MorphAnalyzer(path) on the output folder is constructed, has the language code of the conversion, ignores P(t|w) data left from an overwritten dictionary, answers every word, and parses every form of every lemma (lower-cased; forms of initials excepted) to a result with that word and the meaning of its tag, whose lexeme contains the forms of the lemma together and in document order, starts with the forms of the unlinked lemma from which links lead to it and begins with the normal form. Conversely every known word the analyzer enumerates, and every form of its lexeme, is a form of a lemma of the file with the meaning of its tag, and none is a form of initials (Init). An existing folder is left alone unless overwrite is given; a file that cannot be read or compiled leaves an existing dictionary as it was, but a new folder empty, so that repeating the conversion without overwrite silently does nothing; a failure while saving leaves nothing that can be loaded.", "quantifier": "all XML documents, options, languages, previous folder contents, and states of the tag classes", "why_tests_cant": "The tests compile one toy dictionary; the claim ranges over all dictionaries and composes six stages.", "anchors": ["pymorphy2/opencorpora_dict/compile.py:convert_to_pymorphy2", "pymorphy2/opencorpora_dict/compile.py:_create_out_path", "pymorphy2/opencorpora_dict/parse.py:parse_opencorpora_xml", "pymorphy2/opencorpora_dict/storage.py:save_compiled_dict", "pymorphy2/analyzer.py:MorphAnalyzer.__init__"]}
{"id": "C66", "title": "The prediction tables of a compiled dictionary are exactly the best guesses of the source", "statement": "After compilation the prediction table of a paradigm prefix contains (ending, count, paradigm, form) exactly when: the ending was observed at least min_ending_freq times on forms of lexemes that have a stem and a paradigm shared by at least min_paradigm_popularity lexemes (one observation per form and per length from that of its suffix, at least 1, to max_suffix_length); the form has the prefix; count is how often this form was observed with the ending; and no form of the same part of speech and prefix was observed with it more often. So a prediction by ending always rests on a source lexeme with that tag and ending. Lengths beyond the word count its whole spelling again: a form of n letters is counted max_suffix_length+1-n times for the ending that is the whole word.", "quantifier": "all source dictionaries, all options, all words", "why_tests_cant": "The counts depend on every lexeme of the dictionary; tests compile one toy dictionary.", "anchors": ["pymorphy2/opencorpora_dict/compile.py:_suffixes_prediction_data", "pymorphy2/opencorpora_dict/compile.py:_get_suffixes_dawg_data", "pymorphy2/opencorpora_dict/compile.py:_popular_keys", "pymorphy2/opencorpora_dict/compile.py:compile_parsed_dict"]}
{"id": "C67", "title": "Exactly which dictionaries can be compiled, saved and converted", "statement": "compile_parsed_dict accepts a source (whose links can be followed) exactly when: every prefix occurring in a paradigm is listed in paradigm_prefixes (its last position at most 65535), there are at most 65536 different suffixes, tags and paradigms, no joined lexeme has more than 65536 forms, and no winning prediction was observed more than 65535 times. The result can be saved exactly when there are at most 65535 paradigms and no lexeme has more than 21845 forms. convert_to_pymorphy2 succeeds exactly when the XML can be read, lemma ids are integers, grammemes have a name and an alias, links can be followed and both size conditions hold; between the two (a lemma with 21846 to 65536 forms) the conversion raises struct.error after overwriting the old dictionary.", "quantifier": "all source dictionaries and XML documents, all options, all previous folder contents", "why_tests_cant": "The limits are at sizes no test reaches and the claim is an equivalence over all sources.", "anchors": ["pymorphy2/opencorpora_dict/compile.py:compile_parsed_dict", "pymorphy2/opencorpora_dict/compile.py:_linearized_paradigm", "pymorphy2/opencorpora_dict/compile.py:convert_to_pymorphy2", "pymorphy2/opencorpora_dict/storage.py:save_compiled_dict", "pymorphy2/dawg.py:WordsDawg"]}
{"id": "C68", "title": "The command line", "statement": "`pymorphy parse` succeeds exactly if an analyzer for --dict/--lang can be constructed, the input can be opened, --thresh and --cache are numbers (or 'unlim'), lemmas or tags are printed, and every token can be analyzed; it then has written exactly one line per token. If it fails, nothing was written (it could not start) or the complete lines of all tokens before the failing one. With a sound dictionary no text of named letters makes it fail. Without any of -l -s -t all three columns are printed; --score alone always fails. The language is that of --lang (ru by default), never that of the dictionary; --dict goes before the environment variable, that before the installed package. `dict meta` prints one line for each metadata entry in the order of the file.", "quantifier": "all arguments, inputs, dictionaries, file systems and environments", "why_tests_cant": "Universal over option combinations, texts and installations, with an exact characterisation of failure.", "anchors": ["pymorphy2/cli.py:main", "pymorphy2/cli.py:_open_for_read", "pymorphy2/cli.py:parse", "pymorphy2/cli.py:show_dict_meta"]}
{"id": "C69", "title": "Unit objects can be shared between analyzers", "statement": "Constructing a unit succeeds exactly if every argument has a known name and no argument without default is missing; its parameters are the arguments or the defaults. Every unit, bound or not, can be cloned at any time and the clone has the same class and parameters. Constructing an analyzer with any unit objects (the same one several times, units of other analyzers, the module-level DEFAULT_UNITS) makes new, different unit objects with those parameters, changes no existing object, and gives the analyzer those parameters describe (or raises the same exception). Whatever happens later - constructing units or analyzers, changing the lists given to units - the analyzer keeps working with the same parameters, except that a list of particles is read again each time. Importing lang/ru and lang/uk makes exactly the documented default units. repr() of an analyzer's unit is that of the unit given. It names the class and each parameter with its value in alphabetical order, except that the lists of prefixes are shown as <...>.", "quantifier": "all programs (histories) that make and change lists, construct units and analyzers", "why_tests_cant": "Quantifies over all histories and sharing patterns of mutable objects.", "anchors": ["pymorphy2/units/base.py:BaseAnalyzerUnit.clone", "pymorphy2/units/base.py:BaseAnalyzerUnit._get_params", "pymorphy2/analyzer.py:MorphAnalyzer._bound_unit", "pymorphy2/analyzer.py:MorphAnalyzer._init_units", "pymorphy2/units/abbreviations.py:_InitialsAnalyzer", "pymorphy2/units/by_hyphen.py:HyphenSeparatedParticleAnalyzer", "pymorphy2/utils.py:kwargs_repr"]}
{"id": "C70", "title": "The optional C extension changes no answer", "statement": "The package works with the C extension dawg or, if it is not installed, with the pure-Python dawg-python, and the two use different prefix matchers. For every analyzer none of whose prefix lists contains the empty string - in particular the default Russian and Ukrainian ones - every parse and every tag returns (or raises) exactly the same with and without the extension, in the same order, even if the lists contain duplicates. In general the extension behaves as the pure-Python version does with the empty string removed from the lists; with an empty known prefix the pure-Python version never returns.", "quantifier": "all analyzers (all unit configurations), all words, all bounds on nested calls", "why_tests_cant": "A test environment has the extension or it does not; equality of the two variants for every word and configuration cannot be observed in one run.", "anchors": ["pymorphy2/dawg.py:DawgPrefixMatcher", "pymorphy2/dawg.py:PythonPrefixMatcher", "pymorphy2/dawg.py:PrefixMatcher", "pymorphy2/units/by_analogy.py:KnownPrefixAnalyzer.possible_splits", "pymorphy2/units/by_hyphen.py:HyphenatedWordsAnalyzer._should_parse"]}
{"id": "C71", "title": "Which rule answers", "statement": "The default analyzers try a fixed list of rules and the first one that applies makes the whole answer. Russian: (1) dictionary words and initials (a single capital letter А-Я or Ё except Ъ, Ы, Ь); (2) integers and decimal fractions, answered only as NUMB,intg or NUMB,real; (3) punctuation, only PNCT; (4) Roman numbers and words in Latin letters, ROMN and/or LATN; (5) a word followed by -то, -ка, -таки, -де, -тко, -тка, -с or -ста: the answer for the word with the particle put back; (6) по- and a dative singular full adjective: only ADVB; (7) two words joined by one hyphen without a known prefix; (8) a known prefix and at least three letters with a productive answer; (9) everything else: prediction by an unknown prefix or an ending (only for words of at least four letters), otherwise only UNKN. Ukrainian: the same without (6), with (4) merged into (1), its own letters and the particles -но, -таки, -бо, -от. For each rule the theorem says exactly when it applies (in terms of word_is_known, the shape of the word, and parse/tag of its parts) and what the answer then is; the answer is never empty.", "quantifier": "all default Russian and Ukrainian analyzers, all dictionaries, all words, all rules", "why_tests_cant": "The order of the rules matters on the overlaps of their domains, which are infinite and depend on the dictionary; tests check a few words per rule.", "anchors": ["pymorphy2/lang/ru/config.py:DEFAULT_UNITS", "pymorphy2/lang/uk/config.py:DEFAULT_UNITS", "pymorphy2/analyzer.py:MorphAnalyzer.parse", "pymorphy2/units/by_lookup.py", "pymorphy2/units/by_shape.py", "pymorphy2/units/by_hyphen.py", "pymorphy2/units/by_analogy.py", "pymorphy2/units/unkn.py"]}
{"id": "C72", "title": "The lexemes of known words are closed under parsing", "statement": "With a dictionary produced by the compiler and the default Russian or Ukrainian units: if parse(w) contains a dictionary result p, every form f of p.lexeme is itself a known word in every spelling that the character substitutes allow (word_is_known is True), and parsing such a spelling returns a result equal to f up to the score (same word, tag, normal form and methods), whose lexeme is again p.lexeme. Hence the results of inflect() and make_agree_with_number() for dictionary words are found again by parse(), and the normal form of a dictionary word is a known word that is its own normal form. For predicted words this fails.", "quantifier": "all source dictionaries the compiler accepts, all default analyzers over them, all words, all dictionary results, all forms, all spellings", "why_tests_cant": "Closure of the whole dictionary under inflection followed by parsing ranges over all dictionaries and all forms; tests sample a few lexemes of one dictionary.", "anchors": ["pymorphy2/analyzer.py:MorphAnalyzer.parse", "pymorphy2/analyzer.py:Parse.lexeme", "pymorphy2/analyzer.py:Parse.inflect", "pymorphy2/units/by_lookup.py:DictionaryAnalyzer", "pymorphy2/opencorpora_dict/compile.py:compile_parsed_dict", "pymorphy2/analyzer.py:MorphAnalyzer.word_is_known"]}
{"id": "C73", "title": "Double precision does not change the answers", "statement": "With scores computed in IEEE double precision (as CPython does) instead of exact arithmetic, a default Russian or Ukrainian analyzer returns for every word the same analyses (word, tag, normal form, methods) in the same order, the same tags, normal forms and lexemes, and raises the same exceptions, provided the counts of the prediction data for one ending sum to less than 2^25-1. In double precision too every parse score is positive and never above 1; without P(t|w) data for a word the scores add up to 1 within (n+3) units of 2^-52 for n analyses; with such data the list is sorted by score and each score is the double nearest to the stored value. inflect() in double precision returns a form that is best in exact arithmetic, and None in the same cases. Only exact ties of the similarity may be broken differently, and the sum of scores need not be exactly 1.", "quantifier": "all analyzers with the default units, all dictionaries and P(t|w) data (counts in range), all words, all grammeme sets", "why_tests_cant": "Rounding errors appear for specific combinations of scores; absence of an order flip, of a score above 1 or of an underflowing sum must hold for every combination of scores the units can produce.", "anchors": ["pymorphy2/analyzer.py:ProbabilityEstimator", "pymorphy2/analyzer.py:MorphAnalyzer.parse", "pymorphy2/analyzer.py:MorphAnalyzer._inflect", "pymorphy2/units/by_analogy.py:KnownSuffixAnalyzer.parse"]}
{"id": "C74", "title": "In what order results come", "statement": "The results of parse() and of tag() come in one definite order. If the P(t|w) data have something for the word, results with a larger stored probability come first; results with equal (or no) stored probability keep the order of the rule that answered (C71): dictionary entries spelling by spelling (the word as written first, a spelling with an earlier substitution before one with a later substitution) and in table order for one spelling, then initials, then Roman before Latin; for word+particle the order of the word; for compounds first the pairs (left by left), then the fixed-left readings in the order of the right part; for known prefixes the longest prefix first; for guesses first the words with a cut-off prefix, shortest prefix first, then the endings: parse() by the share of the prediction among all predictions for that ending, then last paradigm prefix first, then table order, and tag() by the count, then by the tag, largest first. For everything but guesses, particles and prefixes the tags are those of the parses in the same order; for guesses the two orders may differ.", "quantifier": "all default Russian and Ukrainian analyzers, dictionaries, P(t|w) data and words", "why_tests_cant": "Code takes the first result as the best one; that the first result is the one meant requires the order for every combination of entries, spellings, prefixes, counts and probabilities, including ties.", "anchors": ["pymorphy2/analyzer.py:ProbabilityEstimator.apply_to_parses", "pymorphy2/analyzer.py:ProbabilityEstimator.apply_to_tags", "pymorphy2/units/by_analogy.py:KnownSuffixAnalyzer", "pymorphy2/units/by_analogy.py:_PrefixAnalyzer", "pymorphy2/units/by_hyphen.py:HyphenatedWordsAnalyzer", "pymorphy2/units/by_lookup.py:DictionaryAnalyzer"]}
{"id": "C75", "title": "The grammeme attributes of a tag, by name", "statement": "Each of tag.POS, animacy, aspect, case, gender, involvement, mood, number, person, tense, transitivity and voice is None exactly when the tag has no grammeme of that category (the values of the twelve categories are those of the documentation's table), otherwise a grammeme of the tag of that category, and the only one if there is one, however sets are iterated. No grammeme belongs to two categories; tags with the same grammemes have the same attributes. Comparing an attribute that is not None with a string outside its category raises ValueError and nothing else does; otherwise == is equality and != its negation; `attr in [..]` raises exactly if a string outside the category comes before the value. Tags of numbers, punctuation, Latin words, Roman numbers and unknown words have no attribute at all. fix_rare_cases leaves no rare case and touches nothing else. is_productive() is false exactly for tags with NUMR, NPRO, PRED, PREP, CONJ, PRCL, INTJ or Apro.", "quantifier": "all tags, attributes, strings compared with, lists and set iteration orders", "why_tests_cant": "Code branches on tag.case == 'gent' and the like for arbitrary tags; set iteration order varies between runs.", "anchors": ["pymorphy2/tagset.py:OpencorporaTag", "pymorphy2/tagset.py:_select_grammeme_from", "pymorphy2/tagset.py:TypedGrammeme", "pymorphy2/tagset.py:OpencorporaTag.fix_rare_cases"]}
{"id": "C76", "title": "Calling the converter: extension, options, metadata", "statement": "convert_to_pymorphy2 without the C extension raises NotImplementedError before touching anything. Missing compile options get the defaults (min_ending_freq 2, min_paradigm_popularity 3, max_suffix_length 5), but paradigm_prefixes has none: without it (in particular without the optional argument compile_options) the conversion never succeeds - KeyError after the XML file has been read - and leaves a new output folder empty, after which every conversion into it without overwrite silently does nothing. With paradigm_prefixes the conversion is the one of C65/C67; with a list that contains the empty prefix, as those of lang/ru and lang/uk, no lexeme is refused because of its prefixes. The metadata of a converted dictionary are, in this order, the 16 documented entries; language, source, version and revision are those given, the counts are the number of different lemma ids and of links of the document and the sizes of the tables one gets when loading the folder, and the options are those the compiler used.", "quantifier": "all documents, options, previous folder contents, states of the tag classes", "why_tests_cant": "the tests convert one document with one complete set of options, and skip the conversion without the extension", "anchors": ["pymorphy2/opencorpora_dict/compile.py:convert_to_pymorphy2", "pymorphy2/opencorpora_dict/compile.py:compile_parsed_dict", "pymorphy2/opencorpora_dict/storage.py:save_compiled_dict", "pymorphy2/dawg.py:assert_can_create", "pymorphy2/lang/ru/config.py:PARADIGM_PREFIXES", "pymorphy2/lang/uk/config.py:PARADIGM_PREFIXES"]}
{"id": "C77", "title": "A list of known prefixes is a set of lower-case prefixes", "statement": "parse() and tag() give the same answers (or raise the same exceptions) if the lists of known and skipped prefixes are reordered, get repetitions, or get or lose prefixes that are not in lower case (p.lower() != p); the same for particles that are not in lower case. So the 75 of the 445 prefixes configured for Ukrainian that contain a capital letter (2D-, USB-, ...) are never used: words beginning with them are analyzed as compounds. No Russian prefix and no particle contains one. The C extension makes no difference.", "quantifier": "all analyzers, prefix and particle lists, words and recursion budgets", "why_tests_cant": "The tests use the shipped lists on a few words; that a list entry has no effect is a statement about all words.", "anchors": ["pymorphy2/units/by_analogy.py:KnownPrefixAnalyzer.possible_splits", "pymorphy2/units/by_hyphen.py:HyphenatedWordsAnalyzer._should_parse", "pymorphy2/units/by_hyphen.py:HyphenSeparatedParticleAnalyzer.possible_splits", "pymorphy2/dawg.py:PythonPrefixMatcher", "pymorphy2/lang/uk/_prefixes.py:KNOWN_PREFIXES", "pymorphy2/lang/uk/config.py:DEFAULT_UNITS"]}
{"id": "C78", "title": "Nested calls of parse() and tag(): on which words, how deep, how many", "statement": "While parse(w) (or tag(w)) of a default analyzer runs, every nested call at every level is on a contiguous piece of w.lower() that is shorter than it; so calls nest at most len(w.lower()) deep and at most n(n+1)/2 different words are analyzed, n = len(w.lower()). A word without a hyphen that is not a known prefix followed by three letters makes no nested call. But the number of calls is not bounded by a polynomial: for an unknown word made of k copies of 'небез' and a tail of at least three letters at least 3*2^k-2 calls are made, because 'не', 'без' and 'небез' are all known prefixes and no result is reused.", "quantifier": "all words, all dictionaries of the default Russian and Ukrainian analyzers, all chains of nested calls, all k", "why_tests_cant": "Nesting depth and number of calls range over words of every length; the blow-up is only visible on words no test contains.", "anchors": ["pymorphy2/analyzer.py:MorphAnalyzer.parse", "pymorphy2/analyzer.py:MorphAnalyzer.tag", "pymorphy2/units/by_analogy.py:KnownPrefixAnalyzer", "pymorphy2/units/by_hyphen.py:HyphenatedWordsAnalyzer", "pymorphy2/lang/ru/_prefixes.py:KNOWN_PREFIXES"]}
{"id": "C79", "title": "For known words the answer is exactly what the source dictionary says", "statement": "Over a dictionary produced by the compiler, the dictionary results of parse(w) of a default analyzer correspond one to one to the occurrences of w (in any allowed spelling) in the different linked lexemes of the source: each occurrence gives exactly one result, with its word and tag, with the first word of the lexeme as normal form and the source lexeme as lexeme, and there are no other dictionary results; word_is_known(w) says whether there is one. Hence two compiled dictionaries whose sources contain the same lexemes with w give the same dictionary results for w up to order, and adding lexemes in which w does not occur changes nothing for w, as far as w is a known word. For unknown words additions do change the predictions.", "quantifier": "all source dictionaries the compiler accepts, all compiler options, all default analyzers over the results, all words, all lists of added lexemes", "why_tests_cant": "Tests look up a few words of one dictionary; independence from the rest of the dictionary ranges over all dictionaries and all additions.", "anchors": ["pymorphy2/opencorpora_dict/compile.py:compile_parsed_dict", "pymorphy2/opencorpora_dict/compile.py:_join_lexemes", "pymorphy2/units/by_lookup.py:DictionaryAnalyzer.parse", "pymorphy2/analyzer.py:MorphAnalyzer.word_is_known"]}
{"id": "C80", "title": "With the string functions of CPython 3.11: every string is analyzed, except that Tangut letters raise ValueError", "statement": "With the string functions of CPython 3.11 (Unicode 14.0) the conditions the other properties put on the interpreter hold: lower-casing a piece of a lower-cased string changes nothing (also with the context-dependent Greek sigma and the Turkish dotted I), no capital Latin, Russian or Ukrainian letter survives it, initials are capitals. A letter has no Unicode name exactly if it is a Tangut ideograph (U+17000-U+187F7, U+18D00-U+18D08). So parse(w) and tag(w) of a default analyzer over a sound dictionary return non-empty lists for every string without Tangut ideographs, while for every unknown word in which a Tangut ideograph comes before all letters that are not Latin both raise ValueError. (An unmodified CPython 3.11 has these string functions but no inspect.getargspec, without which no default analyzer can be constructed: C91.)", "quantifier": "all strings of Unicode scalar values, all sound dictionaries of the default Russian and Ukrainian analyzers", "why_tests_cant": "There are more than a million characters and lower-casing depends on the context of a character; that nothing goes wrong for any string has to be derived from the tables of the interpreter.", "anchors": ["pymorphy2/shapes.py:is_latin_char", "pymorphy2/shapes.py:is_latin", "pymorphy2/analyzer.py:MorphAnalyzer.parse", "pymorphy2/analyzer.py:MorphAnalyzer.tag", "pymorphy2/units/by_shape.py:LatinAnalyzer"]}
{"id": "C81", "title": "Which words are numbers on CPython", "statement": "With the string functions of CPython 3.11 (and an inspect.getargspec, see C91) the number test of the analyzers accepts exactly this grammar. Integers: blanks, an optional sign, at most 4300 decimal digits of any script with single underscores allowed between digits, blanks. Reals: the same with an optional point or comma (digits on at least one side), an optional exponent e/E with sign and digits, any number of digits; or inf, infinity, nan in any letter case. Blanks are tab to carriage return, space, and the white space outside ASCII, but not U+001C-U+001F. An unknown word that is no initial (in Ukrainian: neither Roman nor Latin either) has exactly one analysis: NUMB,intg if it is an integer, otherwise NUMB,real if it is a real. Hence 'NaN', 'inf' and 'Infinity' are real numbers for the Russian analyzer, and integers of more than 4300 digits are tagged as reals.", "quantifier": "all words, all dictionaries of the default Russian and Ukrainian analyzers", "why_tests_cant": "The set of accepted texts is infinite and the code delegates to int() and float(), whose languages are only described by examples in the tests.", "anchors": ["pymorphy2/units/by_shape.py:NumberAnalyzer.check_shape", "pymorphy2/units/by_shape.py:NumberAnalyzer.get_tag", "pymorphy2/analyzer.py:MorphAnalyzer.parse"]}
{"id": "C82", "title": "restore_capitalization on CPython 3.11", "statement": "On CPython 3.11 (Unicode 14), for every word and example: the restored word equals the word up to letter case, character for character (lower-case each character, then upper-case it), and has as many hyphens. A non-empty word of Russian, Ukrainian or English letters gets the case of an example without hyphens: lower from lower, upper from upper, title from title, lower from mixed case. Restoring twice is restoring once, unless the word has one of 28 characters that title-casing takes apart (İ, ΐ, ẖ, ...). A word whose hyphen-separated parts are all in lower, upper or title case is restored from itself, unless it has a capital digraph Ǆ, Ǉ, Ǌ, Ǳ. All 32 exceptions are real.", "quantifier": "all pairs of strings", "why_tests_cant": "Tests try a few words; here the claim ranges over all strings of Unicode, with characters whose upper case is longer, title-case letters and the final sigma.", "anchors": ["pymorphy2/shapes.py: restore_capitalization, _make_the_same_case"]}
{"id": "C83", "title": "Texts on CPython", "statement": "With the string functions of CPython 3.11 (and an inspect.getargspec, see C91), for every text: simple_word_tokenize returns exactly the maximal runs of word characters (\\w, _ and -, but not +) and the single other characters that are not white space, in order; the tokens glued together are the text without its white space; tokenizing the tokens joined by blanks gives the same tokens; and a text may be cut at any character that is not a word character (in particular at line ends) and the parts tokenized separately. A character that is not a word character never shares a token with another one; apostrophes, combining accents (stress marks, й or ё in two characters), soft hyphens, points, commas and plus signs are such characters, so a word with one inside is always split in three tokens. With the default Russian or Ukrainian units over a sound dictionary every token of a text without Tangut ideographs gets a non-empty answer from parse and from tag, and a single non-word character that is not in the dictionary is analyzed as PNCT if its Unicode category is punctuation, otherwise as UNKN, and nothing else.", "quantifier": "all texts; all default Russian and Ukrainian analyzers on CPython, all sound dictionaries, all characters", "why_tests_cant": "The set of texts is infinite and the character classes range over all of Unicode; a test tries a handful of sentences in one script.", "anchors": ["pymorphy2/tokenizers.py:simple_word_tokenize", "pymorphy2/tokenizers.py:GROUPING_SPACE_REGEX", "pymorphy2/shapes.py:is_punctuation", "pymorphy2/units/by_shape.py:PunctuationAnalyzer", "pymorphy2/units/unkn.py:UnknAnalyzer", "pymorphy2/analyzer.py:MorphAnalyzer.parse"]}
{"id": "C84", "title": "Which forms inflect() can reach", "statement": "For every parse and every form f of its lexeme whose grammemes the tag class knows, inflect(all grammemes of f) never raises and never returns None: it returns a form of the lexeme with all these grammemes; and if no form of the lexeme has still more grammemes, it returns the first form of the lexeme with exactly the grammemes of f, so f itself if f is the first of its kind. Of two forms with the same grammemes (the variants рукой and рукою) the later one is returned by inflect for no request at all. For words without a hyphen the forms reach each other: inflecting from any form to such a form b and back to such a form a gives a again.", "quantifier": "all words, all dictionaries, all parses, all forms of their lexemes, all requested grammeme sets", "why_tests_cant": "The lexemes are those of any dictionary and the requests are any sets of grammemes; that no request at all yields the later variant cannot be tested by trying requests.", "anchors": ["pymorphy2/analyzer.py:Parse.inflect", "pymorphy2/analyzer.py:MorphAnalyzer._inflect", "pymorphy2/tagset.py:OpencorporaTag.updated_grammemes", "pymorphy2/tagset.py:OpencorporaTag.fix_rare_cases"]}
{"id": "C85", "title": "End to end on CPython: from the XML file to the analyzed text", "statement": "With the string functions of CPython 3.11 (and an inspect.getargspec, see C91): if an OpenCorpora XML file that declares the grammemes the rules use is converted successfully (into a new folder or with overwrite) and a MorphAnalyzer is made from that folder with the default arguments, the construction succeeds; parse and tag give a non-empty answer with positive scores for every token of every text without Tangut ideographs; every form of every lemma of the file (initials left out) is found by parse, with its meaning and with a lexeme that contains all forms of the lemma, all grammemes of which are declared in the file; and from that analysis inflect reaches every form of the lemma: asking for the grammemes of a form b of the lexeme gives a form with all of them, namely b itself unless the lexeme has a form with still more grammemes or an earlier one with the same.", "quantifier": "all well-formed OpenCorpora documents, all conversion options and previous folder contents, all texts, all lemmas and all pairs of their forms", "why_tests_cant": "It ranges over all dictionaries and all texts, through the whole tool chain; tests use one small dictionary.", "anchors": ["pymorphy2/opencorpora_dict/compile.py:convert_to_pymorphy2", "pymorphy2/analyzer.py:MorphAnalyzer.__init__", "pymorphy2/analyzer.py:MorphAnalyzer.parse", "pymorphy2/analyzer.py:MorphAnalyzer.tag", "pymorphy2/analyzer.py:Parse.inflect", "pymorphy2/tokenizers.py:simple_word_tokenize"]}
{"id": "C86", "title": "Numbers in texts on CPython", "statement": "With the string functions of CPython 3.11 (and an inspect.getargspec, see C91), for every token of every text: the token is a whole number for the analyzer (NUMB,intg) exactly if it is digits of any script, at most 4300, perhaps with single underscores inside and a minus sign before; it is a real number exactly if it is that, or digits with an exponent without plus sign, or inf, infinity or nan in any case; it is a Roman number exactly if it writes a number from 1 to 4999 in capital or small Roman letters, İ and ı standing for I too. Numbers with a decimal point or comma are never a token: they are split in two whole numbers and a punctuation mark, which the default Russian and Ukrainian analyzers tag NUMB,intg, PNCT, NUMB,intg if the dictionary does not have them. A plus sign is split off.", "quantifier": "all texts, all their tokens, all digits of all scripts, all default analyzers on CPython", "why_tests_cant": "The set of tokens is infinite and covers all scripts of Unicode; a test has a few ASCII numbers.", "anchors": ["pymorphy2/tokenizers.py:simple_word_tokenize", "pymorphy2/units/by_shape.py:NumberAnalyzer", "pymorphy2/units/by_shape.py:RomanNumberAnalyzer", "pymorphy2/shapes.py:is_roman_number"]}
{"id": "C87", "title": "P(t|w) computed and stored in double precision", "statement": "Estimating P(t|w) in floating point finds the same words and tags as exact arithmetic (no word is dropped or kept because two different estimates round to one float), with the double nearest to the exact value for each. In the file a probability p is stored as the whole part of p*1000000, except that when p*1000000 is a whole number it may be stored as one less. A higher probability is never stored as a lower number, and nothing is stored for other words and tags. An analyzer that reads the file returns the results of a word in the order of the stored numbers, and scores that differ from the estimates by at most a millionth (and one rounding).", "quantifier": "all default analyzers, all corpora up to 2^30 words, all words and tags, all thresholds", "why_tests_cant": "The claim is about every quotient of counts; the estimates whose stored value is off by one are rare and depend on rounding.", "anchors": ["pymorphy2/opencorpora_dict/probability.py:build_cpd_dawg", "pymorphy2/opencorpora_dict/probability.py:estimate_conditional_tag_probability", "pymorphy2/opencorpora_dict/probability.py:_all_the_same", "pymorphy2/dawg.py:ConditionalProbDistDAWG", "pymorphy2/analyzer.py:SingleTagProbabilityEstimator"]}
{"id": "C88", "title": "Adding P(t|w) to a dictionary", "statement": "add_conditional_tag_probability(corpus, path, min_word_freq) succeeds for every dictionary that loads and every corpus whose words can be analyzed; if it raises, no file has been touched. Afterwards only p_t_given_w.intdawg and meta.json are different; the metadata has P(t|w) true, the number of observations (words of the corpus with one analysis that is not UNKN and that are ambiguous for the analyzer), the number of different lower-case words among them and the threshold, and keeps all other entries and their order. Every analyzer made of the folder is the one it would have been without P(t|w) data, with the new table (with probability_estimator_cls=None: the one without); its scores are the estimates from the corpus, up to a millionth. Calling again with the same or another corpus gives the folder the last call alone would give. If the process is killed at any time, constructing an analyzer raises or gives exactly the old or the new analyzer, and repeating the call gives the same folder as an undisturbed call, unless the kill hit the writing of meta.json: then the dictionary can no longer be loaded.", "quantifier": "all dictionaries, corpora, thresholds, constructor arguments, kill points, sequences of calls", "why_tests_cant": "Kill points inside writes and histories of calls cannot be enumerated by tests, and the claim ranges over all corpora and dictionaries.", "anchors": ["pymorphy2/opencorpora_dict/probability.py:add_conditional_tag_probability", "pymorphy2/opencorpora_dict/probability.py:estimate_conditional_tag_probability", "pymorphy2/opencorpora_dict/storage.py:update_meta", "pymorphy2/analyzer.py:MorphAnalyzer._get_prob_estimator"]}
{"id": "C89", "title": "Chains of operations on results", "statement": "Take any result of parse (default Russian or Ukrainian analyzer) and do to it any number of operations, one after the other, each on what the previous one returned: pick a form of the lexeme, normalized, inflect with any grammemes, make_agree_with_number with any number. Then: what is met on the way is always, up to the score, the first result or a form of its lexeme, and has its normal form; its lexeme exists and is the lexeme of the first result (same words, tags, normal forms and methods in the same order); normalized exists and is the first form of that lexeme; inflect with known grammemes succeeds at every point, is None exactly if no form of the first result's lexeme carries the grammemes (nor their common-case variants), and otherwise is a form of that lexeme which carries them - so what can be reached does not depend on the way.", "quantifier": "all default analyzers with a well-formed dictionary, words, results (predicted ones: paradigm prefix not reaching into the predicted ending; compounds: the condition of C13), sequences of operations of any length with any arguments, similarity arithmetics", "why_tests_cant": "The claim is about all histories of calls; tests follow a few chains of one or two calls on a few words.", "anchors": ["pymorphy2/analyzer.py:Parse", "pymorphy2/analyzer.py:MorphAnalyzer._inflect", "pymorphy2/analyzer.py:MorphAnalyzer.get_lexeme", "pymorphy2/units/by_lookup.py:DictionaryAnalyzer.normalized", "pymorphy2/units/by_hyphen.py:HyphenatedWordsAnalyzer.get_lexeme", "pymorphy2/units/abbreviations.py:InitialsAnalyzer"]}
{"id": "C90", "title": "Answers do not depend on the hash seed", "statement": "Python enumerates sets of strings in an order that depends on PYTHONHASHSEED. inflect gives the same form, None or exception in whatever order the required set (and the set with common cases in place of rare ones) is enumerated. The attributes POS, case, gender, ... of a tag do not depend on the order exactly if the tag has at most one grammeme of the category; make_agree_with_number does not depend on it for tags with at most one part of speech, case and gender (with two genders it can). largest_elements selects the same elements whatever the order of the set of keys, and the sorted table of suffixes of a compiled dictionary is the same whatever the order of the set of suffixes.", "quantifier": "all analyzers, forms, sets of grammemes and their enumerations (with any repetitions), all choices of a first element of a set, numbers, lists and key functions, paradigms", "why_tests_cant": "One process has one hash seed; a test run sees one enumeration order per set.", "anchors": ["pymorphy2/tagset.py:OpencorporaTag.updated_grammemes", "pymorphy2/tagset.py:_select_grammeme_from", "pymorphy2/analyzer.py:MorphAnalyzer._inflect", "pymorphy2/tagset.py:OpencorporaTag.numeral_agreement_grammemes", "pymorphy2/utils.py:largest_elements", "pymorphy2/opencorpora_dict/compile.py:linearized_paradigm"]}
{"id": "C91", "title": "Interpreters without inspect.getargspec", "statement": "Cloning a unit calls inspect.getargspec, which CPython 3.11 and later do not have. There MorphAnalyzer(...) with the default units always fails: with the error of loading the dictionary if it cannot be loaded, otherwise with AttributeError. An analyzer can be constructed exactly if it could be on an older interpreter and its units are only DictionaryAnalyzer and UnknAnalyzer, and then it is the same analyzer; with any other unit AttributeError is raised. repr() and clone() of units behave accordingly.", "quantifier": "all systems (folders, packages, environment), all states of the tag class, all constructor arguments, all unit objects, interpreters with and without getargspec", "why_tests_cant": "A test run has one interpreter and some lists of units; the claim is about all of them.", "anchors": ["pymorphy2/units/base.py:BaseAnalyzerUnit._get_param_names", "pymorphy2/units/base.py:BaseAnalyzerUnit.clone", "pymorphy2/units/base.py:BaseAnalyzerUnit.__repr__", "pymorphy2/analyzer.py:MorphAnalyzer._bound_unit", "pymorphy2/analyzer.py:MorphAnalyzer.__init__"]}
{"id": "C92", "title": "JSON files down to the bytes", "statement": "Whatever value without floats json_write puts into a file, json_read gives back from its bytes: quotes, line breaks, control characters, Cyrillic letters and characters outside the basic plane in strings and keys, any nesting, any integers. If a list or a dict was being written and only some of the bytes got into the file, json_read raises ValueError at every length but the full one (also inside a character, a string, a number, or after an inner bracket). So a process killed at any byte while save_compiled_dict or update_meta writes leaves a folder in which each JSON file is as before, complete, or refused: a fresh folder is refused unless all the bytes are there, and what loads is what some whole number of files written in full would give.", "quantifier": "all JSON values (lists, dicts, strings, integers, booleans, None), all byte positions, all byte strings as input, all dictionaries being saved, all folders saved into, all moments of a kill", "why_tests_cant": "A test writes some values and cuts them at some positions; the claim is about all values and every byte position.", "anchors": ["pymorphy2/utils.py:json_write", "pymorphy2/utils.py:json_read", "pymorphy2/opencorpora_dict/storage.py:save_compiled_dict", "pymorphy2/opencorpora_dict/storage.py:update_meta", "pymorphy2/opencorpora_dict/storage.py:load_dict"]}
{"id": "C93", "title": "Operations on results never fail", "statement": "Whatever one does, one operation after the other, to a result of parse — taking forms of the lexeme, normalizing, inflecting, agreeing with numbers — the lexeme of every object met on the way exists and is not empty, the object can be normalized, and inflected into any known grammemes (the answer may be None); no operation raises. make_agree_with_number raises only for a noun that has no case, and then ValueError. This holds for every word, including those for which the lexeme is wrong (C14) or the chain leaves it.", "quantifier": "all dictionaries that pass the consistency conditions, all words, all analyses of the default Russian and Ukrainian analyzers, all finite chains of operations with any arguments, all numbers", "why_tests_cant": "Tests run some operations on some words; chains of operations have no bound, and failures such as an empty lexeme would hide in rare words.", "anchors": ["pymorphy2/analyzer.py:Parse", "pymorphy2/analyzer.py:MorphAnalyzer.get_lexeme", "pymorphy2/analyzer.py:MorphAnalyzer._inflect", "pymorphy2/units/by_hyphen.py:HyphenatedWordsAnalyzer", "pymorphy2/units/by_lookup.py:DictionaryAnalyzer", "pymorphy2/units/abbreviations.py:_InitialsAnalyzer"]}
{"id": "C94", "title": "Values of attributes stand for grammemes", "statement": "tag.case, tag.number and the other attributes give strings of a special type whose == raises ValueError for strings outside the category. Still, such a value can be used wherever a grammeme can: asking whether it is in a set (of strings or of such values, of any category) never raises and looks at the characters only; inflect with such values in the required set is inflect with plain strings; make_agree_with_number, which itself compares such values and puts one into a set, never raises because of that and gives what plain strings give. Two values of the same attribute can be compared; values of different attributes raise ValueError. Setting typed_grammemes = False changes nothing but these errors. All this provided no two different grammemes in play have the same hash; with a collision, asking whether a value is in a set does raise.", "quantifier": "all tags, attributes, sets of strings and attribute values in any order of their hash tables, all hash functions (without collisions among the strings in play), all analyses, numbers, and both settings of typed_grammemes", "why_tests_cant": "Equality that raises may be called by any lookup, depending on hash values that differ from run to run; tests see few of them.", "anchors": ["pymorphy2/tagset.py:_select_grammeme_from", "pymorphy2/tagset.py:OpencorporaTag.typed_grammemes", "pymorphy2/tagset.py:OpencorporaTag.numeral_agreement_grammemes", "pymorphy2/tagset.py:OpencorporaTag.updated_grammemes", "pymorphy2/tagset.py:OpencorporaTag.fix_rare_cases", "pymorphy2/analyzer.py:MorphAnalyzer._inflect"]}
{"id": "C95", "title": "Which tags appear in answers", "statement": "The set of tags an analyzer can answer with is closed and known in advance. For the default Russian and Ukrainian analyzers, over any dictionary, the tag of every result of parse(word), for every word, and of every object obtained from results by any chain of lexeme, normalized, inflect and make_agree_with_number, is one of the tags of the dictionary, or one of 30 fixed tags (UNKN, PNCT, LATN, ROMN, 'NUMB,intg', 'NUMB,real', and twelve tags each for initials of first names and of patronymics), or, in Russian only, ADVB; the answers of tag() are equal (==) to such tags. And however an analyzer was constructed (any folder, any arguments, any list of units), right after construction every grammeme of every tag so obtained is in TagClass.KNOWN_GRAMMEMES, so that TagClass(str(tag)) gives the tag again and membership tests on these grammemes do not raise.", "quantifier": "all dictionaries, words, results, chains of operations; for the second part all folders, constructor arguments and lists of units", "why_tests_cant": "A test sees the tags of the words it tries; that no word at all, and no sequence of operations, produces a tag outside the set needs induction over the nested calls of the units and over the operations.", "anchors": ["pymorphy2/analyzer.py: MorphAnalyzer.parse, Parse", "pymorphy2/units/abbreviations.py: TAG_PATTERN, _get_gender_case_tags", "pymorphy2/units/by_shape.py", "pymorphy2/units/by_hyphen.py: HyphenAdverbAnalyzer", "pymorphy2/units/unkn.py", "pymorphy2/units/by_lookup.py: get_lexeme, normalized", "pymorphy2/tagset.py: OpencorporaTag.__init__, add_grammemes_to_known"]}
{"id": "C96", "title": "Only the relevant part of a dictionary matters", "statement": "Let two analyzers differ in nothing but their dictionaries, and let the dictionaries agree on what concerns a word: the same paradigm prefixes and maximal ending length, every paradigm of the first is in the second (under another number, perhaps; tags and suffixes may be numbered differently), and for every string that is a spelling of a part of the lower-cased word both have the same word entries and the same ending predictions, in the same order. Then parse(word) gives in both the same results in the same order, or raises the same exception: words, tags, normal forms and scores are equal, and the methods stacks are equal up to the numbers of the paradigms; tag(word), normal_forms(word) and word_is_known(word) are equal; and every chain of lexeme, normalized, inflect and make_agree_with_number on a result gives corresponding objects in both. In particular, adding words, paradigms, tags, suffixes and endings none of whose keys is a spelling of a part of the word changes nothing at all about the word.", "quantifier": "all pairs of analyzers with any units and any (well-formed) dictionaries, all injective renumberings of paradigms, all words, all chains of operations", "why_tests_cant": "The claim is about every dictionary that shares the relevant entries with a given one, and about nested calls for all parts of a word; a test compares two dictionaries on a few words.", "anchors": ["pymorphy2/units/by_lookup.py: DictionaryAnalyzer", "pymorphy2/units/by_analogy.py: KnownSuffixAnalyzer, UnknownPrefixAnalyzer, KnownPrefixAnalyzer", "pymorphy2/units/by_hyphen.py", "pymorphy2/units/utils.py: add_parse_if_not_seen", "pymorphy2/analyzer.py: MorphAnalyzer.parse, tag, normal_forms, word_is_known, Parse", "pymorphy2/opencorpora_dict/wrapper.py: build_tag_info, build_paradigm_info, build_normal_form, build_stem"]}
{"id": "C97", "title": "No analysis is listed twice", "statement": "parse(word) of a default analyzer never lists two analyses that agree in methods_stack and tag (tags compared as the library compares them), for any word, any dictionary that stores no record twice and any P(t|w) data. For every word other than a capital letter that is taken for an initial, already the methods stacks are pairwise different, so methods_stack identifies an analysis among the analyses of its word (word, tag, normal form and score do not: homonymous paradigms may agree in all of them). The same holds for an analyzer configured with any other units whose arguments list nothing twice.", "quantifier": "all words, all dictionaries without repeated records, all proper substitution tables, all score types, all lists of configured units; nested analyses of any depth", "why_tests_cant": "The claim concerns pairs of results produced by different units and by nested calls on parts of the word, for all words and dictionaries.", "anchors": ["pymorphy2/analyzer.py: MorphAnalyzer.parse", "pymorphy2/units/utils.py: add_parse_if_not_seen", "pymorphy2/units/by_lookup.py: DictionaryAnalyzer.parse", "pymorphy2/units/by_analogy.py", "pymorphy2/units/by_hyphen.py: HyphenatedWordsAnalyzer.parse", "pymorphy2/units/abbreviations.py"]}
{"id": "C98", "title": "How much work an analysis is", "statement": "The calls of parse and tag made while one word is analyzed: parse(word) of a word of k letters makes at most 9^k calls with the Russian units and 7^k with the Ukrainian ones (so it ends), the same for tag. For a word without a hyphen the calls are exactly known: besides the call itself, parse is called on what is left of the word when known prefixes are taken off, at most once for each sequence of prefixes that can be taken off leaving three letters, and for a word no part of which is recognized exactly once for each; parse makes no calls of tag and tag none of parse. For any word, the calls an analysis makes itself are an initial part of a fixed list: the word without its particle, (Russian) tag of what follows по-, the two parts of a compound, what follows each known prefix, longest first; all of them are made if the answer is a prediction, none if the word is in the dictionary. There are words for which this is exponential: since не, до and недо are all known prefixes and results are not shared, the word недо…недоъъъ of 4k+3 letters takes at least 2^k calls.", "quantifier": "all words, all dictionaries, all substitution tables and P(t|w) data, both languages, any limit of nested calls; for the lower bound all k and all dictionaries with no word ending in ъъъ", "why_tests_cant": "A test can time some words; the bound has to hold for all words and dictionaries, and the growth for all lengths.", "anchors": ["pymorphy2/analyzer.py: MorphAnalyzer.parse, MorphAnalyzer.tag", "pymorphy2/units/by_analogy.py: KnownPrefixAnalyzer", "pymorphy2/units/utils.py: word_splits, without_fixed_prefix", "pymorphy2/units/by_hyphen.py", "pymorphy2/lang/ru/config.py: KNOWN_PREFIXES"]}
{"id": "C99", "title": "The first analysis has the highest score, except for compounds and known prefixes", "statement": "The user guide says that the results of parse() are sorted by falling score, and that the analyses of a dictionary word without P(tag|word) data are equally probable. For a default analyzer: (a) whenever the first rule that applies to the word is the one for dictionary words and initials, numbers, punctuation, Roman/Latin tokens, adverbs in по-, or guessing (unknown prefix, ending, UNKN), the results come with non-increasing scores, with and without P(t|w) data; for a word with a particle they do if those of the word without it do; (b) if a dictionary word has n analyses and no data, each score is exactly 1/n, and a known one-letter word that is also an initial has scores 1/(n+2.4) for the n dictionary analyses and a tenth of that for each of the 24 initials; (c) for compounds (C11) and for words with two known prefixes the list can be unsorted, so parse(w)[0] need not be the most probable analysis.", "quantifier": "every word, every well-formed dictionary, every table of P(t|w) values not above 1, Russian and Ukrainian analyzers", "why_tests_cant": "sortedness must hold for all words and dictionaries; the order is only established by sorting when there is P(t|w) data, otherwise it depends on how the rules concatenate their results", "anchors": ["pymorphy2/analyzer.py: ProbabilityEstimator.apply_to_parses, MorphAnalyzer.parse", "pymorphy2/units/by_analogy.py: KnownSuffixAnalyzer.parse, UnknownPrefixAnalyzer.parse, KnownPrefixAnalyzer.parse", "pymorphy2/units/abbreviations.py: _InitialsAnalyzer", "pymorphy2/units/by_hyphen.py: HyphenSeparatedParticleAnalyzer.parse", "docs/user/guide.rst: section on choosing the correct analysis"]}
{"id": "C100", "title": "Scores neither underflow nor overflow", "statement": "Scores are Python floats, whose exponent is bounded: products of many small factors become 0, and then normalising would divide by zero or analyses would lose their score. This does not happen. For a default analyzer and a word of at most 996 letters (with P(t|w) data: of at most 997/(j+1)-1 letters if neither the word nor any part of it has more than 2^j analyses, for example 89 letters and 1024 analyses) parse, tag and normal_forms computed in IEEE binary64 arithmetic, with gradual underflow, infinities and NaN, give exactly the analyses, order, scores and exceptions that double rounding with an unlimited exponent gives (C73), hence the analyses and order of exact arithmetic; every score is 0 or a normal number from 2^-1022 to 1, and positive for a healthy dictionary. inflect picks the same form.", "quantifier": "all words up to the given length, all dictionaries with less than 2^25-1 predictions per word ending, all P(t|w) tables with values up to 1, both languages, all required grammemes", "why_tests_cant": "Underflow appears only for deeply nested analyses; that no word within the bound causes it is a statement about all words and dictionaries.", "anchors": ["pymorphy2/analyzer.py: ProbabilityEstimator.apply_to_parses, MorphAnalyzer.parse, MorphAnalyzer._inflect", "pymorphy2/units/by_analogy.py", "pymorphy2/units/by_hyphen.py", "pymorphy2/lang/ru/config.py", "pymorphy2/lang/uk/config.py"]}
{"id": "C101", "title": "The analyzer on a converted document says exactly what the document says", "statement": "Take any well-formed OpenCorpora XML document, convert it, and construct an analyzer on the resulting folder. Then for every word w: word_is_known(w) is true exactly if some form in the document that is not of the initials may be written as w (same letters in lower case, with the one-way substitutions е→ё or г→ґ); with strict, exactly if some such form is w in lower case. The results of parse(w) that come from the dictionary are such forms, with their word and the meaning of their grammemes; every such form is among the results; none is there more often than in the document; and if the document has no two of them alike, results and forms correspond one to one. Lemmas with identical forms are one lexeme to the analyzer, so they give one result.", "quantifier": "every well-formed document, conversion settings, folder state, analyzer arguments with the default units, and every word", "why_tests_cant": "Ranges over all documents and all words; the chain goes through XML reading, tag simplification, link joining, compilation, saving, loading, construction and lookup.", "anchors": ["pymorphy2/opencorpora_dict/parse.py: parse_opencorpora_xml", "pymorphy2/opencorpora_dict/preprocess.py: simplify_tags, drop_unsupported_parses", "pymorphy2/opencorpora_dict/compile.py: convert_to_pymorphy2, compile_parsed_dict", "pymorphy2/opencorpora_dict/storage.py: save_compiled_dict, load_dict", "pymorphy2/opencorpora_dict/wrapper.py: Dictionary.word_is_known", "pymorphy2/analyzer.py: MorphAnalyzer.parse, word_is_known"]}
{"id": "C102", "title": "The parse command is a filter: endless input, failing input, failing output", "statement": "While `pymorphy parse` runs, on any input (finite, endless, or raising at some line, for example because a byte is not UTF-8) and wherever a write raises (for example because the pipe was closed, possibly after having taken a part of the text): what has been written are the lines for the first tokens of the input lines read so far, one each and in order, followed at most by a part of the next one at which the write failed; it asks for the next input line only when the lines for all tokens before are written (no read-ahead); if the input raises, everything before it has been written; on an endless input every line is eventually read and answered; what is written before a failing write is a prefix of what would have been written; on a finite input it ends, having written what C58 and C68 say. All this with every cache setting.", "quantifier": "every input stream, every point at which reading or writing fails, every number of events, all options and cache sizes", "why_tests_cant": "Ranges over all infinite inputs and all failure points.", "anchors": ["pymorphy2/cli.py: parse, _iter_tokens_tokenize, _iter_tokens_notokenize, _TokenParserFormatter"]}
{"id": "C103", "title": "Scores are accurate, and so is the score that is printed", "statement": "The score of every analysis parse() returns in floating point differs from the score exact arithmetic would give by a relative error of at most (N + 9) * 2^(n+2) / 2^52, where n is the number of letters of the word and N the largest number of analyses of the word or a piece of it; without P(t|w) data the relative error is at most (4n + 10) / 2^52. The same holds for IEEE binary64 arithmetic with its exponent range. '%0.3f' prints a score as the nearest number with three digits after the point, a larger score never as a smaller number; for words of at most 28 letters with at most 1000 analyses per piece the printed score is within 0.001 of the exact one.", "quantifier": "all dictionaries with bounded prediction counts, all P(t|w) data, all words of moderate size, all scores", "why_tests_cant": "the number of roundings behind a score grows with the nesting of prefixes, particles and hyphens in a word; a test compares a few scores with literals", "anchors": ["pymorphy2/analyzer.py: ProbabilityEstimator.apply_to_parses, MorphAnalyzer.parse", "pymorphy2/units/by_analogy.py", "pymorphy2/units/by_hyphen.py", "pymorphy2/cli.py: _TokenParserFormatter"]}
{"id": "C104", "title": "What the parse command prints in floating point", "statement": "With float scores the parse command prints, for each token, the items of the specification: tags; or the analyses whose float score reaches the threshold; or each lemma once with the float sum of its scores in parse order, larger sums first, equal ones in the order of the parses. Without a threshold the lines with tags are the ones exact arithmetic would give, and the lemmas are the same lemmas; their sums are accurate, and two lemmas whose exact sums differ by more than the rounding error are never printed in the wrong order. Equal exact sums may be told apart by rounding (0.2 + 0.1 against 0.3).", "quantifier": "all dictionaries with bounded prediction counts, all P(t|w) data, all tokens, all options, all thresholds", "why_tests_cant": "whether rounding reorders or drops a line depends on the scores of all analyses of all tokens", "anchors": ["pymorphy2/cli.py: _TokenParserFormatter", "pymorphy2/analyzer.py: MorphAnalyzer.parse"]}
{"id": "C105", "title": "How many analyses a word can have", "statement": "Although parse() of a word can take exponentially many steps (C98), its answer stays short. For a default analyzer and a word without a hyphen: len(parse(w)) is at most the number of dictionary entries (a word as a form of a paradigm) that w.lower() ends with, plus the number of entries of the prediction tables about endings of w.lower(), plus 31; so, if the dictionary has at most r entries for any spelling and each of its t prediction tables at most q for any ending, at most (n+1)(r+tq)+31 for n letters. For any word, with hyphens, particles and compounds, at most ((n+1)((n+1)(r+tq)+32))^2. Hence the conditions of C100, C103 and C104 on the number of analyses hold by themselves: with r+tq <= 2048 scores neither underflow nor overflow for words without a hyphen up to 50 letters and any words up to 22 letters, and for words without a hyphen up to 33 letters they are as accurate as C103 says.", "quantifier": "all words, all dictionaries, all P(t|w) data, both languages, any kind of scores", "why_tests_cant": "A test shows the number of analyses of some words; the bound has to hold for all words of all lengths and all dictionaries.", "anchors": ["pymorphy2/analyzer.py: MorphAnalyzer.parse", "pymorphy2/units/utils.py: add_parse_if_not_seen", "pymorphy2/units/by_analogy.py: KnownPrefixAnalyzer.parse, UnknownPrefixAnalyzer.parse, KnownSuffixAnalyzer.parse", "pymorphy2/units/by_hyphen.py: HyphenatedWordsAnalyzer, HyphenSeparatedParticleAnalyzer"]}
{"id": "C106", "title": "tag() and parse() give the tags in the same order", "statement": "For a default analyzer and any word, leave out the tags of the analyses that were predicted by the ending of the word (those whose methods_stack has a KnownSuffixAnalyzer entry). The remaining tags come in the same order from tag(w) and from parse(w) (repeated tags of parse(w) counted at their first place). So when no analysis was predicted by the ending - dictionary words, numbers, punctuation, initials, words with particles or hyphens or known prefixes whose remainder is in the dictionary - tag(w) is the list of the different tags of parse(w) in their order, and tag(w)[0] == parse(w)[0].tag, with or without P(t|w) data. (With P(t|w) data the tags the analyzer can answer with must not include two different texts that are equal as tags, since the data are looked up by text.) For words predicted by the ending this fails: there the first tags may differ. The same holds for the scores of a real run, in double precision, under the conditions of C73 and C100.", "quantifier": "all words, all dictionaries, all P(t|w) data, both languages", "why_tests_cant": "parse and tag are implemented separately in every unit, with separate duplicate removal and separate sorting; agreement of two orders has to be shown for all words, dictionaries and depths of nested calls.", "anchors": ["pymorphy2/analyzer.py: MorphAnalyzer.parse, MorphAnalyzer.tag, SingleTagProbabilityEstimator", "pymorphy2/units/by_analogy.py: KnownPrefixAnalyzer, UnknownPrefixAnalyzer, KnownSuffixAnalyzer", "pymorphy2/units/by_hyphen.py", "docs/user/guide.rst"]}
{"id": "C107", "title": "Agreement with fractional numbers", "statement": "make_agree_with_number also takes floats and fractions. Only the exact value counts: a whole float or Fraction gives what the int gives (C20), and a float gives what the fraction of the same value gives, although the remainder of a negative float is rounded. A number strictly between two neighbouring whole numbers n and n+1 gives what 2 gives if n ends in 2 or 3 but not in 12 or 13, and what 5 gives otherwise; infinities and NaN give what 5 gives. (So a noun gets the genitive singular after 2.5, as Russian requires, but the genitive plural after 1.5 or 5.5.) A decimal.Decimal of at most 28 digits that is not negative and below 10^29 gives what the fraction of the same value gives; a negative Decimal always gives what 5 gives, unlike a negative int or float; a Decimal of size 10^29 or more, infinite or NaN raises decimal.InvalidOperation, and no other does.", "quantifier": "all ints, fractions, floats and decimals (infinities and NaN too), all analyses of all analyzers", "why_tests_cant": "Tests cover some ints. The claim is about all numbers, and about the rounding of float remainders near the boundaries of the rule.", "anchors": ["pymorphy2/tagset.py: OpencorporaTag.numeral_agreement_grammemes", "pymorphy2/analyzer.py: Parse.make_agree_with_number"]}
{"id": "C108", "title": "The layout of the word files is unambiguous", "statement": "The word files store each record of a word as the bytes 'word in UTF-8, separator, packed numbers in base64'. For every list of records (words without U+0000 and U+0001, numbers of 16 bits) this loses and mixes up nothing: looking for the keys that start with a word and the separator gives exactly the records of that word, whatever word is asked (with control characters too); listing the keys with a prefix gives exactly the words with the prefix; words come in the order of their code points. Records of one spelling that are forms of one paradigm come in the order of their numbers as long as these are below 208; otherwise, contrary to the comment in dawg.py ('properly sorted'), they do not: paradigm 13 comes before paradigm 0.", "quantifier": "all lists of storable records, all words and prefixes asked", "why_tests_cant": "That no two records share a key, that no key of one word begins like another word's, and the order of all keys are statements about all words and numbers.", "anchors": ["pymorphy2/dawg.py: WordsDawg, PredictionSuffixesDAWG", "pymorphy2/opencorpora_dict/wrapper.py: Dictionary.iter_known_words", "docs/internals/dict.rst"]}
{"id": "C109", "title": "Analyzers with units of one's own keep the guarantees", "statement": "MorphAnalyzer(units=...) accepts any list of the built-in units, in any order and grouping, with any parameters (letters, tag patterns, scores, multipliers, prefixes, particles). Whatever the list: every form of the lexeme of an analysis has that lexeme and its normal form; an analysis is in its own lexeme; normalized is the first form, spelled like the normal form, and normalizing again changes nothing; whatever chain of lexeme, normalized, inflect and make_agree_with_number is applied to a result, nothing raises and one stays in the lexeme (compounds with both parts inflected and short predicted words under the conditions of C13-C15, with the configured initials being capital letters). If the dictionary unit comes first and shares its group only with units that look at the whole word, is_known of a result is word_is_known of the input. Scores are between 0 and 1 if the configured ones are; order and normalization of scores are those of C11 if no configured prefix is empty. A tag pattern which does not give masculine tags followed by feminine ones is refused by the constructor. iter_known_word_parses(prefix) enumerates the dictionary whichever unit comes first, and the yielded parses have lexemes containing them if it is the dictionary; without any unit nothing is analyzed and the enumeration raises IndexError at the first word. If the dictionary comes first, and only there, then over a compiled dictionary its results are exactly the occurrences of the word in the source (C79), they do not depend on the other units, and they are closed under lexemes and normal forms (C72). If no configured prefix is empty, nested calls are on shorter pieces of the word only, at most n(n+1)/2 of them, nested at most n deep; if the first unit removes an empty prefix (without the C extension), no word is ever analyzed: every recursion limit is exceeded.", "quantifier": "all lists of units with all parameters, all dictionaries, words, results and chains of operations", "why_tests_cant": "There are infinitely many configurations; the projects' tests use the default ones and a handful of others.", "anchors": ["pymorphy2/analyzer.py: MorphAnalyzer.__init__, _init_units, parse", "pymorphy2/units/*.py", "pymorphy2/units/abbreviations.py: AbbreviatedFirstNameAnalyzer.__init__ (assertion)", "pymorphy2/analyzer.py: MorphAnalyzer.iter_known_word_parses"]}
{"id": "C110", "title": "Units and estimators written by the user", "statement": "MorphAnalyzer accepts units and a probability_estimator_cls of the user's own. If a unit derived from BaseAnalyzerUnit asks morph.parse/morph.tag only about strictly shorter pieces of the word it is given, parse and tag of the whole analyzer terminate, with nesting bounded by the length of the word, and raise nothing that no unit or estimator raises by itself; the answer is that of the first group of units that answers (a unit returning nothing having no effect), and is never empty when UnknAnalyzer is the last group; tag still returns exactly the tags of parse for units that define parse only (tag is inherited) or derive from the shape analyzers, and for estimators that only rescore and reorder; adding a group changes nothing for words on which, and on whose pieces, its units are silent; a shape analyzer of one's own placed first answers alone for strings of its shape, with one form which is its own normal form. A unit that asks about the very word it is given recurses without end.", "quantifier": "all lists of groups of units (library units and arbitrary functions for the user's parse methods, contracts as stated), all estimators, all dictionaries, all strings", "why_tests_cant": "the units range over arbitrary code of the user; only a proof from the contract of a unit covers classes that are not written yet", "anchors": ["pymorphy2/analyzer.py: MorphAnalyzer._init_units, parse, tag", "pymorphy2/units/base.py: BaseAnalyzerUnit.tag", "pymorphy2/units/by_shape.py: _ShapeAnalyzer", "pymorphy2/units/utils.py: add_parse_if_not_seen, add_tag_if_not_seen"]}
{"id": "C111", "title": "Analogy units written by the user", "statement": "A unit derived from AnalogyAnalizerUnit analyses a word by asking about a part of it and decorating the answers, and defines the normalizer and lexemizer coroutines. If its decoration can be taken off again and ignores scores, then for a word decorated by any number of such units (whatever scores they give) over an analysis of the analyzer: lexeme is the lexeme of the undecorated word decorated form by form; every form of it has the same lexeme; the word is in its own lexeme; normalized is the first form, is spelled like the normal form and normalizing it again changes nothing; if tags are kept, inflect returns the decorated result of inflecting the undecorated word, raising what that raises, and nothing fails for known grammemes. The library's own prefix, particle and ending units are instances. Decorating with the inherited (do-nothing) coroutines gives wrong lexemes, and without_fixed_suffix(form, 0) deletes the word.", "quantifier": "all lists of reversible decorations (arbitrary functions), all scores, all configured analyzers, well-formed dictionaries and strings, all sets of grammemes and similarity arithmetics", "why_tests_cant": "the decorations are arbitrary code of the user, nested to any depth over any dictionary; only a proof from reversibility covers classes not written yet", "anchors": ["pymorphy2/units/base.py: AnalogyAnalizerUnit.normalized, get_lexeme, normalizer, lexemizer", "pymorphy2/units/utils.py: without_last_method, append_method, with_prefix, with_suffix, without_fixed_prefix, without_fixed_suffix", "pymorphy2/analyzer.py: Parse.lexeme, Parse.normalized, Parse.inflect, MorphAnalyzer._inflect"]}
{"id": "C112", "title": "json_read reads exactly the JSON grammar", "statement": "json_read (used for meta.json, gramtab, suffixes and paradigm prefixes) reads a file as a value if and only if the file holds the UTF-8 bytes of a document of that value by the grammar of RFC 8259 - any white space, any of the ways of writing a character (plain, short escape, \\uXXXX with hexadecimal digits of either case, surrogate pairs), numbers with sign, fraction and exponent, nested lists and dicts, keys written twice (last value, first place) - perhaps followed by the first bytes of one more character; every other file is refused with ValueError. A document stands for one value at most; what json_write writes is such a document; a file written or re-laid-out by another program is read as the same value.", "quantifier": "all byte strings, texts and JSON values of any size and depth", "why_tests_cant": "the set of documents is infinite and so is its complement; only a proof that scanner and grammar agree shows that no document is refused or misread and no other file accepted", "anchors": ["pymorphy2/utils.py: json_read, json_write", "pymorphy2/opencorpora_dict/storage.py: load_dict"]}
{"id": "C113", "title": "Which exception is raised", "statement": "Constructing a unit raises nothing but TypeError (unknown name, missing argument, letters that cannot be iterated over); a tag pattern that is no string or prefixes that cannot be iterated over raise TypeError when the analyzer is made. `pymorphy parse` writes nothing and ends with the exception of MorphAnalyzer(), with IOError for a missing input file, and otherwise with ValueError for a wrong threshold, a wrong cache size or only scores wanted. Reading a lemma of an OpenCorpora document raises exactly for the first thing wrong with it: AssertionError (not one l), TypeError (grammeme without v), AttributeError (form without t). An id that is no number ends a conversion with TypeError (missing) or ValueError (something else), after the links were processed and with nothing written; a link without an end is a link to `None`.", "quantifier": "all classes of units and keyword arguments, all machines, inputs and options of the command, all XML elements and documents", "why_tests_cant": "the first of any number of wrong things decides, in documents and argument lists of any size; and callers catch by class, so 'nothing else is raised' is a claim about all inputs", "anchors": ["pymorphy2/units/base.py: BaseAnalyzerUnit", "pymorphy2/units/abbreviations.py: _InitialsAnalyzer.__init__", "pymorphy2/cli.py: main, parse, _open_for_read", "pymorphy2/opencorpora_dict/parse.py: _word_forms_from_xml_elem, _grammemes_from_elem", "pymorphy2/opencorpora_dict/compile.py: _join_lexemes, convert_to_pymorphy2"]}
{"id": "C114", "title": "Results belong to the analyzer that made them", "statement": "Every MorphAnalyzer with a result_type gives its results a class of its own: an instance of it is an instance of the class asked for and of Parse, has the same name, and is never shared with another analyzer (also when the result_type is the class of another analyzer's results, and for unpickled copies, whose class derives from the class originally asked for). inflect, lexeme, normalized, make_agree_with_number and is_known of a result are answered by the analyzer that made it, give results of the same class, and this stays so along any chain of operations, whatever other classes and analyzers the process makes meanwhile. The result_type changes nothing but the class: with result_type=None the same fields come as plain tuples, which have no methods (AttributeError) but can be given to get_lexeme. a.get_lexeme(result of b) gives the forms of b in the class of a, whose is_known asks the dictionary of a. An instance of Parse that no analyzer made can be normalized, its other methods raise AttributeError. Results of different analyzers are never equal.", "quantifier": "all processes reachable by defining subclasses, constructing and unpickling analyzers in any order; all words, results, required grammemes, numbers; all chains of operations interleaved with all of that", "why_tests_cant": "the binding is a class attribute looked up along a chain of bases; that no other analyzer in any later history captures it, and that no chain of operations leaves the class, is an invariant of all histories", "anchors": ["pymorphy2/analyzer.py: Parse, MorphAnalyzer.__init__, parse, get_lexeme, _inflect, iter_known_word_parses, __reduce__", "pymorphy2/units/by_shape.py: get_lexeme, normalized", "pymorphy2/units/by_hyphen.py: HyphenAdverbAnalyzer.get_lexeme", "pymorphy2/units/unkn.py: UnknAnalyzer.get_lexeme"]}
{"id": "C115", "title": "Constructing an analyzer warns exactly when something is wrong with the language", "statement": "MorphAnalyzer(...) warns that Russian is assumed exactly if the user gives a path and no language and the dictionary declares none; warns of a mismatch exactly if the user (or the default 'ru', when neither path nor language is given) says one language and the dictionary another or none; and warns of an unknown language code exactly if the library has no settings of that name ('ru-old' counting as 'ru'), once for each of units and substitutes that is left to the language. The warnings come in this order, nothing else is warned about, and they change nothing in what is returned or raised. A dictionary that declares the language it is used for, 'ru' or 'uk', is loaded silently; one that declares none is never loaded silently; a constructor that fails before the dictionary is loaded has not warned.", "quantifier": "all arguments, environments, installed packages, folders and dictionaries", "why_tests_cant": "exactly-when over all combinations of path, language, environment variable, dictionary metadata and overridden settings, including constructors that raise half way", "anchors": ["pymorphy2/analyzer.py: MorphAnalyzer.__init__, choose_language, _lang_default_config, _config_value, _init_units, _init_char_substitutes"]}
{"id": "C116", "title": "Comparing tags and results", "statement": "Two tags compare with ==, !=, < and > by their grammemes in the order of the tag string, whatever their classes are; <= and >= raise TypeError. Comparing a tag with anything that is no tag raises AttributeError (==, !=, <, >) or TypeError (<=, >=), on whichever side the tag is. == of two results never raises, and holds exactly if word, grammemes in their order, normal form, score and methods are the same. Results are ordered by word, then grammemes, then normal form, then score, and <, > cannot raise while one of these differs; results that agree in all four compare by their methods, which may raise TypeError and nothing else. All results of iter_known_word_parses can be compared with < and > (sorted); the results of parse cannot always.", "quantifier": "all tags, all classes of tags, all other operands, all results, all dictionaries", "why_tests_cant": "totality and exactness of the operators over all pairs of operands; nested methods stacks of any depth; all dictionaries and prefixes", "anchors": ["pymorphy2/tagset.py: OpencorporaTag.__eq__, __ne__, __lt__, __gt__", "pymorphy2/analyzer.py: Parse, MorphAnalyzer.parse, MorphAnalyzer.iter_known_word_parses"]}
